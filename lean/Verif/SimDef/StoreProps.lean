import Verif.SimDef.StoreModel
import Verif.SimDef.KeysProps

/-! # C04, C09, C57: value access -/

namespace Mapleaf.SimDef
open Str

/-! ## C04: precedence -/

/-- Specification: the class-based default of a key. `n` segments of the key name the item; it is the longest
prefix that has a class, and the rest of the key is looked up under that class. -/
def ClassDefault (dict defaults : Dict Str Str) (key v : Str) : Prop :=
  ∃ n c, 1 ≤ n ∧ n ≤ (dictPath key).length ∧
    Dict.get? dict (join ['.'] ((splitC '.' key).take n) ++ ".class".toList) = some c ∧
    (∀ m, n < m → m ≤ (dictPath key).length →
      Dict.get? dict (join ['.'] ((splitC '.' key).take m) ++ ".class".toList) = none) ∧
    Dict.get? defaults (c ++ '.' :: join ['.'] ((splitC '.' key).drop n)) = some v

theorem classLoop_spec (s : Store) (key v : Str) (N : Nat) :
    (∃ ck dk, classLoop s key N = some (v, ck, dk)) ↔
    ∃ n c, 1 ≤ n ∧ n ≤ N ∧
      Dict.get? s.dict (join ['.'] ((splitC '.' key).take n) ++ ".class".toList) = some c ∧
      (∀ m, n < m → m ≤ N → Dict.get? s.dict (join ['.'] ((splitC '.' key).take m) ++ ".class".toList) = none) ∧
      Dict.get? s.defaults (c ++ '.' :: join ['.'] ((splitC '.' key).drop n)) = some v := by
  induction N with
  | zero =>
    constructor
    · rintro ⟨ck, dk, h⟩; simp [classLoop] at h
    · rintro ⟨n, c, h1, h2, _⟩; omega
  | succ N ih =>
    have hn : ((N : Int) + 1).toNat = N + 1 := by omega
    unfold classLoop
    simp only [splitKeyAtLevel, hn, dotClass]
    cases hc : Dict.get? s.dict (join ['.'] ((splitC '.' key).take (N + 1)) ++ ".class".toList) with
    | some c =>
      simp only
      constructor
      · rintro ⟨ck, dk, h⟩
        cases hd : Dict.get? s.defaults (c ++ '.' :: join ['.'] ((splitC '.' key).drop (N + 1))) with
        | none => rw [hd] at h; cases h
        | some w =>
          rw [hd] at h
          simp at h
          refine ⟨N + 1, c, by omega, le_refl _, hc, by intro m h1 h2; omega, ?_⟩
          rw [hd, h.1]
      · rintro ⟨n, c', h1, h2, h3, h4, h5⟩
        have hnN : n = N + 1 := by
          by_contra hne
          have := h4 (N + 1) (by omega) (le_refl _)
          rw [hc] at this; cases this
        subst hnN
        rw [hc] at h3; cases h3
        rw [h5]; exact ⟨_, _, rfl⟩
    | none =>
      simp only
      rw [ih]
      constructor
      · rintro ⟨n, c, h1, h2, h3, h4, h5⟩
        refine ⟨n, c, h1, by omega, h3, ?_, h5⟩
        intro m hm1 hm2
        by_cases hm : m = N + 1
        · subst hm; exact hc
        · exact h4 m hm1 (by omega)
      · rintro ⟨n, c, h1, h2, h3, h4, h5⟩
        have hnN : n ≠ N + 1 := by rintro rfl; rw [hc] at h3; cases h3
        exact ⟨n, c, h1, by omega, h3, fun m hm1 hm2 => h4 m hm1 (by omega), h5⟩

theorem classBased_spec (s : Store) (key v : Str) :
    (∃ ck dk, classBased s key = some (v, ck, dk)) ↔ ClassDefault s.dict s.defaults key v := by
  have : (getKeyLevel key + 1).toNat = (dictPath key).length := by rw [getKeyLevel_eq]; omega
  unfold classBased ClassDefault
  rw [this]
  exact classLoop_spec s key v _

/-- Specification of a lookup: user value, else default, else class-based default. -/
def Lookup (dict defaults : Dict Str Str) (key v : Str) : Prop :=
  Dict.get? dict key = some v ∨
  (Dict.get? dict key = none ∧ Dict.get? defaults key = some v) ∨
  (Dict.get? dict key = none ∧ Dict.get? defaults key = none ∧ ClassDefault dict defaults key v)

/-- **C04** `getValue` returns exactly what the precedence rule says … -/
theorem getValue_ok_iff (s : Store) (key v : Str) :
    (getValue s key).1 = .ok v ↔ Lookup s.dict s.defaults (strip key) v := by
  unfold getValue Lookup
  simp only
  cases h1 : Dict.get? s.dict (strip key) with
  | some w => simp
  | none =>
    cases h2 : Dict.get? s.defaults (strip key) with
    | some w => simp
    | none =>
      simp only [true_and, reduceCtorEq, false_or]
      rw [← classBased_spec]
      cases h3 : classBased s (strip key) with
      | none => simp
      | some r => obtain ⟨w, ck, dk⟩ := r; simp

/-- **C04** … and raises `KeyError` exactly when the rule gives nothing. -/
theorem getValue_error_iff (s : Store) (key : Str) (e : PyErr) :
    (getValue s key).1 = .error e ↔ e = .keyError ∧ ¬ ∃ v, Lookup s.dict s.defaults (strip key) v := by
  constructor
  · intro h
    constructor
    · unfold getValue at h
      simp only at h
      split at h
      · cases h
      · split at h
        · cases h
        · split at h
          · cases h
          · cases h; rfl
    · rintro ⟨v, hv⟩
      rw [← getValue_ok_iff] at hv
      rw [hv] at h; cases h
  · rintro ⟨rfl, h⟩
    cases hr : (getValue s key).1 with
    | ok v => exact absurd ⟨v, (getValue_ok_iff s key v).1 hr⟩ h
    | error e =>
      unfold getValue at hr
      simp only at hr
      split at hr
      · cases hr
      · split at hr
        · cases hr
        · split at hr
          · cases hr
          · cases hr; rfl

/-- **C04** Reads change neither the definition nor the defaults. -/
theorem getValue_readonly (s : Store) (key : Str) :
    (getValue s key).2.dict = s.dict ∧ (getValue s key).2.defaults = s.defaults := by
  unfold getValue
  simp only
  split
  · exact ⟨rfl, rfl⟩
  · split
    · exact ⟨rfl, rfl⟩
    · split <;> exact ⟨rfl, rfl⟩

/-! ### Histories -/

/-- Operations on a definition. -/
inductive Op
  | get (key : Str)
  | set (key v : Str)
  | remove (key : Str)
  | setIfAbsent (key v : Str)

def step (s : Store) : Op → Store
  | .get k => (getValue s k).2
  | .set k v => setValue s k v
  | .remove k => (removeKey s k).2
  | .setIfAbsent k v => setIfAbsent s k v

/-- Abstract map. -/
abbrev AMap := Str → Option Str

def aset (m : AMap) (k : Str) (v : Option Str) : AMap := fun x => if k = x then v else m x

/-- Specification of the operations on the abstract map: every operation acts on the key without surrounding white
space. -/
def astep (m : AMap) : Op → AMap
  | .get _ => m
  | .set k v => aset m (strip k) (some v)
  | .remove k => aset m (strip k) none
  | .setIfAbsent k v => if m (strip k) = none then aset m (strip k) (some v) else m

/-- `removeKey` and `setIfAbsent` do not remove surrounding white space from the key they test; the refinement holds
when they are called with clean keys. -/
def CleanOp : Op → Prop
  | .get _ => True
  | .set _ _ => True
  | .remove k => strip k = k
  | .setIfAbsent k _ => strip k = k

instance (o : Op) : Decidable (CleanOp o) := by cases o <;> unfold CleanOp <;> infer_instance

theorem step_refines (s : Store) (hs : Dict.WF s.dict) (o : Op) (ho : CleanOp o) :
    Dict.WF (step s o).dict ∧ (step s o).defaults = s.defaults ∧
    Dict.get? (step s o).dict = astep (Dict.get? s.dict) o := by
  cases o with
  | get k =>
    obtain ⟨h1, h2⟩ := getValue_readonly s k
    simp only [step, astep]
    rw [h1, h2]; exact ⟨hs, rfl, rfl⟩
  | set k v =>
    refine ⟨Dict.WF_set hs _ _, rfl, ?_⟩
    funext x
    simp only [step, setValue, astep, aset]
    exact Dict.get?_set _ _ _ _
  | remove k =>
    have hk : strip k = k := ho
    simp only [step, removeKey, astep]
    cases h : Dict.get? s.dict k with
    | some v =>
      refine ⟨Dict.WF_erase hs _, rfl, ?_⟩
      funext x
      simp only [aset, hk]
      exact Dict.get?_erase hs _ _
    | none =>
      refine ⟨hs, rfl, ?_⟩
      funext x
      simp only [aset, hk]
      split
      · rename_i e; rw [← e]; exact h
      · rfl
  | setIfAbsent k v =>
    have hk : strip k = k := ho
    simp only [step, setIfAbsent, astep]
    cases h : Dict.get? s.dict k with
    | some w =>
      have : Dict.has s.dict k = true := by simp [Dict.has, h]
      simp only [this, Bool.not_true, Bool.false_eq_true, if_false, hk, h]
      refine ⟨hs, trivial, ?_⟩
      rw [if_neg (by simp)]
    | none =>
      have : Dict.has s.dict k = false := by simp [Dict.has, h]
      simp only [this, Bool.not_false, if_true, hk, h, setValue]
      refine ⟨Dict.WF_set hs _ _, trivial, ?_⟩
      funext x
      exact Dict.get?_set _ _ _ _

/-- **C04** For every history of reads and writes the definition behaves like a map with the last write winning.
Missing part: `removeKey` / `setIfAbsent` with keys that carry surrounding white space, for which this is false
(`setIfAbsent_violated`, `removeKey_violated`). -/
theorem history_refines_map_partial (ops : List Op) (s : Store) (hs : Dict.WF s.dict) (ho : ∀ o ∈ ops, CleanOp o) :
    (ops.foldl step s).defaults = s.defaults ∧
    Dict.get? (ops.foldl step s).dict = ops.foldl astep (Dict.get? s.dict) := by
  induction ops generalizing s with
  | nil => exact ⟨rfl, rfl⟩
  | cons o ops ih =>
    obtain ⟨h1, h2, h3⟩ := step_refines s hs o (ho o (by simp))
    obtain ⟨i1, i2⟩ := ih (step s o) h1 (fun o' h => ho o' (by simp [h]))
    simp only [List.foldl_cons]
    rw [i1, i2, h2, h3]; exact ⟨rfl, rfl⟩

theorem strip_idem (s : Str) : strip (strip s) = strip s := by
  have hl : ∀ t : Str, (∀ c, t.head? = some c → isWs c = false) → lstrip t = t := by
    intro t h
    cases t with
    | nil => rfl
    | cons c cs => simp [lstrip, h c rfl]
  have hhead : ∀ c, (lstrip s).head? = some c → isWs c = false := by
    intro c hc
    unfold lstrip at hc
    have := List.head?_dropWhile_not isWs s
    rw [hc] at this
    simpa using this
  have hr : ∀ t : Str, rstrip (rstrip t) = rstrip t := by
    intro t
    unfold rstrip
    rw [List.reverse_reverse]
    congr 1
    have : ∀ u : Str, (u.dropWhile isWs).dropWhile isWs = u.dropWhile isWs := by
      intro u
      induction u with
      | nil => rfl
      | cons a u ih =>
        by_cases h : isWs a
        · simp [h, ih]
        · simp [h]
    exact this _
  have hpre : (rstrip (lstrip s)) <+: lstrip s := by
    unfold rstrip
    have := List.dropWhile_suffix isWs (l := (lstrip s).reverse)
    have := List.reverse_prefix.2 this
    simpa using this
  unfold strip
  rw [hl (rstrip (lstrip s)), hr]
  intro c hc
  apply hhead
  obtain ⟨t, ht⟩ := hpre
  rw [← ht]
  cases hx : rstrip (lstrip s) with
  | nil => rw [hx] at hc; cases hc
  | cons a u => rw [hx] at hc; simpa using hc

/-- **C04** Reading back the value just written. -/
theorem get_after_set (s : Store) (k k' v : Str) (h : strip k' = strip k) :
    (getValue (setValue s k v) k').1 = .ok v := by
  rw [getValue_ok_iff]
  left
  rw [h]
  exact Dict.get?_set_self _ _ _

/-- **C04 fails** for `setIfAbsent` with surrounding white space: it overwrites a value that is present. -/
theorem setIfAbsent_violated :
    let s := newStore [("a".toList, "1".toList)] []
    (getValue (setIfAbsent s " a".toList "2".toList) "a".toList).1 = .ok "2".toList := by decide +kernel

/-- **C04 fails** for `removeKey` with surrounding white space: a key that `setValue` and `getValue` accept is not
removed. -/
theorem removeKey_violated :
    let s := setValue (newStore [] []) " a".toList "1".toList
    (removeKey s " a".toList).1 = none ∧ (getValue (removeKey s " a".toList).2 " a".toList).1 = .ok "1".toList := by
  decide +kernel

-- Non-vacuity: class-based default two levels up, user value first, default second.
example :
    let s := newStore [("R.S.fins.class".toList, "FinSet".toList), ("x".toList, "1".toList)]
      [("FinSet.edge.shape".toList, "Round".toList), ("x".toList, "9".toList), ("y".toList, "8".toList)]
    (getValue s "R.S.fins.edge.shape ".toList).1 = .ok "Round".toList ∧ (getValue s "x".toList).1 = .ok "1".toList ∧
    (getValue s "y".toList).1 = .ok "8".toList ∧ (getValue s "z".toList).1 = .error .keyError := by decide +kernel

example : ∀ o ∈ [Op.set " a ".toList "1".toList, .get "a".toList, .remove "a".toList, .setIfAbsent "b".toList []],
    CleanOp o := by decide +kernel

/-! ## C09: SubDictReader -/

/-- **C09** The reader takes the value at the relative path if there is one, otherwise the value at the absolute
path, otherwise it raises `KeyError`; the definition itself is not changed. -/
theorem getString_spec (s : Store) (path key : Str) :
    (∀ v, (getString s path key).1 = .ok v ↔
      Lookup s.dict s.defaults (strip (relKey path key)) v ∨
      ((¬ ∃ w, Lookup s.dict s.defaults (strip (relKey path key)) w) ∧ Lookup s.dict s.defaults (strip key) v)) ∧
    (∀ e, (getString s path key).1 = .error e ↔ e = .keyError ∧
      (¬ ∃ w, Lookup s.dict s.defaults (strip (relKey path key)) w) ∧ ¬ ∃ w, Lookup s.dict s.defaults (strip key) w) ∧
    (getString s path key).2.dict = s.dict ∧ (getString s path key).2.defaults = s.defaults := by
  obtain ⟨d1, d2⟩ := getValue_readonly s (relKey path key)
  cases hg : getValue s (relKey path key) with
  | mk r s1 =>
    rw [hg] at d1 d2
    simp only at d1 d2
    cases r with
    | ok v =>
      have hl : Lookup s.dict s.defaults (strip (relKey path key)) v := by
        rw [← getValue_ok_iff, hg]
      have hs : getString s path key = (.ok v, s1) := by simp [getString, hg]
      rw [hs]
      refine ⟨fun w => ?_, fun e => ?_, d1, d2⟩
      · constructor
        · intro h; cases h; exact Or.inl hl
        · rintro (h | ⟨h, _⟩)
          · rw [← getValue_ok_iff, hg] at h; simpa using h
          · exact absurd ⟨v, hl⟩ h
      · constructor
        · intro h; cases h
        · rintro ⟨_, h, _⟩; exact absurd ⟨v, hl⟩ h
    | error e =>
      have he : (getValue s (relKey path key)).1 = .error e := by rw [hg]
      rw [getValue_error_iff] at he
      obtain ⟨rfl, hno⟩ := he
      obtain ⟨d3, d4⟩ := getValue_readonly s1 key
      have hs : getString s path key = getValue s1 key := by
        simp only [getString, hg]
        cases hg2 : getValue s1 key with
        | mk r2 s2 =>
          cases r2 with
          | ok v => rfl
          | error e2 => cases e2 <;> rfl
      rw [hs]
      refine ⟨fun w => ?_, fun e => ?_, by rw [d3, d1], by rw [d4, d2]⟩
      · rw [getValue_ok_iff, d1, d2]
        constructor
        · intro h; exact Or.inr ⟨hno, h⟩
        · rintro (h | ⟨_, h⟩)
          · exact absurd ⟨w, h⟩ hno
          · exact h
      · rw [getValue_error_iff, d1, d2]
        exact ⟨fun h => ⟨h.1, hno, h.2⟩, fun h => ⟨h.1, h.2.2⟩⟩

/-- A key is found by the reader. -/
def Found (s : Store) (path key : Str) : Prop :=
  (∃ w, Lookup s.dict s.defaults (strip (relKey path key)) w) ∨ ∃ w, Lookup s.dict s.defaults (strip key) w

theorem getString_cases (s : Store) (path key : Str) :
    (∃ v, (getString s path key).1 = .ok v ∧ Found s path key) ∨
    ((getString s path key).1 = .error .keyError ∧ ¬ Found s path key) := by
  obtain ⟨h1, h2, _⟩ := getString_spec s path key
  cases h : (getString s path key).1 with
  | ok v =>
    left
    refine ⟨v, rfl, ?_⟩
    rcases (h1 v).1 h with h | ⟨_, h⟩
    · exact Or.inl ⟨v, h⟩
    · exact Or.inr ⟨v, h⟩
  | error e =>
    right
    obtain ⟨rfl, h3, h4⟩ := (h2 e).1 h
    exact ⟨rfl, fun hf => hf.elim h3 h4⟩

/-- **C09** The try-variants return the caller's default exactly when nothing is found; if something is found the
converted value, or the conversion error, comes back — a malformed value is never replaced by the default.
(`conv` never raises `KeyError`: `int`, `float`, `strtobool` and `Vector` raise `ValueError`.) -/
theorem tryGet_spec {α : Type} (conv : Str → Except PyErr α) (hconv : ∀ t, conv t ≠ .error .keyError)
    (s : Store) (path key : Str) (dflt : α) :
    (¬ Found s path key → (tryGet conv s path key dflt).1 = .ok dflt) ∧
    (∀ v, (getString s path key).1 = .ok v → (tryGet conv s path key dflt).1 = conv v) ∧
    (Found s path key → ∃ v, (getString s path key).1 = .ok v ∧ (tryGet conv s path key dflt).1 = conv v) := by
  have key2 : ∀ v, (getString s path key).1 = .ok v → (tryGet conv s path key dflt).1 = conv v := by
    intro v hv
    unfold tryGet getParsed
    cases hg : getString s path key with
    | mk r s1 =>
      rw [hg] at hv
      simp only at hv
      subst hv
      simp only
      cases hc : conv v with
      | ok a => rfl
      | error e =>
        have : e ≠ .keyError := fun h => hconv v (h ▸ hc)
        cases e <;> first | rfl | exact absurd rfl this
  refine ⟨?_, key2, ?_⟩
  · intro hnf
    rcases getString_cases s path key with ⟨v, _, hf⟩ | ⟨he, _⟩
    · exact absurd hf hnf
    · unfold tryGet getParsed
      cases hg : getString s path key with
      | mk r s1 =>
        rw [hg] at he
        simp only at he
        subst he
        rfl
  · intro hf
    rcases getString_cases s path key with ⟨v, hv, _⟩ | ⟨_, hnf⟩
    · exact ⟨v, hv, key2 v hv⟩
    · exact absurd hf hnf

/-- **C09** Listing functions: the relative dictionary if it has entries, otherwise the absolute one. -/
theorem readerList_spec (list : Str → List Str) (path key : Str) :
    (list (relKey path key) ≠ [] → readerList list path (some key) = list (relKey path key)) ∧
    (list (relKey path key) = [] → readerList list path (some key) = list key) ∧
    readerList list path none = list path := by
  refine ⟨?_, ?_, rfl⟩
  · intro h; simp [readerList, h]
  · intro h; simp [readerList, h]

theorem takeWhile_all {p : Char → Bool} : ∀ {l : Str}, (∀ c ∈ l, p c = true) → l.takeWhile p = l
  | [], _ => rfl
  | c :: cs, h => by
    rw [List.takeWhile_cons_of_pos (h c (by simp)), takeWhile_all (fun d hd => h d (by simp [hd]))]

theorem takeWhile_append_mem {p : Char → Bool} {r : Str} : ∀ {l : Str}, (∃ c ∈ l, p c = false) →
    (l ++ r).takeWhile p = l.takeWhile p
  | [], h => by obtain ⟨c, hc, _⟩ := h; cases hc
  | c :: cs, h => by
    rw [List.cons_append]
    by_cases hc : p c = true
    · rw [List.takeWhile_cons_of_pos hc, List.takeWhile_cons_of_pos hc, takeWhile_append_mem]
      obtain ⟨d, hd, hd2⟩ := h
      rcases List.mem_cons.1 hd with rfl | hd
      · rw [hc] at hd2; cases hd2
      · exact ⟨d, hd, hd2⟩
    · rw [List.takeWhile_cons_of_neg hc, List.takeWhile_cons_of_neg hc]

theorem getDictName_no_dot {a : Str} (h : '.' ∉ a) : getDictName a = a := by
  unfold getDictName
  rw [takeWhile_all, List.reverse_reverse]
  intro c hc
  simp only [List.mem_reverse] at hc
  simp only [decide_eq_true_eq]
  rintro rfl; exact h hc

theorem getDictName_append (a y : Str) : getDictName (a ++ ['.'] ++ y) = getDictName y := by
  by_cases hy : '.' ∈ y
  · unfold getDictName
    have e : (a ++ ['.'] ++ y).reverse = y.reverse ++ ('.' :: a.reverse) := by simp
    rw [e, takeWhile_append_mem ⟨'.', by simpa using hy, by simp⟩]
  · rw [getDictName_no_dot hy]
    unfold getDictName
    have e : (a ++ ['.'] ++ y).reverse = y.reverse ++ ('.' :: a.reverse) := by simp
    have ht' : ∀ c ∈ y.reverse, (decide (c ≠ '.')) = true := by
      intro c hc
      simp only [List.mem_reverse] at hc
      simp only [decide_eq_true_eq]
      rintro rfl; exact hy hc
    rw [e, List.takeWhile_append_of_pos ht', List.takeWhile_cons_of_neg (by simp)]
    simp

/-- **C09** `getDictName` is the last segment of the reader's path. -/
theorem getDictName_spec (path : Str) : getDictName path = (splitC '.' path).getLast (splitC_ne_nil '.' path) := by
  have key : ∀ l : List Str, (hne : l ≠ []) → (∀ s ∈ l, '.' ∉ s) →
      getDictName (join ['.'] l) = l.getLast hne := by
    intro l
    induction l with
    | nil => intro h; exact absurd rfl h
    | cons a l ih =>
      intro _ hs
      cases l with
      | nil => simpa [join] using getDictName_no_dot (hs a (by simp))
      | cons b t =>
        have ihb := ih (by simp) (fun s h => hs s (by simp [h]))
        rw [List.getLast_cons (by simp), ← ihb, join_cons _ _ (by simp)]
        exact getDictName_append a _
  have := key (splitC '.' path) (splitC_ne_nil _ _) splitC_no_sep
  rw [join_splitC] at this
  exact this

-- Non-vacuity: relative beats absolute; malformed value raises; absent gives the default.
example :
    let s := newStore [("A.B.x".toList, "1".toList), ("x".toList, "2".toList), ("y".toList, "bad".toList)] []
    let conv : Str → Except PyErr Nat := fun t => if t = "1".toList then .ok 1 else if t = "2".toList then .ok 2
      else .error .valueError
    (tryGet conv s "A.B".toList "x".toList 7).1 = .ok 1 ∧ (tryGet conv s "A.C".toList "x".toList 7).1 = .ok 2 ∧
    (tryGet conv s "A.C".toList "y".toList 7).1 = .error .valueError ∧
    (tryGet conv s "A.C".toList "z".toList 7).1 = .ok 7 := by decide +kernel

/-! ## C57: usage report -/

/-- Keys read (successfully, as user values) or used as class of an item by a read. -/
def Touched (s : Store) (key0 k : Str) : Prop :=
  (k = strip key0 ∧ Dict.get? s.dict k ≠ none) ∨
  (Dict.get? s.dict (strip key0) = none ∧ Dict.get? s.defaults (strip key0) = none ∧
    ∃ v dk, classBased s (strip key0) = some (v, k, dk))

/-- **C57** One read removes exactly the keys it used from the list of unused keys. -/
theorem getValue_unaccessed (s : Store) (key0 k : Str) :
    k ∈ (getValue s key0).2.unaccessed ↔ k ∈ s.unaccessed ∧ ¬ Touched s key0 k := by
  unfold getValue Touched
  simp only
  cases h1 : Dict.get? s.dict (strip key0) with
  | some v =>
    simp only [List.mem_filter, decide_eq_true_eq, reduceCtorEq, false_and, or_false, not_and]
    constructor
    · rintro ⟨a, b⟩; exact ⟨a, fun hk => absurd hk b⟩
    · rintro ⟨a, b⟩
      refine ⟨a, fun hk => ?_⟩
      have := b hk
      rw [hk, h1] at this
      simp at this
  | none =>
    have hx : ¬ (k = strip key0 ∧ Dict.get? s.dict k ≠ none) := by
      rintro ⟨rfl, hk⟩; exact hk h1
    cases h2 : Dict.get? s.defaults (strip key0) with
    | some v => simp [hx]
    | none =>
      cases h3 : classBased s (strip key0) with
      | none => simp [hx]
      | some r =>
        obtain ⟨v, ck, dk⟩ := r
        simp only [List.mem_filter, decide_eq_true_eq, true_and, Option.some.injEq, Prod.mk.injEq, not_or]
        constructor
        · rintro ⟨a, b⟩
          refine ⟨a, fun hh => absurd hh hx, ?_⟩
          rintro ⟨v', dk', _, hck, _⟩; exact b hck.symm
        · rintro ⟨a, _, b⟩
          exact ⟨a, fun hk => b ⟨v, dk, rfl, hk.symm, rfl⟩⟩

/-- **C57** (read-only histories) After any sequence of reads the unused-keys report succeeds and lists exactly the
loaded keys that no read has touched, with their values. Missing part: histories that remove keys, see
`unused_report_violated`. -/
theorem unused_report_partial (reads : List Str) (dict defaults : Dict Str Str) :
    let s := reads.foldl (fun s k => (getValue s k).2) (newStore dict defaults)
    ∃ l, printUnusedKeys s = .ok l ∧
      ∀ k v, (k, v) ∈ l ↔ Dict.get? dict k = some v ∧ ∀ r ∈ reads, ¬ Touched (newStore dict defaults) r k := by
  intro s
  have hinv : ∀ (reads : List Str) (s0 : Store), s0.dict = dict → s0.defaults = defaults →
      (reads.foldl (fun s k => (getValue s k).2) s0).dict = dict ∧
      ∀ k, k ∈ (reads.foldl (fun s k => (getValue s k).2) s0).unaccessed ↔
        k ∈ s0.unaccessed ∧ ∀ r ∈ reads, ¬ Touched (newStore dict defaults) r k := by
    intro reads
    induction reads with
    | nil => intro s0 h1 _; exact ⟨h1, by simp⟩
    | cons r rs ih =>
      intro s0 h1 h2
      obtain ⟨g1, g2⟩ := getValue_readonly s0 r
      obtain ⟨i1, i2⟩ := ih (getValue s0 r).2 (by rw [g1, h1]) (by rw [g2, h2])
      refine ⟨i1, fun k => ?_⟩
      rw [List.foldl_cons, i2, getValue_unaccessed]
      have ht : Touched s0 r k ↔ Touched (newStore dict defaults) r k := by
        have hcb : ∀ N, classLoop s0 (strip r) N = classLoop (newStore dict defaults) (strip r) N := by
          intro N
          induction N with
          | zero => rfl
          | succ N ihN => simp only [classLoop, h1, h2, newStore, resetTrackers]; rw [ihN]; rfl
        unfold Touched
        rw [classBased, classBased, hcb, h1, h2]; rfl
      rw [ht]
      simp only [List.mem_cons, forall_eq_or_imp]
      tauto
  obtain ⟨h1, h2⟩ := hinv reads (newStore dict defaults) rfl rfl
  have hrep : ∀ (us : List Str), (∀ k ∈ us, k ∈ Dict.keys dict) →
      ∃ l, us.foldr (fun k acc => match Dict.get? dict k, acc with
        | some v, .ok l => .ok ((k, v) :: l)
        | none, _ => .error .keyError
        | _, .error e => .error e) (.ok [] : Except PyErr (List (Str × Str))) = .ok l ∧
      ∀ k v, (k, v) ∈ l ↔ k ∈ us ∧ Dict.get? dict k = some v := by
    intro us
    induction us with
    | nil => intro _; exact ⟨[], rfl, by simp⟩
    | cons u us ih =>
      intro hu
      obtain ⟨l, hl, hl2⟩ := ih (fun k hk => hu k (by simp [hk]))
      obtain ⟨w, hw⟩ := Option.isSome_iff_exists.1 ((Dict.get?_isSome_iff dict u).2 (hu u (by simp)))
      refine ⟨(u, w) :: l, by rw [List.foldr_cons, hl, hw], ?_⟩
      intro k v
      simp only [List.mem_cons, Prod.mk.injEq, hl2]
      constructor
      · rintro (⟨rfl, rfl⟩ | ⟨a, b⟩)
        · exact ⟨Or.inl rfl, hw⟩
        · exact ⟨Or.inr a, b⟩
      · rintro ⟨rfl | a, b⟩
        · rw [hw] at b; cases b; exact Or.inl ⟨rfl, rfl⟩
        · exact Or.inr ⟨a, b⟩
  obtain ⟨l, hl, hl2⟩ := hrep s.unaccessed (by
    intro k hk
    exact ((h2 k).1 hk).1)
  refine ⟨l, ?_, ?_⟩
  · show List.foldr _ _ s.unaccessed = _
    have : s.dict = dict := h1
    rw [this]; exact hl
  · intro k v
    rw [hl2]
    show k ∈ (reads.foldl (fun s k => (getValue s k).2) (newStore dict defaults)).unaccessed ∧ _ ↔ _
    rw [h2]
    constructor
    · rintro ⟨⟨_, a⟩, b⟩; exact ⟨b, a⟩
    · rintro ⟨b, a⟩
      exact ⟨⟨Dict.mem_keys_of_mem (Dict.mem_of_get? b), a⟩, b⟩

/-- **C57 fails** after removing a key that was never read: the report raises `KeyError`. -/
theorem unused_report_violated :
    printUnusedKeys (removeKey (newStore [("a".toList, "1".toList)] []) "a".toList).2 = .error .keyError := by
  decide +kernel

end Mapleaf.SimDef
