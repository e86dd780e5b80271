import Verif.ENV.FactoryModel
import Verif.ENV.WindProps
import Verif.ENV.RoseProps
import Verif.ENV.EnvProps

/-! # C72: the environment of a simulation is the one its definition asks for -/

namespace Mapleaf.ENV
open Mapleaf.Motion

theorem bind_ok_iff {α β : Type} {x : Except PyErr α} {f : α → Except PyErr β} {b : β} :
    (x >>= f) = .ok b ↔ ∃ a, x = .ok a ∧ f a = .ok b := by
  cases x with
  | error e =>
    constructor
    · intro h; cases h
    · rintro ⟨a, h, _⟩; cases h
  | ok a =>
    constructor
    · intro h; exact ⟨a, rfl, h⟩
    · rintro ⟨a', h, h'⟩; cases h; exact h'

theorem ok_bind {α β : Type} (a : α) (f : α → Except PyErr β) : ((Except.ok a : Except PyErr α) >>= f) = f a := rfl

theorem bind_error_iff {α β : Type} {x : Except PyErr α} {f : α → Except PyErr β} {e : PyErr} :
    (x >>= f) = .error e ↔ x = .error e ∨ ∃ a, x = .ok a ∧ f a = .error e := by
  cases x with
  | error e' =>
    constructor
    · intro h; left; cases h; rfl
    · rintro (h | ⟨a, h, _⟩)
      · cases h; rfl
      · cases h
  | ok a =>
    constructor
    · intro h; exact .inr ⟨a, rfl, h⟩
    · rintro (h | ⟨a', h, h'⟩)
      · cases h
      · cases h; exact h'

/-! ## What a definition says -/

/-- the definition has this text for a key of this dictionary; only when the dictionary has no such key is the key itself looked up -/
def Says (d : Source) (dict key : String) (s : Str) : Prop :=
  d.get (dict.toList ++ ".".toList ++ key.toList) = .ok s ∨
    (d.get (dict.toList ++ ".".toList ++ key.toList) = .error .keyError ∧ d.get key.toList = .ok s)

/-- the definition has no value for the key -/
def Lacks (d : Source) (dict key : String) : Prop :=
  d.get (dict.toList ++ ".".toList ++ key.toList) = .error .keyError ∧ d.get key.toList = .error .keyError

/-- ... and the text is a number -/
def SaysNumber (d : Source) (dict key : String) (x : ℝ) : Prop := ∃ s, Says d dict key s ∧ d.float s = some x

/-- ... and the text is a vector -/
def SaysVector (d : Source) (dict key : String) (v : V3 ℝ) : Prop := ∃ s, Says d dict key s ∧ parseVector d.float s = .ok v

/-- a key that may be missing: its number, if any -/
def MaySayNumber (d : Source) (dict key : String) : Option ℝ → Prop
  | some x => SaysNumber d dict key x
  | none => Lacks d dict key

/-- a key that may be missing: its whole number, if any -/
def MaySayInt (d : Source) (dict key : String) : Option Int → Prop
  | some i => ∃ s, Says d dict key s ∧ d.int s = some i
  | none => Lacks d dict key

theorem dict_key (dict key : String) :
    dict.toList ++ ".".toList ++ key.toList = dict.toList ++ '.' :: key.toList := by
  have : ".".toList = ['.'] := by decide
  rw [this]; simp

theorem text_iff (d : Source) (dict key : String) (s : Str) :
    d.text dict.toList key.toList = .ok s ↔ Says d dict key s := by
  unfold Source.text Says
  rw [dict_key]
  cases h : d.get (dict.toList ++ '.' :: key.toList) with
  | ok s' => simp
  | error e => cases e <;> simp

theorem text_missing (d : Source) (dict key : String) :
    d.text dict.toList key.toList = .error .keyError ↔ Lacks d dict key := by
  unfold Source.text Lacks
  rw [dict_key]
  cases h : d.get (dict.toList ++ '.' :: key.toList) with
  | ok s' => simp
  | error e => cases e <;> simp

theorem reader_text (d : Source) (p : Str) : (d.reader p).text = d.text p := rfl
theorem reader_float (d : Source) (p : Str) : (d.reader p).float = d.float := rfl

theorem getFloat_iff (d : Source) (dict key : String) (x : ℝ) :
    (d.reader dict.toList).getFloat key.toList = .ok x ↔ SaysNumber d dict key x := by
  unfold Rocket.Reader.getFloat SaysNumber
  simp only [← text_iff]
  simp only [reader_text, reader_float]
  cases h : d.text dict.toList key.toList with
  | error e => simp
  | ok s =>
    simp only [Except.ok.injEq, exists_eq_left']
    cases d.float s <;> simp

theorem getVector_iff (d : Source) (dict key : String) (v : V3 ℝ) :
    (d.reader dict.toList).getVector key.toList = .ok v ↔ SaysVector d dict key v := by
  unfold Rocket.Reader.getVector SaysVector
  simp only [← text_iff]
  simp only [reader_text, reader_float]
  cases h : d.text dict.toList key.toList with
  | error e => simp
  | ok s => simp only [Except.ok.injEq, exists_eq_left']

theorem tryGetFloat_iff (d : Source) (dict key : String) (x : Option ℝ) :
    (d.reader dict.toList).tryGetFloat key.toList = .ok x ↔ MaySayNumber d dict key x := by
  unfold Rocket.Reader.tryGetFloat
  cases x with
  | some x =>
    rw [MaySayNumber, ← getFloat_iff]
    cases h : (d.reader dict.toList).getFloat key.toList with
    | ok y => simp
    | error e => cases e <;> simp
  | none =>
    rw [MaySayNumber, ← text_missing]
    unfold Rocket.Reader.getFloat
    simp only [reader_text, reader_float]
    cases h : d.text dict.toList key.toList with
    | error e => cases e <;> simp
    | ok s =>
      cases hf : d.float s <;> simp [hf]

/-- a key that may be missing: its vector, if any -/
def MaySayVector (d : Source) (dict key : String) : Option (V3 ℝ) → Prop
  | some x => SaysVector d dict key x
  | none => Lacks d dict key

theorem parseVector_no_key (float : Str → Option ℝ) (s : Str) : parseVector float s ≠ .error .keyError := by
  unfold parseVector
  cases h : dropBrackets s with
  | error e =>
    intro h'
    simp only [Except.error.injEq] at h'
    subst h'
    unfold dropBrackets at h
    split at h <;> first | cases h | (split at h <;> cases h)
  | ok s' =>
    simp only
    split
    · split <;> simp
    · simp

theorem tryGetVector_iff (d : Source) (dict key : String) (x : Option (V3 ℝ)) :
    (d.reader dict.toList).tryGetVector key.toList = .ok x ↔ MaySayVector d dict key x := by
  unfold Rocket.Reader.tryGetVector
  cases x with
  | some x =>
    rw [MaySayVector, ← getVector_iff]
    cases h : (d.reader dict.toList).getVector key.toList with
    | ok y => simp
    | error e => cases e <;> simp
  | none =>
    rw [MaySayVector, ← text_missing]
    unfold Rocket.Reader.getVector
    simp only [reader_text, reader_float]
    cases h : d.text dict.toList key.toList with
    | error e => cases e <;> simp
    | ok s =>
      simp only
      cases h' : parseVector d.float s with
      | ok v => simp
      | error e =>
        cases e <;> simp
        exact absurd h' (parseVector_no_key _ _)

theorem tryInt_iff (d : Source) (dict key : String) (x : Option Int) :
    d.tryInt dict.toList key.toList = .ok x ↔ MaySayInt d dict key x := by
  unfold Source.tryInt
  cases x with
  | some i =>
    simp only [MaySayInt, ← text_iff]
    cases h : d.text dict.toList key.toList with
    | ok s =>
      simp only [Except.ok.injEq, exists_eq_left']
      cases d.int s <;> simp
    | error e => cases e <;> simp
  | none =>
    rw [MaySayInt, ← text_missing]
    cases h : d.text dict.toList key.toList with
    | ok s => simp only [reduceCtorEq, iff_false]; cases d.int s <;> simp
    | error e => cases e <;> simp

theorem tryString_iff (d : Source) (dict key : String) (x : Option Str) :
    d.tryString dict.toList key.toList = .ok x ↔ x.elim (Lacks d dict key) (Says d dict key) := by
  unfold Source.tryString
  cases x with
  | some i =>
    simp only [Option.elim, ← text_iff]
    cases h : d.text dict.toList key.toList with
    | ok s => simp
    | error e => cases e <;> simp
  | none =>
    simp only [Option.elim, ← text_missing]
    cases h : d.text dict.toList key.toList with
    | ok s => simp
    | error e => cases e <;> simp

/-! ## Lists of locations and weights -/

theorem namesAndWeights_iff (float : Str → Option ℝ) (words names : List Str) (weights : List ℝ) :
    namesAndWeights float words = .ok (names, weights) ↔ ∃ texts : List Str, names.length = texts.length ∧
      words = (names.zip texts).flatMap (fun p => [p.1, p.2]) ∧ texts.map float = weights.map some := by
  induction words using namesAndWeights.induct float generalizing names weights with
  | case1 =>
    simp only [namesAndWeights, Except.ok.injEq, Prod.mk.injEq]
    constructor
    · rintro ⟨rfl, rfl⟩; exact ⟨[], rfl, rfl, rfl⟩
    · rintro ⟨texts, h1, h2, h3⟩
      cases names with
      | nil => cases texts with
        | nil => cases weights with
          | nil => exact ⟨rfl, rfl⟩
          | cons _ _ => simp at h3
        | cons _ _ => simp at h1
      | cons n ns => cases texts with
        | nil => simp at h1
        | cons _ _ => simp at h2
  | case2 x =>
    simp only [namesAndWeights, reduceCtorEq, false_iff, not_exists, not_and]
    intro texts h1 h2
    cases names with
    | nil => simp at h2
    | cons n ns => cases texts with
      | nil => simp at h1
      | cons _ _ => simp at h2
  | case3 name weight rest hw =>
    simp only [namesAndWeights, hw, reduceCtorEq, false_iff, not_exists, not_and]
    intro texts h1 h2 h3
    cases names with
    | nil => simp at h2
    | cons n ns => cases texts with
      | nil => simp at h1
      | cons t ts =>
        simp only [List.zip_cons_cons, List.flatMap_cons, List.cons_append, List.nil_append, List.cons.injEq] at h2
        cases weights with
        | nil => simp at h3
        | cons y ys =>
          simp only [List.map_cons, List.cons.injEq] at h3
          rw [← h2.2.1, hw] at h3
          exact absurd h3.1 (by simp)
  | case4 name weight rest x hw e he ih =>
    simp only [namesAndWeights, hw, he, reduceCtorEq, false_iff, not_exists, not_and]
    intro texts h1 h2 h3
    cases names with
    | nil => simp at h2
    | cons n ns => cases texts with
      | nil => simp at h1
      | cons t ts =>
        simp only [List.zip_cons_cons, List.flatMap_cons, List.cons_append, List.nil_append, List.cons.injEq] at h2
        cases weights with
        | nil => simp at h3
        | cons y ys =>
          simp only [List.map_cons, List.cons.injEq] at h3
          have := (ih ns ys).2 ⟨ts, by simpa using h1, h2.2.2, h3.2⟩
          rw [he] at this
          cases this
  | case5 name weight rest x hw ns' ws' hr ih =>
    simp only [namesAndWeights, hw, hr, Except.ok.injEq, Prod.mk.injEq]
    constructor
    · rintro ⟨rfl, rfl⟩
      obtain ⟨ts, h1, h2, h3⟩ := (ih ns' ws').1 hr
      exact ⟨weight :: ts, by simp [h1], by simp [← h2], by simp [hw, h3]⟩
    · rintro ⟨texts, h1, h2, h3⟩
      cases names with
      | nil => simp at h2
      | cons n ns => cases texts with
        | nil => simp at h1
        | cons t ts =>
          simp only [List.zip_cons_cons, List.flatMap_cons, List.cons_append, List.nil_append, List.cons.injEq] at h2
          cases weights with
          | nil => simp at h3
          | cons y ys =>
            simp only [List.map_cons, List.cons.injEq] at h3
            have := (ih ns ys).2 ⟨ts, by simpa using h1, h2.2.2, h3.2⟩
            rw [hr] at this
            simp only [Except.ok.injEq, Prod.mk.injEq] at this
            rw [← h2.2.1, hw] at h3
            exact ⟨by rw [h2.1, this.1], by rw [Option.some.inj h3.1, this.2]⟩

theorem floats_iff (float : Str → Option ℝ) (words : List Str) (l : List ℝ) :
    floats float words = .ok l ↔ words.map float = l.map some := by
  have key : words.mapM float = some l ↔ words.map float = l.map some := by
    induction words generalizing l with
    | nil => cases l <;> simp
    | cons x xs ih =>
      rw [List.mapM_cons]
      cases l with
      | nil =>
        simp only [List.map_cons, List.map_nil, reduceCtorEq, iff_false]
        cases float x with
        | none => simp
        | some y => cases xs.mapM float <;> simp
      | cons y ys =>
        simp only [List.map_cons, List.cons.injEq]
        rw [← ih ys]
        cases float x with
        | none => simp
        | some y' => cases xs.mapM float <;> simp
  unfold floats
  rw [← key]
  cases words.mapM float <;> simp

theorem readRoses_iff {σ : Type} (w : World σ) (month : Str) (l : List (Str × ℝ)) (roses : List (ℝ × List Rose.Row)) :
    readRoses w month l = .ok roses ↔ List.Forall₂ (fun nw tr => tr.1 = nw.2 ∧
      w.readRose (w.absolute ("MAPLEAF/Examples/Wind/Windrose".toList ++ month ++ nw.1 ++ ".txt".toList)) = .ok tr.2) l roses := by
  induction l generalizing roses with
  | nil =>
    simp only [readRoses, Except.ok.injEq, List.forall₂_nil_left_iff]
    exact eq_comm
  | cons a rest ih =>
    obtain ⟨name, x⟩ := a
    rw [readRoses, List.forall₂_cons_left_iff]
    have hp : rosePath month name = "MAPLEAF/Examples/Wind/Windrose".toList ++ month ++ name ++ ".txt".toList := rfl
    rw [hp]
    cases h1 : w.readRose (w.absolute ("MAPLEAF/Examples/Wind/Windrose".toList ++ month ++ name ++ ".txt".toList)) with
    | error e =>
      simp only [reduceCtorEq, and_false, false_and, exists_false]
    | ok rows =>
      simp only
      cases h2 : readRoses w month rest with
      | error e =>
        simp only [reduceCtorEq, false_iff, not_exists, not_and]
        intro b u _ hu
        rw [← ih, h2] at hu
        cases hu
      | ok r =>
        simp only [Except.ok.injEq]
        constructor
        · rintro rfl
          exact ⟨(x, rows), r, ⟨rfl, rfl⟩, (ih r).1 h2, rfl⟩
        · rintro ⟨⟨b1, b2⟩, u, ⟨rfl, e⟩, hu, rfl⟩
          rw [← ih, h2] at hu
          rw [e, Except.ok.inj hu]

/-! ## The ground wind sampled from wind roses -/

/-- The locations of the list (every other word of its text is a weight), the tables of these locations for the month, and the wind
drawn from their weighted sum with the next two numbers of Python's global random number generator -/
def GroundWind {σ : Type} (d : Source) (w : World σ) (s : σ) (v : V3 ℝ) (s' : σ) : Prop :=
  ∃ (text : Str) (names texts : List Str) (weights : List ℝ) (month : Str) (base : List Rose.Row)
    (roses : List (ℝ × List Rose.Row)),
    Says d "Environment" "SampledGroundWindData.locationsToSample" text ∧
    names.length = texts.length ∧ Str.wsSplit text = (names.zip texts).flatMap (fun p => [p.1, p.2]) ∧
    texts.map d.float = weights.map some ∧
    Says d "Environment" "SampledGroundWindData.launchMonth" month ∧
    w.readRose (w.absolute "MAPLEAF/Examples/Wind/WindroseAprMedecineHat.txt".toList) = .ok base ∧
    List.Forall₂ (fun nw tr => tr.1 = nw.2 ∧
      w.readRose (w.absolute ("MAPLEAF/Examples/Wind/Windrose".toList ++ month ++ nw.1 ++ ".txt".toList)) = .ok tr.2)
      (names.zip weights) roses ∧
    Rose.sampleWind (Rose.average base roses) (w.uniform s).1 (w.uniform (w.uniform s).2).1 = .ok v ∧
    s' = (w.uniform (w.uniform s).2).2

theorem apr_path : rosePath "Apr".toList "MedecineHat".toList = "MAPLEAF/Examples/Wind/WindroseAprMedecineHat.txt".toList := by
  decide +kernel

theorem groundWind_iff {σ : Type} (d : Source) (w : World σ) (s : σ) (v : V3 ℝ) (s' : σ) :
    sampledGroundWind d w "Environment".toList s = .ok (v, s') ↔ GroundWind d w s v s' := by
  unfold sampledGroundWind GroundWind
  simp only [bind_ok_iff, text_iff, apr_path, Except.ok.injEq, Prod.mk.injEq]
  constructor
  · rintro ⟨text, h1, ⟨names, weights⟩, h2, month, h3, base, h4, roses, h5, v', h6, rfl, rfl⟩
    obtain ⟨texts, t1, t2, t3⟩ := (namesAndWeights_iff _ _ _ _).1 h2
    exact ⟨text, names, texts, weights, month, base, roses, h1, t1, t2, t3, h3, h4, (readRoses_iff _ _ _ _).1 h5, h6, rfl⟩
  · rintro ⟨text, names, texts, weights, month, base, roses, h1, t1, t2, t3, h3, h4, h5, h6, rfl⟩
    exact ⟨text, h1, ⟨names, weights⟩, (namesAndWeights_iff _ _ _ _).2 ⟨texts, t1, t2, t3⟩, month, h3, base, h4, roses,
      (readRoses_iff _ _ _ _).2 h5, v, h6, rfl, rfl⟩

/-! ## The location chosen for a sounding -/

/-- **C72.** With weights that are not negative and not all zero, the random number `u` selects location `i` exactly when it falls in
an interval whose length is the share of that location in the total weight: the intervals follow each other from 0 to 1. -/
theorem choose_spec (weights : List ℝ) (u : ℝ) (hw : ∀ x ∈ weights, 0 ≤ x) (ht : 0 < weights.sum) (h0 : 0 ≤ u) (h1 : u < 1)
    (i : Nat) :
    choose weights.length weights u = .ok i ↔ i < weights.length ∧
      (weights.take i).sum / weights.sum ≤ u ∧ u < (weights.take i).sum / weights.sum + weights.getD i 0 / weights.sum := by
  have hlen : (Rose.sums 0 weights).tail.length = weights.length := by
    rw [List.length_tail, Rose.sums_length]; omega
  have hget : ∀ j (h : j < (Rose.sums 0 weights).tail.length), (Rose.sums 0 weights).tail[j] = (weights.take (j + 1)).sum := by
    intro j h
    rw [List.getElem_tail, Rose.sums_get]; ring
  have hpos : weights ≠ [] := by rintro rfl; simp at ht
  have hn : 0 < weights.length := List.length_pos_of_ne_nil hpos
  have hmono : ∀ a b, a ≤ b → (weights.take a).sum ≤ (weights.take b).sum := by
    intro a b hab
    obtain ⟨c, rfl⟩ := Nat.exists_eq_add_of_le hab
    rw [List.take_add, List.sum_append]
    have : 0 ≤ ((weights.drop a).take c).sum :=
      List.sum_nonneg fun x hx => hw x (List.mem_of_mem_drop (List.mem_of_mem_take hx))
    linarith
  have hlast : (Rose.sums 0 weights).tail.getLast? = some weights.sum := by
    rw [List.getLast?_eq_getElem?, List.getElem?_eq_getElem (by omega), hget]
    rw [hlen, show weights.length - 1 + 1 = weights.length by omega, List.take_length]
  have hsort : ((Rose.sums 0 weights).tail).Pairwise (· ≤ ·) := by
    rw [List.pairwise_iff_getElem]
    intro a b ha hb hab
    rw [hget, hget]
    exact hmono _ _ (by omega)
  unfold choose
  simp only [hlen, ne_eq, not_true_eq_false, if_false, hlast, not_le.2 ht, Except.ok.injEq]
  set c := bisectLoop (Rose.sums 0 weights).tail (u * weights.sum) weights.length 0 (weights.length - 1) with hc
  obtain ⟨_, c2, c3, c4⟩ := bisectLoop_spec (Rose.sums 0 weights).tail (u * weights.sum) hsort weights.length 0
    (weights.length - 1) (by omega) (by omega) (by omega) (fun i _ h => absurd h (by omega)) (fun i h h' => by
      rw [hget, show i + 1 = weights.length by omega, List.take_length]
      nlinarith)
  rw [← hc] at c2 c3 c4
  have hsucc : ∀ j, j < weights.length → (weights.take (j + 1)).sum = (weights.take j).sum + weights.getD j 0 := by
    intro j hj
    rw [List.take_succ_eq_append_getElem hj, List.sum_append, List.getD_eq_getElem _ _ hj]; simp
  have hchar : ∀ j, j < weights.length → ((weights.take j).sum / weights.sum ≤ u ∧
      u < (weights.take j).sum / weights.sum + weights.getD j 0 / weights.sum ↔
      (weights.take j).sum ≤ u * weights.sum ∧ u * weights.sum < (weights.take (j + 1)).sum) := by
    intro j hj
    rw [hsucc j hj, ← add_div, div_le_iff₀ ht, lt_div_iff₀ ht]
  have hcl : c < weights.length := by omega
  have hcin : (weights.take c).sum ≤ u * weights.sum ∧ u * weights.sum < (weights.take (c + 1)).sum := by
    constructor
    · rcases Nat.eq_zero_or_pos c with h | h
      · rw [h]; simp only [List.take_zero, List.sum_nil]; positivity
      · have := c3 (c - 1) (by omega) (by omega)
        rw [hget] at this
        rwa [show c - 1 + 1 = c by omega] at this
    · have := c4 c (by omega) le_rfl
      rwa [hget] at this
  constructor
  · rintro rfl
    exact ⟨hcl, (hchar c hcl).2 hcin⟩
  · rintro ⟨hi, hin⟩
    have hin := (hchar i hi).1 hin
    rcases Nat.lt_trichotomy c i with h | h | h
    · have := hmono (c + 1) i h; linarith [hin.1, hcin.2]
    · exact h
    · have := hmono (i + 1) c h; linarith [hin.2, hcin.1]

example : (∀ x ∈ [(1 : ℝ), 0, 3], 0 ≤ x) ∧ 0 < [(1 : ℝ), 0, 3].sum ∧ (0 : ℝ) ≤ 1 / 2 ∧ (1 / 2 : ℝ) < 1 := by norm_num

/-! ## The wind profile of a sounding -/

/-- A location of the list is chosen with the first random number after seeding, one of the soundings of its file that belong to the
month with the second; the profile is that sounding's, above the altitude given for the first entry with the location's name. -/
def SondeProfile {σ : Type} (d : Source) (w : World σ) (names : List Str) (weights asl : List ℝ) (month : Str)
    (start : σ) (alts : List ℝ) (winds : List (V3 ℝ)) (s' : σ) : Prop :=
  ∃ (i : Nat) (name : Str) (z : ℝ) (data : List Str) (m : Option Nat) (starts : List Nat) (header : Str) (sounding : List Str)
    (info : Str × Int × Int × Int × Int),
    choose names.length weights (w.uniform start).1 = .ok i ∧ names[i]? = some name ∧
    asl[names.idxOf name]? = some z ∧
    w.readlines (w.absolute ("MAPLEAF/Examples/Wind/RadioSonde".toList ++ name ++ "_filtered.txt".toList)) = .ok data ∧
    Sonde.monthFilter (some month) = .ok m ∧ Sonde.startLines d.int m 0 data = .ok starts ∧ starts ≠ [] ∧
    Sonde.extract starts data (w.below starts.length (w.uniform start).2).1 = .ok (header, sounding) ∧
    parseHeader d.int header = .ok info ∧
    Sonde.parse d.float w.argsort sounding z = .ok (alts, winds) ∧
    s' = (w.below starts.length (w.uniform start).2).2

theorem pyGet_cast {α : Type} (l : List α) (i : Nat) (a : α) : pyGet l (i : Int) = .ok a ↔ l[i]? = some a := by
  by_cases h : i < l.length
  · rw [pyGet_nat _ _ h, List.getElem?_eq_getElem h]; simp
  · rw [List.getElem?_eq_none (by omega)]
    have e : pyGet l (i : Int) = .error .indexError := by
      unfold pyGet
      simp only [show ¬ ((i : Int) < 0) by omega, if_false, Int.toNat_natCast, List.getElem?_eq_none (show l.length ≤ i by omega)]
    rw [e]; simp

theorem sondeProfile_iff {σ : Type} (d : Source) (w : World σ) (names : List Str) (weights asl : List ℝ) (month : Str)
    (seed : Option Str) (s : σ) (alts : List ℝ) (winds : List (V3 ℝ)) (s' : σ) :
    sondeProfile d w names weights asl month seed s = .ok ((alts, winds), s') ↔
      SondeProfile d w names weights asl month (seed.elim (w.fresh s) w.seeded) alts winds s' := by
  have hseed : w.seed seed s = seed.elim (w.fresh s) w.seeded := by cases seed <;> rfl
  unfold sondeProfile SondeProfile
  rw [hseed]
  generalize seed.elim (w.fresh s) w.seeded = start
  have hp : ∀ n, sondePath n = "MAPLEAF/Examples/Wind/RadioSonde".toList ++ n ++ "_filtered.txt".toList := fun _ => rfl
  simp only [bind_ok_iff, hp, pyGet_cast]
  constructor
  · rintro ⟨i, h1, name, h2, z, h3, data, h4, m, h5, starts, h6, h7⟩
    split_ifs at h7 with h8
    simp only [bind_ok_iff, Except.ok.injEq, Prod.mk.injEq] at h7
    obtain ⟨⟨header, sounding⟩, h9, info, h10, p, h11, rfl, rfl⟩ := h7
    exact ⟨i, name, z, data, m, starts, header, sounding, info, h1, h2, h3, h4, h5, h6,
      fun e => h8 (by rw [e]; rfl), h9, h10, h11, rfl⟩
  · rintro ⟨i, name, z, data, m, starts, header, sounding, info, h1, h2, h3, h4, h5, h6, h8, h9, h10, h11, rfl⟩
    refine ⟨i, h1, name, h2, z, h3, data, h4, m, h5, starts, h6, ?_⟩
    rw [if_neg (fun e => h8 (List.length_eq_zero_iff.1 e))]
    simp only [bind_ok_iff, Except.ok.injEq, Prod.mk.injEq]
    exact ⟨(header, sounding), h9, info, h10, (alts, winds), h11, rfl, trivial⟩

/-! ## The mean wind -/

/-- a table of numbers with `n` columns: at least two rows, all of the same length -/
def TableOf (rows : List (List ℝ)) (n : Nat) : Prop := 2 ≤ rows.length ∧ 2 ≤ n ∧ ∀ r ∈ rows, r.length = n

theorem load2D_iff (rows : List (List ℝ)) (n : Nat) : Rocket.load2D rows = .ok n ↔ TableOf rows n := by
  unfold Rocket.load2D TableOf
  cases rows with
  | nil => simp
  | cons r rs =>
    simp only [List.all_eq_true, decide_eq_true_eq, List.length_cons, List.mem_cons, forall_eq_or_imp]
    split_ifs with h1 h2
    · simp only [reduceCtorEq, false_iff, not_and]
      intro a b c
      rcases h2 with h2 | h2
      · rw [h2] at a; simp at a
      · omega
    · simp only [Except.ok.injEq]
      have h3 : rs ≠ [] := fun e => h2 (.inl e)
      have h4 : ¬ r.length ≤ 1 := fun e => h2 (.inr e)
      have h5 := List.length_pos_of_ne_nil h3
      constructor
      · rintro rfl
        exact ⟨by omega, by omega, rfl, h1⟩
      · rintro ⟨_, _, e, _⟩; exact e
    · simp only [reduceCtorEq, false_iff, not_and]
      intro a b c d
      exact h1 fun s hs => by rw [d s hs, c]

/-- The mean wind models a definition can ask for, with the state of the random number generator afterwards -/
inductive WindAsked {σ : Type} (d : Source) (w : World σ) (s : σ) : WindModel → σ → Prop
  /-- the same wind everywhere -/
  | constant (v : V3 ℝ) (h : Says d "Environment" "MeanWindModel" "Constant".toList)
      (hv : SaysVector d "Environment" "ConstantMeanWind.velocity" v) : WindAsked d w s (.constant v) s
  /-- the same wind everywhere, drawn from wind roses -/
  | ground (v : V3 ℝ) (s' : σ) (h : Says d "Environment" "MeanWindModel" "SampledGroundWindData".toList)
      (hv : GroundWind d w s v s') : WindAsked d w s (.constant v) s'
  /-- a power law on a given ground wind -/
  | hellmanConstant (v : V3 ℝ) (limit alpha : ℝ) (h : Says d "Environment" "MeanWindModel" "Hellman".toList)
      (hg : Says d "Environment" "Hellman.groundWindModel" "Constant".toList)
      (hv : SaysVector d "Environment" "ConstantMeanWind.velocity" v)
      (ha : SaysNumber d "Environment" "Hellman.alphaCoeff" alpha)
      (hl : SaysNumber d "Environment" "Hellman.altitudeLimit" limit) : WindAsked d w s (.hellman v limit alpha) s
  /-- a power law on a ground wind drawn from wind roses -/
  | hellmanGround (v : V3 ℝ) (limit alpha : ℝ) (s' : σ) (h : Says d "Environment" "MeanWindModel" "Hellman".toList)
      (hg : Says d "Environment" "Hellman.groundWindModel" "SampledGroundWindData".toList) (hv : GroundWind d w s v s')
      (ha : SaysNumber d "Environment" "Hellman.alphaCoeff" alpha)
      (hl : SaysNumber d "Environment" "Hellman.altitudeLimit" limit) : WindAsked d w s (.hellman v limit alpha) s'
  /-- a table of altitudes and winds -/
  | custom (file : Str) (rows : List (List ℝ)) (h : Says d "Environment" "MeanWindModel" "CustomWindProfile".toList)
      (hf : Says d "Environment" "CustomWindProfile.filePath" file) (hr : w.loadtxt file = .ok rows) (ht : TableOf rows 4) :
      WindAsked d w s (.profile (rows.map fun r => r.getD 0 0) (rows.map fun r => ⟨r.getD 1 0, r.getD 2 0, r.getD 3 0⟩)) s
  /-- a table of another shape: accepted, but raises when asked for the wind -/
  | customBad (file : Str) (rows : List (List ℝ)) (n : Nat) (h : Says d "Environment" "MeanWindModel" "CustomWindProfile".toList)
      (hf : Says d "Environment" "CustomWindProfile.filePath" file) (hr : w.loadtxt file = .ok rows) (ht : TableOf rows n)
      (hn : n ≠ 4) : WindAsked d w s .unusable s
  /-- the profile of a sounding -/
  | sonde (text : Str) (names texts : List Str) (weights : List ℝ) (heights : Str) (asl : List ℝ) (month : Str)
      (seed : Option Str) (alts : List ℝ) (winds : List (V3 ℝ)) (s' : σ)
      (h : Says d "Environment" "MeanWindModel" "SampledRadioSondeData".toList)
      (hl : Says d "Environment" "SampledRadioSondeData.locationsToSample" text) (h1 : names.length = texts.length)
      (h2 : Str.wsSplit text = (names.zip texts).flatMap (fun p => [p.1, p.2])) (h3 : texts.map d.float = weights.map some)
      (h4 : Says d "Environment" "SampledRadioSondeData.locationASLAltitudes" heights)
      (h5 : (Str.wsSplit heights).map d.float = asl.map some)
      (h6 : Says d "Environment" "SampledRadioSondeData.launchMonth" month)
      (h7 : seed.elim (Lacks d "Environment" "SampledRadioSondeData.randomSeed")
        (Says d "Environment" "SampledRadioSondeData.randomSeed"))
      (h8 : SondeProfile d w names weights asl month (seed.elim (w.fresh s) w.seeded) alts winds s') : WindAsked d w s (.profile alts winds) s'

theorem says_unique {d : Source} {dict key : String} {s s' : Str} (h : Says d dict key s) (h' : Says d dict key s') : s = s' := by
  rw [← text_iff] at h h'
  rw [h] at h'
  exact Except.ok.inj h'

theorem windTable_iff (rows : List (List ℝ)) (m : WindModel) : windTable rows = .ok m ↔
    (TableOf rows 4 ∧ m = .profile (rows.map fun r => r.getD 0 0) (rows.map fun r => ⟨r.getD 1 0, r.getD 2 0, r.getD 3 0⟩)) ∨
    (∃ n, TableOf rows n ∧ n ≠ 4 ∧ m = .unusable) := by
  unfold windTable
  simp only [← load2D_iff]
  cases h : Rocket.load2D rows with
  | error e => simp
  | ok n =>
    simp only
    split_ifs with h4
    · subst h4
      simp only [Except.ok.injEq, true_and, exists_eq_left', ne_eq, not_true_eq_false, false_and, or_false]
      exact eq_comm
    · simp only [Except.ok.injEq, h4, false_and, exists_eq_left', ne_eq, not_false_eq_true, true_and, false_or]
      exact eq_comm

/-- **C72.** The mean wind model of an environment is the one the definition asks for: for every definition and every state of the
surroundings, the set-up succeeds with a model exactly when the definition asks for that model. -/
theorem wind_iff {σ : Type} (d : Source) (w : World σ) (s : σ) (m : WindModel) (s' : σ) :
    windFactory d w "Environment".toList s = .ok (m, s') ↔ WindAsked d w s m s' := by
  unfold windFactory
  simp only [bind_ok_iff, text_iff]
  constructor
  · rintro ⟨kind, hk, h⟩
    split_ifs at h with c1 c2 c3 c4 c5
    · subst c1
      simp only [bind_ok_iff, getVector_iff, Except.ok.injEq, Prod.mk.injEq] at h
      obtain ⟨v, hv, rfl, rfl⟩ := h
      exact .constant v hk hv
    · subst c2
      simp only [bind_ok_iff, Except.ok.injEq, Prod.mk.injEq] at h
      obtain ⟨⟨v, s1⟩, hv, rfl, rfl⟩ := h
      exact .ground v s1 hk ((groundWind_iff _ _ _ _ _).1 hv)
    · subst c3
      simp only [bind_ok_iff, text_iff, getFloat_iff] at h
      obtain ⟨ground, hg, ⟨v, s1⟩, hv, alpha, ha, limit, hl, h⟩ := h
      split_ifs at hv with g1 g2
      · subst g1
        simp only [bind_ok_iff, getVector_iff, Except.ok.injEq, Prod.mk.injEq] at hv
        obtain ⟨v', hv, rfl, rfl⟩ := hv
        simp only [Except.ok.injEq, Prod.mk.injEq] at h
        obtain ⟨rfl, rfl⟩ := h
        exact .hellmanConstant v' limit alpha hk hg hv ha hl
      · subst g2
        simp only [bind_ok_iff, Except.ok.injEq, Prod.mk.injEq] at hv
        obtain ⟨⟨v', s2⟩, hv, rfl, rfl⟩ := hv
        simp only [Except.ok.injEq, Prod.mk.injEq] at h
        obtain ⟨rfl, rfl⟩ := h
        exact .hellmanGround v' limit alpha s2 hk hg ((groundWind_iff _ _ _ _ _).1 hv) ha hl
      · simp only [Except.ok.injEq, Prod.mk.injEq] at hv
        obtain ⟨rfl, rfl⟩ := hv
        simp at h
    · subst c4
      simp only [bind_ok_iff, text_iff, Except.ok.injEq, Prod.mk.injEq] at h
      obtain ⟨file, hf, rows, hr, m', hm, rfl, rfl⟩ := h
      rcases (windTable_iff _ _).1 hm with ⟨h4, rfl⟩ | ⟨n, hn, hne, rfl⟩
      · exact .custom file rows hk hf hr h4
      · exact .customBad file rows n hk hf hr hn hne
    · subst c5
      simp only [bind_ok_iff, text_iff, Except.ok.injEq, Prod.mk.injEq] at h
      obtain ⟨text, hl, ⟨names, weights⟩, hn, heights, hh, asl, ha, month, hm, seed, hs, ⟨⟨alts, winds⟩, s1⟩, hp, rfl, rfl⟩ := h
      obtain ⟨texts, t1, t2, t3⟩ := (namesAndWeights_iff _ _ _ _).1 hn
      exact .sonde text names texts weights heights asl month seed alts winds s1 hk hl t1 t2 t3 hh ((floats_iff _ _ _).1 ha) hm
        ((tryString_iff _ _ _ _).1 hs) ((sondeProfile_iff _ _ _ _ _ _ _ _ _ _ _).1 hp)
  · intro h
    cases h with
    | constant v h hv =>
      refine ⟨_, h, ?_⟩
      rw [if_pos rfl]
      simp only [bind_ok_iff, getVector_iff, Except.ok.injEq, Prod.mk.injEq]
      exact ⟨v, hv, rfl, trivial⟩
    | ground v _ h hv =>
      refine ⟨_, h, ?_⟩
      rw [if_neg (by decide), if_pos rfl]
      simp only [bind_ok_iff, Except.ok.injEq, Prod.mk.injEq]
      exact ⟨(v, s'), (groundWind_iff _ _ _ _ _).2 hv, rfl, rfl⟩
    | hellmanConstant v limit alpha h hg hv ha hl =>
      refine ⟨_, h, ?_⟩
      rw [if_neg (by decide), if_neg (by decide), if_pos rfl]
      simp only [bind_ok_iff, text_iff, getFloat_iff]
      refine ⟨_, hg, (some v, s), ?_, alpha, ha, limit, hl, rfl⟩
      rw [if_pos rfl]
      simp only [bind_ok_iff, getVector_iff, Except.ok.injEq, Prod.mk.injEq]
      exact ⟨v, hv, rfl, trivial⟩
    | hellmanGround v limit alpha _ h hg hv ha hl =>
      refine ⟨_, h, ?_⟩
      rw [if_neg (by decide), if_neg (by decide), if_pos rfl]
      simp only [bind_ok_iff, text_iff, getFloat_iff]
      refine ⟨_, hg, (some v, s'), ?_, alpha, ha, limit, hl, rfl⟩
      rw [if_neg (by decide), if_pos rfl]
      simp only [bind_ok_iff, Except.ok.injEq, Prod.mk.injEq]
      exact ⟨(v, s'), (groundWind_iff _ _ _ _ _).2 hv, rfl, rfl⟩
    | custom file rows h hf hr ht =>
      refine ⟨_, h, ?_⟩
      rw [if_neg (by decide), if_neg (by decide), if_neg (by decide), if_pos rfl]
      simp only [bind_ok_iff, text_iff, Except.ok.injEq, Prod.mk.injEq]
      exact ⟨file, hf, rows, hr, _, (windTable_iff _ _).2 (.inl ⟨ht, rfl⟩), rfl, trivial⟩
    | customBad file rows n h hf hr ht hn =>
      refine ⟨_, h, ?_⟩
      rw [if_neg (by decide), if_neg (by decide), if_neg (by decide), if_pos rfl]
      simp only [bind_ok_iff, text_iff, Except.ok.injEq, Prod.mk.injEq]
      exact ⟨file, hf, rows, hr, _, (windTable_iff _ _).2 (.inr ⟨n, ht, hn, rfl⟩), rfl, trivial⟩
    | sonde text names texts weights heights asl month seed alts winds _ h hl h1 h2 h3 h4 h5 h6 h7 h8 =>
      refine ⟨_, h, ?_⟩
      rw [if_neg (by decide), if_neg (by decide), if_neg (by decide), if_neg (by decide), if_pos rfl]
      simp only [bind_ok_iff, text_iff, Except.ok.injEq, Prod.mk.injEq]
      exact ⟨text, hl, (names, weights), (namesAndWeights_iff _ _ _ _).2 ⟨texts, h1, h2, h3⟩, heights, h4, asl,
        (floats_iff _ _ _).2 h5, month, h6, seed, (tryString_iff _ _ _ _).2 h7, ((alts, winds), s'),
        (sondeProfile_iff _ _ _ _ _ _ _ _ _ _ _).2 h8, rfl, rfl⟩

/-- **C72.** A name that is not one of the five is refused. -/
theorem wind_unknown {σ : Type} (d : Source) (w : World σ) (s : σ) (kind : Str) (hk : Says d "Environment" "MeanWindModel" kind)
    (hn : kind ∉ ["Constant", "SampledGroundWindData", "Hellman", "CustomWindProfile", "SampledRadioSondeData"].map
      String.toList) :
    windFactory d w "Environment".toList s = .error .valueError := by
  simp only [List.map_cons, List.map_nil, List.mem_cons, List.not_mem_nil, or_false, not_or] at hn
  obtain ⟨h1, h2, h3, h4, h5⟩ := hn
  unfold windFactory
  rw [(text_iff _ _ _ _).2 hk]
  show (if kind = _ then _ else _) = _
  rw [if_neg h1, if_neg h2, if_neg h3, if_neg h4, if_neg h5]

/-- **C72 (violated part).** A ground wind model that does not exist is not refused as such: the code runs into a variable that was
never assigned (`UnboundLocalError`). -/
theorem hellman_ground_violated {σ : Type} (d : Source) (w : World σ) (s : σ) (ground : Str) (alpha limit : ℝ)
    (hk : Says d "Environment" "MeanWindModel" "Hellman".toList) (hg : Says d "Environment" "Hellman.groundWindModel" ground)
    (hn : ground ∉ ["Constant", "SampledGroundWindData"].map String.toList)
    (ha : SaysNumber d "Environment" "Hellman.alphaCoeff" alpha) (hl : SaysNumber d "Environment" "Hellman.altitudeLimit" limit) :
    windFactory d w "Environment".toList s = .error .runtimeError := by
  simp only [List.map_cons, List.map_nil, List.mem_cons, List.not_mem_nil, or_false, not_or] at hn
  unfold windFactory
  rw [(text_iff _ _ _ _).2 hk]
  simp only [ok_bind]
  rw [if_neg (by decide), if_neg (by decide), if_pos trivial, (text_iff _ _ _ _).2 hg]
  simp only [ok_bind]
  rw [if_neg hn.1, if_neg hn.2, (getFloat_iff _ _ _ _).2 ha, (getFloat_iff _ _ _ _).2 hl]
  rfl

/-- **C72 (violated part).** The month "Yearly" (the default) is not handled for the wind roses: the file asked for is
`WindroseYearly<location>.txt`, and without such a file — none comes with the program — setting up the environment fails. -/
theorem yearly_roses_violated {σ : Type} (d : Source) (w : World σ) (s : σ) (text : Str) (name weight : Str) (rest : List Str)
    (hk : Says d "Environment" "MeanWindModel" "SampledGroundWindData".toList)
    (hl : Says d "Environment" "SampledGroundWindData.locationsToSample" text) (ht : Str.wsSplit text = name :: weight :: rest)
    (hm : Says d "Environment" "SampledGroundWindData.launchMonth" "Yearly".toList)
    (hf : w.readRose (w.absolute ("MAPLEAF/Examples/Wind/WindroseYearly".toList ++ name ++ ".txt".toList)) = .error .fileNotFound)
    (m : WindModel) (s' : σ) : windFactory d w "Environment".toList s ≠ .ok (m, s') := by
  intro h
  rw [wind_iff] at h
  cases h with
  | constant v h hv => exact absurd (says_unique hk h) (by decide)
  | ground v _ h hv =>
    obtain ⟨text', names, texts, weights, month, base, roses, g1, g2, g3, g4, g5, g6, g7, _⟩ := hv
    rw [says_unique hl g1] at ht
    rw [← says_unique hm g5] at g7
    rw [ht] at g3
    cases names with
    | nil => simp at g3
    | cons n ns =>
      cases texts with
      | nil => simp at g2
      | cons t ts =>
        simp only [List.zip_cons_cons, List.flatMap_cons, List.cons_append, List.nil_append, List.cons.injEq] at g3
        cases weights with
        | nil => simp at g4
        | cons x xs =>
          rw [List.zip_cons_cons, List.forall₂_cons_left_iff] at g7
          obtain ⟨tr, _, ⟨_, e⟩, _⟩ := g7
          simp only [← g3.1] at e
          have hp : "MAPLEAF/Examples/Wind/Windrose".toList ++ "Yearly".toList = "MAPLEAF/Examples/Wind/WindroseYearly".toList := by
            decide +kernel
          rw [hp, hf] at e
          cases e
  | hellmanConstant v limit alpha h => exact absurd (says_unique hk h) (by decide)
  | hellmanGround v limit alpha _ h => exact absurd (says_unique hk h) (by decide)
  | custom file rows h => exact absurd (says_unique hk h) (by decide)
  | customBad file rows n h => exact absurd (says_unique hk h) (by decide)
  | sonde text names texts weights heights asl month seed alts winds _ h => exact absurd (says_unique hk h) (by decide)

/-! ## Turbulence -/

/-- the seed used by a pink noise generator: the one given, otherwise a random number below a million -/
def SeedOf {σ : Type} (d : Source) (w : World σ) (key : String) (s : σ) (seed : Int) (s' : σ) : Prop :=
  (MaySayInt d "Environment" key (some seed) ∧ s' = s) ∨
  (Lacks d "Environment" key ∧ seed = (w.below 1000000 s).1 ∧ s' = (w.below 1000000 s).2)

/-- the strength of pink noise: intensity (in percent of the mean wind) and standard deviation, where given, divided by the 2.26
that the generator's own standard deviation is taken to be -/
def Strength (d : Source) (intensity dev : Option ℝ) : Prop :=
  ∃ i j : Option Int, MaySayInt d "Environment" "PinkNoiseModel.turbulenceIntensity" i ∧
    MaySayInt d "Environment" "PinkNoiseModel.velocityStdDeviation" j ∧
    intensity = i.map (fun (n : Int) => (n : ℝ) / 100 / 2.26) ∧ dev = j.map (fun (n : Int) => (n : ℝ) / 2.26)

/-- The turbulence models a definition can ask for. All three seeds must be readable whatever the number of components. -/
inductive TurbulenceAsked {σ : Type} (d : Source) (w : World σ) (s : σ) : Turbulence → σ → Prop
  | none (h : Says d "Environment" "Environment.TurbulenceModel" "None".toList) : TurbulenceAsked d w s .none s
  | pink1 (i dev : Option ℝ) (a : Int) (s₁ : σ) (b' c' : Option Int)
      (h : Says d "Environment" "Environment.TurbulenceModel" "PinkNoise1D".toList)
      (hs : Strength d i dev) (ha : SeedOf d w "PinkNoiseModel.randomSeed1" s a s₁)
      (hb : MaySayInt d "Environment" "PinkNoiseModel.randomSeed2" b')
      (hc : MaySayInt d "Environment" "PinkNoiseModel.randomSeed3" c') : TurbulenceAsked d w s (.pink1 i dev a) s₁
  | pink2 (i dev : Option ℝ) (a b : Int) (s₁ s₂ : σ) (c' : Option Int)
      (h : Says d "Environment" "Environment.TurbulenceModel" "PinkNoise2D".toList)
      (hs : Strength d i dev) (ha : SeedOf d w "PinkNoiseModel.randomSeed1" s a s₁)
      (hb : SeedOf d w "PinkNoiseModel.randomSeed2" s₁ b s₂)
      (hc : MaySayInt d "Environment" "PinkNoiseModel.randomSeed3" c') : TurbulenceAsked d w s (.pink2 i dev a b) s₂
  | pink3 (i dev : Option ℝ) (a b c : Int) (s₁ s₂ s₃ : σ)
      (h : Says d "Environment" "Environment.TurbulenceModel" "PinkNoise3D".toList)
      (hs : Strength d i dev) (ha : SeedOf d w "PinkNoiseModel.randomSeed1" s a s₁)
      (hb : SeedOf d w "PinkNoiseModel.randomSeed2" s₁ b s₂)
      (hc : SeedOf d w "PinkNoiseModel.randomSeed3" s₂ c s₃) : TurbulenceAsked d w s (.pink3 i dev a b c) s₃
  | gust (start blend thickness magnitude : ℝ) (direction : V3 ℝ)
      (h : Says d "Environment" "Environment.TurbulenceModel" "customSineGust".toList)
      (h1 : SaysNumber d "Environment" "CustomSineGust.startAltitude" start)
      (h2 : SaysNumber d "Environment" "CustomSineGust.magnitude" magnitude)
      (h3 : SaysNumber d "Environment" "CustomSineGust.sineBlendDistance" blend)
      (h4 : SaysNumber d "Environment" "CustomSineGust.thickness" thickness)
      (h5 : SaysVector d "Environment" "CustomSineGust.direction" direction) :
      TurbulenceAsked d w s (.gust ⟨start, blend, thickness, magnitude, direction.normalize⟩) s

theorem maySayInt_unique {d : Source} {dict key : String} {i j : Option Int} (h : MaySayInt d dict key i)
    (h' : MaySayInt d dict key j) : i = j := by
  rw [← tryInt_iff] at h h'
  rw [h] at h'
  exact Except.ok.inj h'

theorem seedOf_iff {σ : Type} (d : Source) (w : World σ) (key : String) (s : σ) (given : Option Int)
    (hg : MaySayInt d "Environment" key given) (seed : Int) (s' : σ) :
    SeedOf d w key s seed s' ↔ noiseSeed w given s = (seed, s') := by
  unfold SeedOf noiseSeed
  cases given with
  | none =>
    constructor
    · rintro (⟨h, _⟩ | ⟨_, rfl, rfl⟩)
      · exact absurd (maySayInt_unique hg h) (by simp)
      · rfl
    · intro h
      simp only [Prod.mk.injEq] at h
      exact .inr ⟨hg, h.1.symm, h.2.symm⟩
  | some i =>
    constructor
    · rintro (⟨h, rfl⟩ | ⟨h, _⟩)
      · rw [Option.some.inj (maySayInt_unique hg h)]
      · exact absurd (maySayInt_unique (j := .none) hg h) (by simp)
    · intro h
      simp only [Prod.mk.injEq] at h
      obtain ⟨rfl, rfl⟩ := h
      exact .inl ⟨hg, rfl⟩

theorem seedOf_given {σ : Type} {d : Source} {w : World σ} {key : String} {s : σ} {seed : Int} {s' : σ}
    (h : SeedOf d w key s seed s') : ∃ given, MaySayInt d "Environment" key given := by
  rcases h with ⟨h, _⟩ | ⟨h, _⟩
  · exact ⟨_, h⟩
  · exact ⟨.none, h⟩

theorem intensity_scale (i : Option Int) : i.map (fun (n : Int) => (n : ℝ) / (2.26 * 100)) = i.map (fun (n : Int) => (n : ℝ) / 100 / 2.26) := by
  congr 1
  funext n
  rw [div_div]; norm_num

/-- **C72.** The turbulence model of an environment is exactly the one the definition asks for. -/
theorem turbulence_iff {σ : Type} (d : Source) (w : World σ) (s : σ) (m : Turbulence) (s' : σ) :
    turbulenceFactory d w "Environment".toList s = .ok (m, s') ↔ TurbulenceAsked d w s m s' := by
  unfold turbulenceFactory
  simp only [bind_ok_iff, text_iff]
  constructor
  · rintro ⟨kind, hk, h⟩
    by_cases c1 : kind = "None".toList
    · rw [if_pos c1] at h
      subst c1
      simp only [Except.ok.injEq, Prod.mk.injEq] at h
      obtain ⟨rfl, rfl⟩ := h
      exact .none hk
    rw [if_neg c1] at h
    by_cases c2 : "PinkNoise".toList <:+: kind
    · rw [if_pos c2] at h
      simp only [bind_ok_iff, tryInt_iff, intensity_scale] at h
      obtain ⟨i, hi, j, hj, a, ha, b, hb, c, hc, h⟩ := h
      have hs : Strength d (i.map (fun (n : Int) => (n : ℝ) / 100 / 2.26)) (j.map (fun (n : Int) => (n : ℝ) / 2.26)) := ⟨i, j, hi, hj, rfl, rfl⟩
      split_ifs at h with k1 k2 k3
      · subst k1
        simp only [Except.ok.injEq, Prod.mk.injEq] at h
        obtain ⟨rfl, rfl⟩ := h
        exact .pink1 _ _ _ _ b c hk hs ((seedOf_iff d w _ s a ha _ _).2 rfl) hb hc
      · subst k2
        simp only [Except.ok.injEq, Prod.mk.injEq] at h
        obtain ⟨rfl, rfl⟩ := h
        exact .pink2 _ _ _ _ _ _ c hk hs ((seedOf_iff d w _ s a ha _ _).2 rfl) ((seedOf_iff d w _ _ b hb _ _).2 rfl) hc
      · subst k3
        simp only [Except.ok.injEq, Prod.mk.injEq] at h
        obtain ⟨rfl, rfl⟩ := h
        exact .pink3 _ _ _ _ _ _ _ _ hk hs ((seedOf_iff d w _ s a ha _ _).2 rfl) ((seedOf_iff d w _ _ b hb _ _).2 rfl)
          ((seedOf_iff d w _ _ c hc _ _).2 rfl)
    rw [if_neg c2] at h
    split_ifs at h with c3
    · subst c3
      simp only [bind_ok_iff, getFloat_iff, getVector_iff, Except.ok.injEq, Prod.mk.injEq] at h
      obtain ⟨start, h1, magnitude, h2, blend, h3, thickness, h4, direction, h5, rfl, rfl⟩ := h
      exact .gust start blend thickness magnitude direction hk h1 h2 h3 h4 h5
  · intro h
    cases h with
    | none h =>
      refine ⟨_, h, ?_⟩
      rw [if_pos rfl]
    | pink1 i dev a _ b' c' h hs ha hb hc =>
      refine ⟨_, h, ?_⟩
      rw [if_neg (by decide), if_pos (by decide)]
      simp only [bind_ok_iff, tryInt_iff, intensity_scale]
      obtain ⟨i', j', hi, hj, rfl, rfl⟩ := hs
      obtain ⟨a', ha'⟩ := seedOf_given ha
      have e := (seedOf_iff d w _ s a' ha' _ _).1 ha
      refine ⟨i', hi, j', hj, a', ha', b', hb, c', hc, ?_⟩
      rw [if_pos trivial, e]
    | pink2 i dev a b s₁ _ c' h hs ha hb hc =>
      refine ⟨_, h, ?_⟩
      rw [if_neg (by decide), if_pos (by decide)]
      simp only [bind_ok_iff, tryInt_iff, intensity_scale]
      obtain ⟨i', j', hi, hj, rfl, rfl⟩ := hs
      obtain ⟨a', ha'⟩ := seedOf_given ha
      obtain ⟨b', hb'⟩ := seedOf_given hb
      have e := (seedOf_iff d w _ s a' ha' _ _).1 ha
      have e2 := (seedOf_iff d w _ _ b' hb' _ _).1 hb
      refine ⟨i', hi, j', hj, a', ha', b', hb', c', hc, ?_⟩
      rw [if_neg (by decide), if_pos trivial, e]
      dsimp only
      rw [e2]
    | pink3 i dev a b c s₁ s₂ _ h hs ha hb hc =>
      refine ⟨_, h, ?_⟩
      rw [if_neg (by decide), if_pos (by decide)]
      simp only [bind_ok_iff, tryInt_iff, intensity_scale]
      obtain ⟨i', j', hi, hj, rfl, rfl⟩ := hs
      obtain ⟨a', ha'⟩ := seedOf_given ha
      obtain ⟨b', hb'⟩ := seedOf_given hb
      obtain ⟨c', hc'⟩ := seedOf_given hc
      have e := (seedOf_iff d w _ s a' ha' _ _).1 ha
      have e2 := (seedOf_iff d w _ _ b' hb' _ _).1 hb
      have e3 := (seedOf_iff d w _ _ c' hc' _ _).1 hc
      refine ⟨i', hi, j', hj, a', ha', b', hb', c', hc', ?_⟩
      rw [if_neg (by decide), if_neg (by decide), if_pos trivial, e]
      dsimp only
      rw [e2]
      dsimp only
      rw [e3]
    | gust start blend thickness magnitude direction h h1 h2 h3 h4 h5 =>
      refine ⟨_, h, ?_⟩
      rw [if_neg (by decide), if_neg (by decide), if_pos rfl]
      simp only [bind_ok_iff, getFloat_iff, getVector_iff, Except.ok.injEq, Prod.mk.injEq]
      exact ⟨start, h1, magnitude, h2, blend, h3, thickness, h4, direction, h5, rfl, trivial⟩

/-- **C72.** A name that is neither `None`, nor contains `PinkNoise`, nor is `customSineGust` is refused. -/
theorem turbulence_unknown {σ : Type} (d : Source) (w : World σ) (s : σ) (kind : Str)
    (hk : Says d "Environment" "Environment.TurbulenceModel" kind) (h1 : kind ≠ "None".toList)
    (h2 : ¬ "PinkNoise".toList <:+: kind) (h3 : kind ≠ "customSineGust".toList) :
    turbulenceFactory d w "Environment".toList s = .error .valueError := by
  unfold turbulenceFactory
  rw [(text_iff _ _ _ _).2 hk]
  simp only [ok_bind]
  rw [if_neg h1, if_neg h2, if_neg h3]

/-- **C72 (violated part).** The strength of pink noise must be a whole number: an intensity such as `2.5` makes the set-up raise
`ValueError`, although it is a percentage. -/
theorem fractional_intensity_violated {σ : Type} (d : Source) (w : World σ) (s : σ) (kind text : Str)
    (hk : Says d "Environment" "Environment.TurbulenceModel" kind) (hp : "PinkNoise".toList <:+: kind)
    (hi : Says d "Environment" "PinkNoiseModel.turbulenceIntensity" text) (ht : d.int text = none) :
    turbulenceFactory d w "Environment".toList s = .error .valueError := by
  unfold turbulenceFactory
  rw [(text_iff _ _ _ _).2 hk]
  simp only [ok_bind]
  rw [if_neg (by rintro rfl; exact absurd hp (by decide)), if_pos hp]
  have : d.tryInt "Environment".toList "PinkNoiseModel.turbulenceIntensity".toList = .error .valueError := by
    unfold Source.tryInt
    rw [(text_iff _ _ _ _).2 hi]
    simp only [ht]
  rw [this]
  rfl

/-! ## Air -/

/-- The atmospheres a definition can ask for. Temperatures are given in degrees Celsius. -/
inductive AirAsked {σ : Type} (d : Source) (w : World σ) : Atmosphere → Prop
  | constant (T p rho mu : ℝ) (h : Says d "Environment" "AtmosphericPropertiesModel" "Constant".toList)
      (h1 : SaysNumber d "Environment.ConstantAtmosphere" "temp" T)
      (h2 : SaysNumber d "Environment.ConstantAtmosphere" "pressure" p)
      (h3 : SaysNumber d "Environment.ConstantAtmosphere" "density" rho)
      (h4 : SaysNumber d "Environment.ConstantAtmosphere" "viscosity" mu) : AirAsked d w (.constant ⟨T + 273.15, p, rho, mu⟩)
  | table (file : Str) (rows : List (List ℝ)) (h : Says d "Environment" "AtmosphericPropertiesModel" "TabulatedAtmosphere".toList)
      (hf : Says d "Environment" "TabulatedAtmosphere.filePath" file) (hr : w.loadtxt (w.absolute file) = .ok rows)
      (ht : TableOf rows 5) : AirAsked d w (.table (rows.map fun r => fun j : Fin 5 => r.getD j 0))
  | bad (file : Str) (rows : List (List ℝ)) (n : Nat)
      (h : Says d "Environment" "AtmosphericPropertiesModel" "TabulatedAtmosphere".toList)
      (hf : Says d "Environment" "TabulatedAtmosphere.filePath" file) (hr : w.loadtxt (w.absolute file) = .ok rows)
      (ht : TableOf rows n) (hn : 5 < n) : AirAsked d w .unusable
  | standard (h : Says d "Environment" "AtmosphericPropertiesModel" "USStandardAtmosphere".toList) : AirAsked d w .standard

theorem airTable_iff (rows : List (List ℝ)) (m : Atmosphere) : airTable rows = .ok m ↔
    (TableOf rows 5 ∧ m = .table (rows.map fun r => fun j : Fin 5 => r.getD j 0)) ∨
    (∃ n, TableOf rows n ∧ 5 < n ∧ m = .unusable) := by
  have hsl : (rows.map fun r => Rocket.slice r 0 5) = rows.map fun r => fun j : Fin 5 => r.getD j 0 := by
    apply List.map_congr_left
    intro r _
    funext j
    simp [Rocket.slice]
  unfold airTable
  simp only [← load2D_iff, hsl]
  cases h : Rocket.load2D rows with
  | error e => simp
  | ok n =>
    simp only
    split_ifs with h4 h5
    · simp only [reduceCtorEq, Except.ok.injEq, false_iff, not_or, not_and, not_exists]
      exact ⟨fun e => absurd e (by omega), fun k e h' => absurd h' (by omega)⟩
    · subst h5
      simp only [Except.ok.injEq, true_and, exists_eq_left', lt_irrefl, false_and, or_false]
      exact eq_comm
    · have : 5 < n := by omega
      simp only [Except.ok.injEq, h5, false_and, exists_eq_left', this, true_and, false_or]
      exact eq_comm

/-- **C72.** The atmosphere is exactly the one the definition asks for, and whichever it is, the reader handed on reads from the
dictionary `Environment` as before. -/
theorem air_iff {σ : Type} (d : Source) (w : World σ) (m : Atmosphere) (p : Str) :
    atmosphereFactory d w "Environment".toList = .ok (m, p) ↔ AirAsked d w m ∧ p = "Environment".toList := by
  unfold atmosphereFactory
  simp only [bind_ok_iff, text_iff]
  constructor
  · rintro ⟨kind, hk, h⟩
    split_ifs at h with c1 c2 c3
    · subst c1
      simp only [bind_ok_iff, getFloat_iff, Except.ok.injEq, Prod.mk.injEq] at h
      obtain ⟨T, h1, q, h2, rho, h3, mu, h4, rfl, rfl⟩ := h
      exact ⟨.constant T q rho mu hk h1 h2 h3 h4, rfl⟩
    · subst c2
      simp only [bind_ok_iff, text_iff, Except.ok.injEq, Prod.mk.injEq] at h
      obtain ⟨file, hf, rows, hr, a, ha, rfl, rfl⟩ := h
      rcases (airTable_iff _ _).1 ha with ⟨ht, rfl⟩ | ⟨n, ht, hn, rfl⟩
      · exact ⟨.table file rows hk hf hr ht, rfl⟩
      · exact ⟨.bad file rows n hk hf hr ht hn, rfl⟩
    · subst c3
      simp only [Except.ok.injEq, Prod.mk.injEq] at h
      obtain ⟨rfl, rfl⟩ := h
      exact ⟨.standard hk, rfl⟩
  · rintro ⟨h, rfl⟩
    cases h with
    | constant T q rho mu h h1 h2 h3 h4 =>
      refine ⟨_, h, ?_⟩
      rw [if_pos rfl]
      simp only [bind_ok_iff, getFloat_iff, Except.ok.injEq, Prod.mk.injEq]
      exact ⟨T, h1, q, h2, rho, h3, mu, h4, rfl, trivial⟩
    | table file rows h hf hr ht =>
      refine ⟨_, h, ?_⟩
      rw [if_neg (by decide), if_pos rfl]
      simp only [bind_ok_iff, text_iff, Except.ok.injEq, Prod.mk.injEq]
      exact ⟨file, hf, rows, hr, _, (airTable_iff _ _).2 (.inl ⟨ht, rfl⟩), rfl, trivial⟩
    | bad file rows n h hf hr ht hn =>
      refine ⟨_, h, ?_⟩
      rw [if_neg (by decide), if_pos rfl]
      simp only [bind_ok_iff, text_iff, Except.ok.injEq, Prod.mk.injEq]
      exact ⟨file, hf, rows, hr, _, (airTable_iff _ _).2 (.inr ⟨n, ht, hn, rfl⟩), rfl, trivial⟩
    | standard h =>
      refine ⟨_, h, ?_⟩
      rw [if_neg (by decide), if_neg (by decide), if_pos rfl]

/-! ## The environment -/

/-- the earth models a definition can ask for -/
def EarthAsked (d : Source) (fuel : Nat) (e : Earth) : Prop :=
  (Says d "Environment" "EarthModel" "Flat".toList ∧ e = flatEarth) ∨
  (Says d "Environment" "EarthModel" "Round".toList ∧ e = roundEarth) ∨
  (Says d "Environment" "EarthModel" "WGS84".toList ∧ e = wgs84 fuel) ∨
  (Says d "Environment" "EarthModel" "None".toList ∧ e = noEarth)

/-- the launch rail a definition asks for: none without a positive length; otherwise a rail at the rocket's position, in the direction
given by the rotation of the rocket when there is one and by its initial direction when there is none -/
def RailAsked (d : Source) (earth : Earth) (z lat lon : Option ℝ) (rail : Option Rail) : Prop :=
  ∃ L, SaysNumber d "Environment" "LaunchSite.railLength" L ∧
    ((L ≤ 0 ∧ rail = none) ∨
     (0 < L ∧ ∃ pos z' lat' lon', SaysVector d "Environment" "Rocket.position" pos ∧ z = some z' ∧ lat = some lat' ∧
        lon = some lon' ∧
        ((∃ axis angle, SaysVector d "Environment" "Rocket.rotationAxis" axis ∧
            SaysNumber d "Environment" "Rocket.rotationAngle" angle ∧
            makeRail earth z' lat' lon' L pos (some (axis, angle)) ⟨0, 0, 0⟩ = .ok rail) ∨
         (∃ dir, Lacks d "Environment" "Rocket.rotationAxis" ∧ SaysVector d "Environment" "Rocket.initialDirection" dir ∧
            makeRail earth z' lat' lon' L pos none dir = .ok rail))))

theorem earth_iff (d : Source) (fuel : Nat) (e : Earth) :
    (∃ name, Says d "Environment" "EarthModel" name ∧ earthModelFactory fuel (some name) = .ok e) ↔ EarthAsked d fuel e := by
  unfold earthModelFactory EarthAsked
  constructor
  · rintro ⟨name, hn, h⟩
    simp only at h
    split_ifs at h with c1 c2 c3 c4 <;> have h := (Except.ok.inj h).symm
    · exact .inl ⟨c1 ▸ hn, h⟩
    · exact .inr (.inl ⟨c2 ▸ hn, h⟩)
    · exact .inr (.inr (.inl ⟨c3 ▸ hn, h⟩))
    · exact .inr (.inr (.inr ⟨c4 ▸ hn, h⟩))
  · rintro (⟨h, rfl⟩ | ⟨h, rfl⟩ | ⟨h, rfl⟩ | ⟨h, rfl⟩)
    · exact ⟨_, h, by dsimp only; rw [if_pos rfl]⟩
    · exact ⟨_, h, by dsimp only; rw [if_neg (by decide), if_pos rfl]⟩
    · exact ⟨_, h, by dsimp only; rw [if_neg (by decide), if_neg (by decide), if_pos rfl]⟩
    · exact ⟨_, h, by dsimp only; rw [if_neg (by decide), if_neg (by decide), if_neg (by decide), if_pos rfl]⟩

theorem rail_iff (d : Source) (earth : Earth) (z lat lon : Option ℝ) (rail : Option Rail) :
    railFactory d "Environment".toList earth z lat lon = .ok rail ↔ RailAsked d earth z lat lon rail := by
  unfold railFactory RailAsked
  simp only [bind_ok_iff, getFloat_iff]
  apply exists_congr
  intro L
  apply and_congr_right
  intro _
  by_cases hL : L > 0
  · rw [if_pos hL]
    have h1 : ¬ (L ≤ 0 ∧ rail = none) := fun h => absurd h.1 (not_le.2 hL)
    simp only [h1, false_or, show (0 < L) = True from eq_true hL, true_and, bind_ok_iff, getVector_iff, tryGetVector_iff]
    constructor
    · rintro ⟨pos, hp, axis, ha, h⟩
      cases z with
      | none => simp at h
      | some z' =>
        cases lat with
        | none => simp at h
        | some lat' =>
          cases lon with
          | none => simp at h
          | some lon' =>
            refine ⟨pos, z', lat', lon', hp, rfl, rfl, rfl, ?_⟩
            cases axis with
            | some axis =>
              simp only [bind_ok_iff, getFloat_iff] at h
              obtain ⟨angle, h2, h3⟩ := h
              exact .inl ⟨axis, angle, ha, h2, h3⟩
            | none =>
              simp only [bind_ok_iff, getVector_iff] at h
              obtain ⟨dir, h2, h3⟩ := h
              exact .inr ⟨dir, ha, h2, h3⟩
    · rintro ⟨pos, z', lat', lon', hp, rfl, rfl, rfl, h⟩
      rcases h with ⟨axis, angle, ha, h2, h3⟩ | ⟨dir, ha, h2, h3⟩
      · refine ⟨pos, hp, some axis, ha, ?_⟩
        simp only [bind_ok_iff, getFloat_iff]
        exact ⟨angle, h2, h3⟩
      · refine ⟨pos, hp, none, ha, ?_⟩
        simp only [bind_ok_iff, getVector_iff]
        exact ⟨dir, h2, h3⟩
  · rw [if_neg hL]
    have h1 : L ≤ 0 := not_lt.1 hL
    simp only [h1, true_and, Except.ok.injEq, show (0 < L) = False from eq_false hL, false_and, or_false]
    exact eq_comm

/-- **C72.** The environment of a simulation is exactly the one its definition asks for, for every definition: wind, turbulence, air,
earth, launch site and rail. The wind is set up first and the turbulence with the random numbers that follow. -/
theorem environment_iff {σ : Type} (d : Source) (w : World σ) (fuel : Nat) (s : σ) (b : Built) (s' : σ) :
    buildEnvironment d w fuel s = .ok (b, s') ↔
      ∃ s₁ turb, WindAsked d w s b.wind s₁ ∧ TurbulenceAsked d w s₁ turb s' ∧ b.turbulence = some turb ∧ AirAsked d w b.air ∧
        EarthAsked d fuel b.earth ∧
        MaySayNumber d "Environment" "LaunchSite.elevation" b.elevation ∧
        MaySayNumber d "Environment" "LaunchSite.latitude" b.latitude ∧
        MaySayNumber d "Environment" "LaunchSite.longitude" b.longitude ∧
        RailAsked d b.earth b.elevation b.latitude b.longitude b.rail := by
  unfold buildEnvironment
  simp only [bind_ok_iff]
  constructor
  · rintro ⟨⟨wind, s₁⟩, h1, ⟨turb, s₂⟩, h2, ⟨air, p⟩, h3, h⟩
    obtain ⟨h3', rfl⟩ := (air_iff _ _ _ _).1 h3
    simp only [bind_ok_iff, text_iff, tryGetFloat_iff, Except.ok.injEq, Prod.mk.injEq] at h
    obtain ⟨name, h4, earth, h5, z, h6, lat, h7, lon, h8, rail, h9, rfl, rfl⟩ := h
    exact ⟨s₁, turb, (wind_iff _ _ _ _ _).1 h1, (turbulence_iff _ _ _ _ _).1 h2, rfl, h3', (earth_iff _ _ _).1 ⟨name, h4, h5⟩,
      h6, h7, h8, (rail_iff _ _ _ _ _ _).1 h9⟩
  · rintro ⟨s₁, turb, h1, h2, h3, h4, h5, h6, h7, h8, h9⟩
    obtain ⟨name, h5, h5'⟩ := (earth_iff _ _ _).2 h5
    refine ⟨(b.wind, s₁), (wind_iff _ _ _ _ _).2 h1, (turb, s'), (turbulence_iff _ _ _ _ _).2 h2, (b.air, "Environment".toList),
      (air_iff _ _ _ _).2 ⟨h4, rfl⟩, ?_⟩
    simp only [bind_ok_iff, text_iff, tryGetFloat_iff, Except.ok.injEq, Prod.mk.injEq]
    refine ⟨name, h5, b.earth, h5', _, h6, _, h7, _, h8, b.rail, (rail_iff _ _ _ _ _ _).2 h9, ?_, trivial⟩
    cases b
    simp only at h3
    simp only [h3]

/-- **C72.** A definition that leaves all these keys at their default values gives the environment that `Environment()` has without any
definition, apart from its turbulence model being one that answers zero instead of there being none. -/
theorem default_environment {σ : Type} (d : Source) (w : World σ) (fuel : Nat) (s : σ) (h0 : d.float "0".toList = some 0)
    (h1 : Says d "Environment" "MeanWindModel" "Constant".toList)
    (h2 : Says d "Environment" "ConstantMeanWind.velocity" "(0 0 0)".toList)
    (h3 : Says d "Environment" "Environment.TurbulenceModel" "None".toList)
    (h4 : Says d "Environment" "AtmosphericPropertiesModel" "USStandardAtmosphere".toList)
    (h5 : Says d "Environment" "EarthModel" "Flat".toList) (h6 : Says d "Environment" "LaunchSite.elevation" "0".toList)
    (h7 : Says d "Environment" "LaunchSite.latitude" "0".toList) (h8 : Says d "Environment" "LaunchSite.longitude" "0".toList)
    (h9 : Says d "Environment" "LaunchSite.railLength" "0".toList) :
    ∃ b, defaultEnvironment d.float = .ok b ∧ b.turbulence = none ∧
      buildEnvironment d w fuel s = .ok ({ b with turbulence := some .none }, s) := by
  have hv : parseVector d.float "(0 0 0)".toList = .ok ⟨0, 0, 0⟩ := by
    have e1 : dropBrackets "(0 0 0)".toList = .ok "0 0 0".toList := by decide +kernel
    have e2 : splitComponents "0 0 0".toList = ["0".toList, "0".toList, "0".toList] := by decide +kernel
    unfold parseVector
    rw [e1]
    dsimp only
    rw [e2]
    dsimp only
    rw [h0]
  refine ⟨⟨.constant ⟨0, 0, 0⟩, none, .standard, flatEarth, some 0, some 0, some 0, none⟩, ?_, rfl, ?_⟩
  · unfold defaultEnvironment
    rw [hv]
    simp only [ok_bind, h0]
  · rw [environment_iff]
    exact ⟨s, .none, .constant _ h1 ⟨_, h2, hv⟩, .none h3, rfl, .standard h4, .inl ⟨h5, rfl⟩, ⟨_, h6, h0⟩, ⟨_, h7, h0⟩,
      ⟨_, h8, h0⟩, 0, ⟨_, h9, h0⟩, .inl ⟨le_rfl, rfl⟩⟩

/-! ## Repeatability -/

/-- **C72.** With a random seed for the soundings, the environment does not depend on the random numbers drawn before: the wind profile
is always the same, and so is the turbulence, even when its own seeds are not given. -/
theorem sonde_repeatable {σ : Type} (d : Source) (w : World σ) (fuel : Nat) (seed : Str)
    (hk : Says d "Environment" "MeanWindModel" "SampledRadioSondeData".toList)
    (hs : Says d "Environment" "SampledRadioSondeData.randomSeed" seed) (s s' : σ) :
    buildEnvironment d w fuel s = buildEnvironment d w fuel s' := by
  have hw : windFactory d w "Environment".toList s = windFactory d w "Environment".toList s' := by
    have ht : d.tryString "Environment".toList "SampledRadioSondeData.randomSeed".toList = .ok (some seed) :=
      (tryString_iff _ _ _ _).2 hs
    unfold windFactory
    rw [(text_iff _ _ _ _).2 hk]
    simp only [ok_bind]
    rw [if_neg (by decide), if_neg (by decide), if_neg (by decide), if_neg (by decide), if_pos trivial, if_neg (by decide),
      if_neg (by decide), if_neg (by decide), if_neg (by decide), if_pos trivial, ht]
    simp only [ok_bind]
    rfl
  unfold buildEnvironment
  simp only [hw]

/-- a rose with the same wind in all speed classes, from one direction -/
def evenRose : List Rose.Row := [⟨0, fun _ => 1⟩]

theorem even_average (l : List (ℝ × List Rose.Row)) (hl : ∀ x ∈ l, x.2 = evenRose) :
    Rose.average evenRose l = [⟨0, fun _ => (l.map Prod.fst).sum⟩] := by
  have key : ∀ (l : List (ℝ × List Rose.Row)) (W : ℝ), (∀ x ∈ l, x.2 = evenRose) →
      l.foldl (fun acc wr => List.zipWith Rose.Row.add acc (wr.2.map fun r => (r.scale 1).scale wr.1)) [⟨0, fun _ => W⟩] =
        [⟨0, fun _ => W + (l.map Prod.fst).sum⟩] := by
    intro l
    induction l with
    | nil => intro W _; simp
    | cons x xs ih =>
      intro W h
      rw [List.foldl_cons]
      have e : List.zipWith Rose.Row.add [(⟨0, fun _ => W⟩ : Rose.Row)] (x.2.map fun r => (r.scale 1).scale x.1) =
          [⟨0, fun _ => W + x.1⟩] := by
        rw [h x (by simp)]
        simp [evenRose, Rose.Row.add, Rose.Row.scale]
      rw [e, ih (W + x.1) (fun y hy => h y (by simp [hy]))]
      simp [add_assoc]
  have h0 : (evenRose.map fun r => r.scale 0) = [⟨0, fun _ => 0⟩] := by simp [evenRose, Rose.Row.scale]
  unfold Rose.average
  rw [h0, key l 0 hl]
  simp

theorem even_wind (W : ℝ) (hW : 0 < W) : ∃ q q', ∃ v v' : V3 ℝ, v ≠ v' ∧
    Rose.sampleWind [⟨0, fun _ => W⟩] q 0 = .ok v ∧ Rose.sampleWind [⟨0, fun _ => W⟩] q' 0 = .ok v' := by
  obtain ⟨T, hT, _, c0, _, _, _, _, _, _, _, c8, _, _⟩ := Rose.speed_chance [⟨0, fun _ => W⟩] (fun _ => W) (7 * W)
    (by intro i; simp [Rose.ClassSum]) (by ring) (fun _ => hW.le) (by linarith) (by nlinarith)
  obtain ⟨a, b, ha, _, hb, hab, hc⟩ := c0
  obtain ⟨a', b', ha', _, hb', hab', hc'⟩ := c8
  have p1 : 0 < b - a := by rw [hab]; positivity
  have p2 : 0 < b' - a' := by rw [hab']; positivity
  obtain ⟨y, hy, y0, y1⟩ := (hc a ha (by linarith)).2 ⟨le_rfl, by linarith⟩
  obtain ⟨y', hy', y0', y1'⟩ := (hc' a' ha' (by linarith)).2 ⟨le_rfl, by linarith⟩
  have head : ∀ y, (y ≤ 3.5 * 0.44704 ∨ 23.5 * 0.44704 ≤ y) → ∃ h, Rose.sampleHeading [⟨0, fun _ => W⟩] y 0 = .ok h := by
    intro y hy
    have hv : Rose.Row.shareAt ⟨0, fun _ => W⟩ y = .ok W := by
      rcases hy with hy | hy
      · exact (Rose.shareAt_spec _).1 y hy
      · exact (Rose.shareAt_spec _).2.2.2.2.2 y hy
    obtain ⟨_, T, _, _, hq⟩ := Rose.heading_chance ⟨0, fun _ => W⟩ [] y [W] rfl (by norm_num)
      (List.Forall₂.cons hv List.Forall₂.nil) (by intro v hv; simp at hv; rw [hv]; exact hW.le) ⟨W, by simp, hW⟩
    obtain ⟨h, _, hh, _⟩ := hq 0 le_rfl one_pos
    exact ⟨h, hh⟩
  obtain ⟨h, hh⟩ := head y (.inl (by norm_num at y1 ⊢; linarith))
  obtain ⟨h', hh'⟩ := head y' (.inr (by norm_num at y0' ⊢; linarith))
  have e1 := (Rose.sampleWind_spec [⟨0, fun _ => W⟩] a 0 ⟨-(y * Real.sin (h * Real.pi / 180)), -(y * Real.cos (h * Real.pi / 180)),
    0⟩).2 ⟨y, h, hy, hh, rfl, rfl, rfl⟩
  have e2 := (Rose.sampleWind_spec [⟨0, fun _ => W⟩] a' 0 ⟨-(y' * Real.sin (h' * Real.pi / 180)),
    -(y' * Real.cos (h' * Real.pi / 180)), 0⟩).2 ⟨y', h', hy', hh', rfl, rfl, rfl⟩
  refine ⟨a, a', _, _, ?_, e1, e2⟩
  intro e
  have ex := congrArg V3.x e
  have ey := congrArg V3.y e
  simp only [neg_inj] at ex ey
  have s1 := Real.sin_sq_add_cos_sq (h * Real.pi / 180)
  have s2 := Real.sin_sq_add_cos_sq (h' * Real.pi / 180)
  have : y ^ 2 = y' ^ 2 := by
    calc y ^ 2 = (y * Real.sin (h * Real.pi / 180)) ^ 2 + (y * Real.cos (h * Real.pi / 180)) ^ 2 := by
          linear_combination -(y ^ 2) * s1
      _ = (y' * Real.sin (h' * Real.pi / 180)) ^ 2 + (y' * Real.cos (h' * Real.pi / 180)) ^ 2 := by rw [ex, ey]
      _ = y' ^ 2 := by linear_combination (y' ^ 2) * s2
  norm_num at y0 y1 y0' y1'
  nlinarith

/-- **C72 (violated part).** No definition makes a ground wind drawn from wind roses repeatable: whatever a definition with this wind
model says (a random seed for it does not exist), there are tables and two states of the global random number generator for which
the winds differ. -/
theorem ground_wind_unseeded_violated (d : Source) (text month : Str) (names texts : List Str) (weights : List ℝ)
    (hk : Says d "Environment" "MeanWindModel" "SampledGroundWindData".toList)
    (hl : Says d "Environment" "SampledGroundWindData.locationsToSample" text) (hn : names.length = texts.length)
    (ht : Str.wsSplit text = (names.zip texts).flatMap (fun p => [p.1, p.2])) (hw : texts.map d.float = weights.map some)
    (hm : Says d "Environment" "SampledGroundWindData.launchMonth" month) (hpos : 0 < weights.sum) :
    ∃ (w : World (List ℝ)) (s s' t t' : List ℝ) (v v' : V3 ℝ), v ≠ v' ∧
      windFactory d w "Environment".toList s = .ok (.constant v, t) ∧
      windFactory d w "Environment".toList s' = .ok (.constant v', t') := by
  obtain ⟨q, q', v, v', hv, e, e'⟩ := even_wind weights.sum hpos
  have hlen : names.length = weights.length := by
    rw [hn, ← List.length_map (f := d.float), hw, List.length_map]
  let w : World (List ℝ) := ⟨fun l => (l.headD 0, l.tail), fun _ l => (0, l), fun _ => [], id, fun _ => .error .fileNotFound,
    fun _ => .error .fileNotFound, id, fun _ => .ok evenRose, fun _ => []⟩
  have hav : Rose.average evenRose (weights.map fun x => (x, evenRose)) = [⟨0, fun _ => weights.sum⟩] := by
    rw [even_average]
    · simp [Function.comp_def]
    · intro x hx
      obtain ⟨y, _, rfl⟩ := List.mem_map.1 hx
      rfl
  have hf : List.Forall₂ (fun (nw : Str × ℝ) (tr : ℝ × List Rose.Row) => tr.1 = nw.2 ∧
      w.readRose (w.absolute ("MAPLEAF/Examples/Wind/Windrose".toList ++ month ++ nw.1 ++ ".txt".toList)) = .ok tr.2)
      (names.zip weights) (weights.map fun x => (x, evenRose)) := by
    clear ht hw hn hpos e e' hav
    induction names generalizing weights with
    | nil => cases weights with
      | nil => exact List.Forall₂.nil
      | cons _ _ => simp at hlen
    | cons n ns ih => cases weights with
      | nil => simp at hlen
      | cons x xs => exact List.Forall₂.cons ⟨rfl, rfl⟩ (ih xs (by simpa using hlen))
  have go : ∀ q v, Rose.sampleWind [⟨0, fun _ => weights.sum⟩] q 0 = .ok v →
      windFactory d w "Environment".toList [q, 0] = .ok (.constant v, []) := by
    intro q v e
    rw [wind_iff]
    refine .ground v [] hk ⟨text, names, texts, weights, month, evenRose, weights.map fun x => (x, evenRose), hl, hn, ht, hw, hm,
      rfl, hf, ?_, rfl⟩
    rw [hav]
    exact e
  exact ⟨w, [q, 0], [q', 0], [], [], v, v', hv, go q v e, go q' v' e'⟩

/-- **C72.** The wind profile sampled for a launch in the month number `i + 1` is the profile of one whole sounding of that month from
the file of one of the locations of the list, measured from the altitude given for it, in order of increasing altitude. -/
theorem sounding_of_month {σ : Type} (d : Source) (w : World σ) (names : List Str) (weights asl : List ℝ) (i : Nat) (hi : i < 12)
    (start : σ) (alts : List ℝ) (winds : List (V3 ℝ)) (s' : σ) (hsort : Sonde.Sorts w.argsort)
    (hbelow : ∀ n s, 0 < n → (w.below n s).1 < n) (hlines : ∀ f data, w.readlines f = .ok data → ∀ l ∈ data, l ≠ [])
    (h : SondeProfile d w names weights asl (["Jan".toList, "Feb".toList, "Mar".toList, "Apr".toList, "May".toList, "Jun".toList,
      "Jul".toList, "Aug".toList, "Sep".toList, "Oct".toList, "Nov".toList, "Dec".toList].getD i []) start alts winds s') :
    ∃ (j : Nat) (name : Str) (z : ℝ) (before : List Str) (header : Str) (sounding after : List Str) (month : Str) (rows : List (List ℝ)),
      j < names.length ∧ names[j]? = some name ∧ asl[names.idxOf name]? = some z ∧
      w.readlines (w.absolute ("MAPLEAF/Examples/Wind/RadioSonde".toList ++ name ++ "_filtered.txt".toList)) =
        .ok (before ++ header :: (sounding ++ after)) ∧
      header.head? = some '#' ∧ (∀ l ∈ sounding, l.head? ≠ some '#') ∧ (∀ l, after.head? = some l → l.head? = some '#') ∧
      (Str.wsSplit header)[2]? = some month ∧ d.int month = some ((i : Int) + 1) ∧
      sounding.map (fun l => (Str.wsSplit l).mapM d.float) = rows.map some ∧ alts.Pairwise (· ≤ ·) ∧ alts ≠ [] ∧
      (alts.zip winds).Perm (rows.map fun r => (r.getD 0 0 - z,
        ⟨-(r.getD 2 0 / 10 * Real.sin (r.getD 1 0 * Real.pi / 180)), -(r.getD 2 0 / 10 * Real.cos (r.getD 1 0 * Real.pi / 180)), 0⟩)) := by
  obtain ⟨j, name, z, data, m, starts, header, sounding, info, h1, h2, h3, h4, h5, h6, h7, h8, h9, h10, h11⟩ := h
  have hm := (Sonde.monthFilter_spec none).2.1 i hi
  have hm' : m = some (i + 1) := (Except.ok.inj (hm.symm.trans h5)).symm
  subst hm'
  have hk : (w.below starts.length (w.uniform start).2).1 < starts.length := hbelow _ _ (List.length_pos_iff.2 h7)
  obtain ⟨before, header', sounding', after, e1, e2, e3, e4, e5, e6, e7⟩ :=
    Sonde.extract_spec d.int (some (i + 1)) data (hlines _ _ h4) starts h6 _ hk
  have he := Except.ok.inj (h8.symm.trans e1)
  obtain ⟨rfl, rfl⟩ := Prod.mk.inj he
  obtain ⟨month, hmo, hmi⟩ := e5 (i + 1) rfl
  obtain ⟨_, _, p3, p4, rows, p5, p6⟩ := Sonde.parse_spec d.float w.argsort hsort sounding z alts winds h10
  have hj : j < names.length := by
    by_contra hc
    rw [List.getElem?_eq_none (by omega)] at h2
    cases h2
  exact ⟨j, name, z, before, header, sounding, after, month, rows, hj, h2, h3, by rw [h4, e2], e4, e6, e7, hmo, by rw [hmi]; push_cast; rfl,
    p5, p3, p4, p6⟩

/-! ## Definitions that satisfy the hypotheses -/

/-- a definition given by its keys and texts, with `0` and `1` the only numbers it can read -/
def keysAndTexts (l : List (String × String)) : Source :=
  ⟨fun k => match l.find? fun p => decide (p.1.toList = k) with
    | some p => .ok p.2.toList
    | none => .error .keyError,
   fun s => if s = "0".toList then some 0 else if s = "1".toList then some 1 else none,
   fun s => if s = "0".toList then some 0 else if s = "1".toList then some 1 else none⟩

theorem keys_zero (l : List (String × String)) : (keysAndTexts l).float "0".toList = some 0 := by
  simp only [keysAndTexts]; rw [if_pos trivial]

theorem keys_one (l : List (String × String)) : (keysAndTexts l).float "1".toList = some 1 := by
  simp only [keysAndTexts]; rw [if_neg (by decide), if_pos trivial]

theorem keys_fraction (l : List (String × String)) : (keysAndTexts l).int "2.5".toList = none := by
  simp only [keysAndTexts]; rw [if_neg (by decide), if_neg (by decide)]

theorem keys_says (l : List (String × String)) (dict key text : String)
    (h : (l.find? fun p => decide (p.1.toList = dict.toList ++ ".".toList ++ key.toList)).map (fun p => p.2.toList) = some text.toList) :
    Says (keysAndTexts l) dict key text.toList := by
  obtain ⟨p, hp, e⟩ := Option.map_eq_some_iff.1 h
  left
  show (match l.find? _ with | some p => _ | none => _) = _
  rw [hp]
  simp only [e]

theorem keys_says_plain (l : List (String × String)) (dict key text : String)
    (h0 : l.find? (fun p => decide (p.1.toList = dict.toList ++ ".".toList ++ key.toList)) = none)
    (h : (l.find? fun p => decide (p.1.toList = key.toList)).map (fun p => p.2.toList) = some text.toList) :
    Says (keysAndTexts l) dict key text.toList := by
  obtain ⟨p, hp, e⟩ := Option.map_eq_some_iff.1 h
  right
  constructor
  · show (match l.find? _ with | some p => _ | none => _) = _
    rw [h0]
  · show (match l.find? _ with | some p => _ | none => _) = _
    rw [hp]
    simp only [e]

/-- a Hellman wind with a ground model that does not exist, pink noise of intensity 2.5 % -/
def oddDefinition : Source := keysAndTexts [("Environment.MeanWindModel", "Hellman"), ("Environment.Hellman.groundWindModel", "Sampled"),
  ("Environment.Hellman.alphaCoeff", "0"), ("Environment.Hellman.altitudeLimit", "1"), ("Environment.TurbulenceModel", "PinkNoise2D"),
  ("Environment.PinkNoiseModel.turbulenceIntensity", "2.5")]

example : Says oddDefinition "Environment" "MeanWindModel" "Hellman".toList ∧
    Says oddDefinition "Environment" "Hellman.groundWindModel" "Sampled".toList ∧
    "Sampled".toList ∉ ["Constant", "SampledGroundWindData"].map String.toList ∧
    SaysNumber oddDefinition "Environment" "Hellman.alphaCoeff" 0 ∧ SaysNumber oddDefinition "Environment" "Hellman.altitudeLimit" 1 ∧
    Says oddDefinition "Environment" "Environment.TurbulenceModel" "PinkNoise2D".toList ∧
    "PinkNoise".toList <:+: "PinkNoise2D".toList ∧
    Says oddDefinition "Environment" "PinkNoiseModel.turbulenceIntensity" "2.5".toList ∧ oddDefinition.int "2.5".toList = none :=
  ⟨keys_says _ _ _ _ (by decide +kernel), keys_says _ _ _ _ (by decide +kernel), by decide +kernel, ⟨"0".toList, keys_says _ _ _ _ (by decide +kernel), keys_zero _⟩,
    ⟨"1".toList, keys_says _ _ _ _ (by decide +kernel), keys_one _⟩, keys_says_plain _ _ _ _ (by decide +kernel) (by decide +kernel), by decide +kernel,
    keys_says _ _ _ _ (by decide +kernel), keys_fraction _⟩

/-- winds drawn from wind roses of a year, or from soundings with a seed -/
def sampledDefinition (kind : String) : Source := keysAndTexts [("Environment.MeanWindModel", kind),
  ("Environment.SampledGroundWindData.locationsToSample", "Suffield 1 Edmonton 0"),
  ("Environment.SampledGroundWindData.launchMonth", "Yearly"), ("Environment.SampledRadioSondeData.randomSeed", "1")]

example : Says (sampledDefinition "SampledGroundWindData") "Environment" "MeanWindModel" "SampledGroundWindData".toList ∧
    Says (sampledDefinition "SampledGroundWindData") "Environment" "SampledGroundWindData.locationsToSample"
      "Suffield 1 Edmonton 0".toList ∧
    Str.wsSplit "Suffield 1 Edmonton 0".toList =
      (["Suffield".toList, "Edmonton".toList].zip ["1".toList, "0".toList]).flatMap (fun p => [p.1, p.2]) ∧
    ["1".toList, "0".toList].map (sampledDefinition "SampledGroundWindData").float = [(1 : ℝ), 0].map some ∧
    Says (sampledDefinition "SampledGroundWindData") "Environment" "SampledGroundWindData.launchMonth" "Yearly".toList ∧
    0 < [(1 : ℝ), 0].sum :=
  ⟨keys_says _ _ _ _ (by decide +kernel), keys_says _ _ _ _ (by decide +kernel), by decide +kernel, by
      rw [List.map_cons, List.map_cons, List.map_nil, sampledDefinition, keys_one, keys_zero]; rfl,
    keys_says _ _ _ _ (by decide +kernel), by norm_num⟩

example : Says (sampledDefinition "SampledRadioSondeData") "Environment" "MeanWindModel" "SampledRadioSondeData".toList ∧
    Says (sampledDefinition "SampledRadioSondeData") "Environment" "SampledRadioSondeData.randomSeed" "1".toList :=
  ⟨keys_says _ _ _ _ (by decide +kernel), keys_says _ _ _ _ (by decide +kernel)⟩

example : Says (sampledDefinition "constant") "Environment" "MeanWindModel" "constant".toList ∧
    "constant".toList ∉ ["Constant", "SampledGroundWindData", "Hellman", "CustomWindProfile", "SampledRadioSondeData"].map
      String.toList := ⟨keys_says _ _ _ _ (by decide +kernel), by decide +kernel⟩

/-- the defaults -/
def plainDefinition : Source := keysAndTexts [("Environment.MeanWindModel", "Constant"), ("Environment.ConstantMeanWind.velocity", "(0 0 0)"),
  ("Environment.TurbulenceModel", "None"), ("Environment.AtmosphericPropertiesModel", "USStandardAtmosphere"),
  ("Environment.EarthModel", "Flat"), ("Environment.LaunchSite.elevation", "0"), ("Environment.LaunchSite.latitude", "0"),
  ("Environment.LaunchSite.longitude", "0"), ("Environment.LaunchSite.railLength", "0")]

example : plainDefinition.float "0".toList = some 0 ∧ Says plainDefinition "Environment" "MeanWindModel" "Constant".toList ∧
    Says plainDefinition "Environment" "ConstantMeanWind.velocity" "(0 0 0)".toList ∧
    Says plainDefinition "Environment" "Environment.TurbulenceModel" "None".toList ∧
    Says plainDefinition "Environment" "AtmosphericPropertiesModel" "USStandardAtmosphere".toList ∧
    Says plainDefinition "Environment" "EarthModel" "Flat".toList ∧
    Says plainDefinition "Environment" "LaunchSite.elevation" "0".toList ∧
    Says plainDefinition "Environment" "LaunchSite.latitude" "0".toList ∧
    Says plainDefinition "Environment" "LaunchSite.longitude" "0".toList ∧
    Says plainDefinition "Environment" "LaunchSite.railLength" "0".toList :=
  ⟨keys_zero _, keys_says _ _ _ _ (by decide +kernel), keys_says _ _ _ _ (by decide +kernel),
    keys_says_plain _ _ _ _ (by decide +kernel) (by decide +kernel), keys_says _ _ _ _ (by decide +kernel), keys_says _ _ _ _ (by decide +kernel), keys_says _ _ _ _ (by decide +kernel),
    keys_says _ _ _ _ (by decide +kernel), keys_says _ _ _ _ (by decide +kernel), keys_says _ _ _ _ (by decide +kernel)⟩

end Mapleaf.ENV
