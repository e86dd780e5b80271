import Verif.Run.OptSetupModel
import Verif.Run.OptProps
import Verif.Run.CaseProps
import Verif.SimDef.WriterProps
import Mathlib.Data.Rat.Defs
import Mathlib.Algebra.Order.Field.Rat
import Mathlib.Tactic.Positivity
import Mathlib.Tactic.Linarith
import Mathlib.Tactic.NormNum

/-!
# C86: an optimisation is set up as its dictionary says
-/

namespace Mapleaf.Run.OptSetup
open Str SimDef Opt CaseM

variable {K : Type}

/-! ## The definition and the kind of optimiser -/

/-- **C86** A definition that is given is used, otherwise the file is read; without either the call is rejected. -/
theorem loadDefinition_spec {σ : Type} (load : Str → Except PyErr σ) (path : Option Str) (given : Option σ)
    (r : Except PyErr σ) : loadDefinition load path given = r ↔
      (∃ d, given = some d ∧ r = .ok d) ∨ (given = none ∧ ∃ p, path = some p ∧ r = load p) ∨
        (given = none ∧ path = none ∧ r = .error .valueError) := by
  cases given <;> cases path <;> simp [loadDefinition, eq_comm]

/-- **C86** The optimiser works on the definition with every plot switched off and nothing else changed, and reads its
`Optimization` dictionary. -/
theorem factory_definition (load : Str → Except PyErr Store) (path : Option Str) (given : Option Store)
    (reader : Option (Store × Str)) (h : given ≠ none ∨ path ≠ none) (s' : Store) (q : Str) :
    factoryReader load path given reader = .ok (s', q) →
      q = "Optimization".toList ∧ ∃ s, loadDefinition load path given = .ok s ∧ s'.defaults = s.defaults ∧
        ∀ k, Dict.get? s'.dict k = if k = "SimControl.plot".toList then some "None".toList
          else if k = "SimControl.RocketPlot".toList then some "Off".toList else Dict.get? s.dict k := by
  have e1 : strip "SimControl.plot".toList = "SimControl.plot".toList := by decide +kernel
  have e3 : strip "SimControl.RocketPlot".toList = "SimControl.RocketPlot".toList := by decide +kernel
  have n13 : "SimControl.plot".toList ≠ "SimControl.RocketPlot".toList := by decide +kernel
  have hc : (given.isSome || path.isSome) = true := by
    rcases h with h | h
    · rw [Option.isSome_iff_ne_none.2 h]; rfl
    · rw [Option.isSome_iff_ne_none.2 h, Bool.or_true]
  unfold factoryReader
  rw [if_pos hc]
  cases hl : loadDefinition load path given with
  | error e => intro h; cases h
  | ok s =>
    intro h
    dsimp only at h
    rw [Except.ok.injEq, Prod.mk.injEq] at h
    obtain ⟨rfl, rfl⟩ := h
    refine ⟨rfl, s, rfl, rfl, ?_⟩
    intro k
    unfold setValue
    dsimp only
    rw [e1, e3]
    by_cases k3 : k = "SimControl.RocketPlot".toList
    · rw [k3, Dict.get?_set_self, if_neg (Ne.symm n13), if_pos rfl]
    · rw [Dict.get?_set_ne _ _ (Ne.symm k3), if_neg k3]
      by_cases k1 : k = "SimControl.plot".toList
      · rw [k1, Dict.get?_set_self, if_pos rfl]
      · rw [Dict.get?_set_ne _ _ (Ne.symm k1), if_neg k1]

/-- **C86** It fails exactly as reading the file does; a nested optimisation reads from the reader it is given, and
without any source the call is rejected. -/
theorem factory_other (load : Str → Except PyErr Store) (path : Option Str) (given : Option Store)
    (reader : Option (Store × Str)) :
    ((given ≠ none ∨ path ≠ none) → ∀ e, factoryReader load path given reader = .error e ↔
      loadDefinition load path given = .error e) ∧
    factoryReader load none none reader = (match reader with | some r => .ok r | none => .error .valueError) := by
  refine ⟨?_, ?_⟩
  · intro h e
    have hc : (given.isSome || path.isSome) = true := by
      rcases h with h | h
      · rw [Option.isSome_iff_ne_none.2 h]; rfl
      · rw [Option.isSome_iff_ne_none.2 h, Bool.or_true]
    unfold factoryReader
    rw [if_pos hc]
    cases loadDefinition load path given with
    | error e' => dsimp only; rw [Except.error.injEq, Except.error.injEq]
    | ok s => exact ⟨fun h => (nomatch h), fun h => (nomatch h)⟩
  · unfold factoryReader
    rw [if_neg (by decide)]
    cases reader <;> rfl

/-- **C86** The particle swarm is used exactly when `method` is left out or `PSO`. -/
theorem pickMethod_pso (text : Option Str) : pickMethod text = .ok .pso ↔ text = none ∨ text = some "PSO".toList := by
  unfold pickMethod
  dsimp only
  have hp : "PSO".toList = "PSO".toList := rfl
  cases text with
  | none => simp only [Option.getD_none, if_true, true_or]
  | some m =>
    simp only [Option.getD_some, reduceCtorEq, Option.some.injEq, false_or]
    generalize "PSO".toList = pso at *
    generalize "scipy.optimize.minimize".toList = sc at *
    by_cases hm : m = pso
    · simp [hm]
    · rw [if_neg hm]
      refine ⟨fun h => ?_, fun h => absurd h hm⟩
      split at h
      · split at h
        · cases h
        · split at h <;> cases h
      · cases h

/-- **C86** `scipy` is used exactly for a text of two words (one space) that mentions `scipy.optimize.minimize`; the
second word is the method. -/
theorem pickMethod_scipy (text : Option Str) (m : Str) : pickMethod text = .ok (.scipy m) ↔
    ∃ w, text = some (w ++ ' ' :: m) ∧ ' ' ∉ w ∧ ' ' ∉ m ∧ "scipy.optimize.minimize".toList <:+: w ++ ' ' :: m := by
  have hsp : ' ' ∉ "PSO".toList := by decide +kernel
  unfold pickMethod
  dsimp only
  cases text with
  | none =>
    simp only [Option.getD_none, if_true, reduceCtorEq, false_and, exists_false, Except.ok.injEq]
  | some t =>
    simp only [Option.getD_some, Option.some.injEq]
    generalize "PSO".toList = pso at *
    generalize "scipy.optimize.minimize".toList = sc at *
    have hsplit : ∀ w, (t = w ++ ' ' :: m ∧ ' ' ∉ w ∧ ' ' ∉ m) ↔ splitC ' ' t = [w, m] := by
      intro w
      constructor
      · rintro ⟨rfl, h1, h2⟩
        have := splitC_join ' ' (l := [w, m]) (by simp) (by
          intro s hs; simp at hs; rcases hs with rfl | rfl <;> assumption)
        simpa [join] using this
      · intro h
        have h1 := join_splitC ' ' t
        rw [h] at h1
        refine ⟨by rw [← h1]; simp [join], ?_, ?_⟩
        · exact splitC_no_sep w (by rw [h]; simp)
        · exact splitC_no_sep m (by rw [h]; simp)
    by_cases hm : t = pso
    · rw [if_pos hm]
      constructor
      · intro h; cases h
      · rintro ⟨w, rfl, _⟩
        exact absurd (hm ▸ (by simp : ' ' ∈ w ++ ' ' :: m)) hsp
    · rw [if_neg hm]
      by_cases hi : isIn sc t = true
      · rw [if_pos hi]
        have hin := (isIn_iff sc t).1 hi
        by_cases hl : (splitC ' ' t).length > 2
        · rw [if_pos hl]
          constructor
          · intro h; cases h
          · rintro ⟨w, h1, h2, h3, _⟩
            rw [(hsplit w).1 ⟨h1, h2, h3⟩] at hl
            simp at hl
        · rw [if_neg hl]
          match hs : splitC ' ' t with
          | [] => exact absurd hs (splitC_ne_nil _ _)
          | [a] =>
            constructor
            · intro h; cases h
            · rintro ⟨w, h1, h2, h3, _⟩
              rw [(hsplit w).1 ⟨h1, h2, h3⟩] at hs
              simp at hs
          | [a, b] =>
            constructor
            · intro h
              simp only [List.getElem?_cons_succ, List.getElem?_cons_zero, Except.ok.injEq, Kind.scipy.injEq] at h
              subst h
              obtain ⟨q1, q2, q3⟩ := (hsplit a).2 hs
              exact ⟨a, q1, q2, q3, q1 ▸ hin⟩
            · rintro ⟨w, h1, h2, h3, _⟩
              rw [(hsplit w).1 ⟨h1, h2, h3⟩] at hs
              simp at hs
              simp [hs]
          | a :: b :: c :: d => rw [hs] at hl; simp at hl
      · rw [if_neg hi]
        constructor
        · intro h; cases h
        · rintro ⟨w, h1, _, _, h4⟩
          exact absurd ((isIn_iff sc t).2 (h1 ▸ h4)) hi

/-- **C86** Every other text is rejected. -/
theorem pickMethod_error (text : Option Str) (e : PyErr) (h : pickMethod text = .error e) :
    e = .valueError ∨ (e = .indexError ∧ ∃ t, text = some t ∧ ' ' ∉ t ∧ "scipy.optimize.minimize".toList <:+: t) := by
  unfold pickMethod at h
  dsimp only at h
  cases text with
  | none => simp only [Option.getD_none, if_true, reduceCtorEq] at h
  | some t =>
    simp only [Option.getD_some] at h
    generalize "PSO".toList = pso at *
    generalize "scipy.optimize.minimize".toList = sc at *
    split at h
    · cases h
    · split at h
      · rename_i _ hi
        split at h
        · left; cases h; rfl
        · split at h
          · cases h
          · rename_i hn
            right
            cases h
            refine ⟨rfl, t, rfl, ?_, (isIn_iff sc t).1 hi⟩
            match hs : splitC ' ' t with
            | [] => exact absurd hs (splitC_ne_nil _ _)
            | [a] =>
              have := join_splitC ' ' t
              rw [hs] at this
              simp only [join] at this
              rw [← this]
              exact splitC_no_sep a (by rw [hs]; simp)
            | a :: b :: c => rw [hs] at hn; simp at hn
      · left; cases h; rfl

/-- **C86 fails**: asking for `scipy.optimize.minimize` without naming one of its methods (which `scipy` allows) is not
answered with the default method or a readable message: it is an `IndexError`. -/
theorem default_scipy_violated : pickMethod (some "scipy.optimize.minimize".toList) = .error .indexError := by decide +kernel

/-! ## Dependent variables -/

theorem afterLast_none (b : Str) : ∀ s, afterLast b s = none ↔ ∀ u c v, s ≠ u ++ b ++ c :: v := by
  intro s
  induction s with
  | nil => simp [afterLast]
  | cons d s ih =>
    unfold afterLast
    cases h : afterLast b s with
    | some r =>
      simp only [reduceCtorEq, false_iff, not_forall, not_not]
      have : ¬ ∀ u c v, s ≠ u ++ b ++ c :: v := fun hh => by rw [← ih, h] at hh; cases hh
      simp only [not_forall, not_not] at this
      obtain ⟨u, c, v, hs⟩ := this
      exact ⟨d :: u, c, v, by rw [hs]; simp⟩
    | none =>
      have hs := ih.1 h
      dsimp only
      by_cases hp : b.isPrefixOf (d :: s) = true
      · rw [if_pos hp]
        obtain ⟨r, hr⟩ := List.isPrefixOf_iff_prefix.1 hp
        rw [← hr, List.drop_left]
        cases r with
        | nil =>
          simp only [true_iff]
          intro u c v huv
          cases u with
          | nil =>
            have := congrArg List.length huv
            simp at this
          | cons x u =>
            rw [hr] at huv
            simp only [List.cons_append, List.cons.injEq] at huv
            exact hs u c v (by rw [huv.2])
        | cons c v =>
          simp only [reduceCtorEq, false_iff, not_forall, not_not]
          exact ⟨[], c, v, by simp⟩
      · rw [if_neg hp]
        simp only [true_iff]
        intro u c v huv
        cases u with
        | nil => exact hp (List.isPrefixOf_iff_prefix.2 ⟨c :: v, by rw [huv]; simp⟩)
        | cons x u =>
          simp only [List.cons_append, List.cons.injEq] at huv
          exact hs u c v (by rw [huv.2])

/-- if `b` begins with a character that occurs in it only once and that is not `x`, the last `b` is found -/
theorem afterLast_of {h : Char} {bt : Str} (hh : h ∉ bt) {x : Char} (hx : x ≠ h) {t : Str} (ht : ¬ (h :: bt) <:+: t) :
    ∀ m : Str, afterLast (h :: bt) (m ++ (h :: bt) ++ x :: t) = some t := by
  have key : ∀ w, w ≠ [] → ∀ c r, (h :: bt) ++ x :: t ≠ w ++ (h :: bt) ++ c :: r := by
    intro w hw c r he
    obtain ⟨w0, w', rfl⟩ := List.exists_cons_of_ne_nil hw
    simp only [List.cons_append, List.cons.injEq, List.append_assoc] at he
    rcases List.append_eq_append_iff.1 he.2 with ⟨as, h1, h2⟩ | ⟨cs, h1, h2⟩
    · cases as with
      | nil =>
        simp only [List.nil_append, List.cons.injEq] at h2
        exact hx h2.1
      | cons y as =>
        simp only [List.cons_append, List.cons.injEq] at h2
        exact ht ⟨as, c :: r, by rw [h2.2]; simp⟩
    · cases cs with
      | nil =>
        simp only [List.nil_append, List.cons.injEq] at h2
        exact hx h2.1.symm
      | cons y cs =>
        simp only [List.cons_append, List.cons.injEq] at h2
        exact hh (by rw [h1, ← h2.1]; simp)
  intro m
  induction m with
  | nil =>
    rw [List.nil_append, List.cons_append, afterLast]
    have hn : afterLast (h :: bt) (bt ++ x :: t) = none := by
      rw [afterLast_none]
      intro u c v huv
      exact key (h :: u) (by simp) c v (by simp only [List.cons_append]; rw [huv])
    rw [hn]
    dsimp only
    have hpre : (h :: bt).isPrefixOf (h :: (bt ++ x :: t)) = true := List.isPrefixOf_iff_prefix.2 ⟨x :: t, rfl⟩
    rw [if_pos hpre, ← List.cons_append, List.drop_left]
  | cons d m ih =>
    rw [List.cons_append, List.cons_append, afterLast, ih]

/-- **C86** A dependent variable listed as `target` below `<path>.DependentVariables`, where the path begins with
`Optimization`, sets `target`. -/
theorem dependentKey_spec (q target : Str) (h : ¬ "DependentVariables".toList <:+: target) :
    dependentKey ("Optimization".toList ++ q ++ ".DependentVariables.".toList ++ target) = target := by
  unfold dependentKey
  have e : ".DependentVariables.".toList = '.' :: ("DependentVariables".toList ++ ['.']) := by decide +kernel
  obtain ⟨bt, hb, hD⟩ : ∃ bt, "DependentVariables".toList = 'D' :: bt ∧ 'D' ∉ bt := ⟨_, rfl, by decide +kernel⟩
  obtain ⟨at', ha⟩ : ∃ at', "Optimization".toList = 'O' :: at' := ⟨_, rfl⟩
  rw [e, hb, ha]
  rw [hb] at h
  have hf : ('O' :: at') ++ q ++ '.' :: ('D' :: bt ++ ['.']) ++ target
      = 'O' :: (at' ++ (q ++ ['.'] ++ ('D' :: bt) ++ '.' :: target)) := by simp
  rw [hf, cutBetween, if_pos (List.isPrefixOf_iff_prefix.2 ⟨q ++ ['.'] ++ ('D' :: bt) ++ '.' :: target, by simp⟩)]
  have hd : List.drop ('O' :: at').length ('O' :: (at' ++ (q ++ ['.'] ++ ('D' :: bt) ++ '.' :: target)))
      = q ++ ['.'] ++ ('D' :: bt) ++ '.' :: target := by
    rw [← List.cons_append, List.drop_left]
  rw [hd, afterLast_of hD (by decide) h]

/-- **C86 fails** if the name of the entry to be set contains `DependentVariables.` itself: everything before it is cut
off, too … -/
theorem nested_name_violated : dependentKey "Optimization.DependentVariables.Rocket.DependentVariables.mass".toList
    = "mass".toList := by decide +kernel

theorem cutBetween_id (a b : Str) : ∀ s, ¬ a <:+: s → cutBetween a b s = s := by
  intro s
  induction s with
  | nil => intro _; rfl
  | cons c s ih =>
    intro h
    unfold cutBetween
    rw [if_neg (fun hp => h (List.isPrefixOf_iff_prefix.1 hp).isInfix), ih (fun hi => h (hi.trans (List.infix_cons (List.infix_refl s))))]

/-- … **and** for a list of dependent variables that is found outside an `Optimization` dictionary (the reader falls
back to it): the full name is kept, so the variable `target` is not set. -/
theorem outside_violated (target : Str) (h : ¬ "Optimization".toList <:+: "DependentVariables.".toList ++ target) :
    dependentKey ("DependentVariables.".toList ++ target) = "DependentVariables.".toList ++ target :=
  cutBetween_id _ _ _ h

theorem readDependent_ok (path : Str) (D def' : Dict Str Str) (val : Str → Str) : ∀ (keys : List Str) (s : Store),
    s.dict = D → s.defaults = def' →
    (∀ k ∈ keys, (¬ ∃ w, Lookup D def' (strip (relKey path k)) w) ∧ Lookup D def' (strip k) (val k)) →
    readDependent path s keys = .ok (keys.map fun k => (dependentKey k, val k)) := by
  intro keys
  induction keys with
  | nil => intro s _ _ _; rfl
  | cons k ks ih =>
    intro s hD hd h
    obtain ⟨g1, g2, g3, g4⟩ := getString_spec s path k
    have hk : (getString s path k).1 = .ok (val k) := (g1 (val k)).2 (Or.inr (by
      rw [hD, hd]; exact h k (by simp)))
    unfold readDependent
    cases hg : getString s path k with
    | mk r s1 =>
      rw [hg] at hk g3 g4
      dsimp only at hk g3 g4
      subst hk
      dsimp only
      rw [ih s1 (g3.trans hD) (g4.trans hd) (fun k' hk' => h k' (by simp [hk']))]
      rfl

theorem path_dot (path t : Str) :
    relKey path "DependentVariables".toList ++ '.' :: t = path ++ ".DependentVariables.".toList ++ t := by
  rw [show ".DependentVariables.".toList = '.' :: "DependentVariables".toList ++ ['.'] by decide +kernel]
  simp [relKey]

/-- **C86** The dependent variables of the optimisation at `path` are exactly the entries below its `DependentVariables`
dictionary (at any depth), each with the text written there.  Names carry no surrounding white space, do not mention
`DependentVariables`, and none of them is found a second time below `path`. -/
theorem loadDependent_iff (s : Store) (q : Str)
    (hroot : getSubKeys s.dict "DependentVariables".toList = [])
    (hc : ∀ t, "Optimization".toList ++ q ++ ".DependentVariables.".toList ++ t ∈ Dict.keys s.dict →
      strip ("Optimization".toList ++ q ++ ".DependentVariables.".toList ++ t)
        = "Optimization".toList ++ q ++ ".DependentVariables.".toList ++ t ∧ ¬ "DependentVariables".toList <:+: t ∧
      ¬ ∃ w, Lookup s.dict s.defaults (strip (relKey ("Optimization".toList ++ q)
        ("Optimization".toList ++ q ++ ".DependentVariables.".toList ++ t))) w) :
    ∃ out, loadDependent s ("Optimization".toList ++ q) = .ok out ∧ ∀ t v, (t, v) ∈ out ↔
      Dict.get? s.dict ("Optimization".toList ++ q ++ ".DependentVariables.".toList ++ t) = some v := by
  unfold loadDependent
  have hne : relKey ("Optimization".toList ++ q) "DependentVariables".toList ≠ [] := by simp [relKey]
  have hlist : readerList (getSubKeys s.dict) ("Optimization".toList ++ q) (some "DependentVariables".toList)
      = getSubKeys s.dict (relKey ("Optimization".toList ++ q) "DependentVariables".toList) := by
    obtain ⟨r1, r2, _⟩ := readerList_spec (getSubKeys s.dict) ("Optimization".toList ++ q) "DependentVariables".toList
    by_cases hn : getSubKeys s.dict (relKey ("Optimization".toList ++ q) "DependentVariables".toList) = []
    · rw [r2 hn, hroot, hn]
    · exact r1 hn
  rw [hlist]
  have hform : ∀ k ∈ getSubKeys s.dict (relKey ("Optimization".toList ++ q) "DependentVariables".toList),
      k ∈ Dict.keys s.dict ∧ ∃ t, k = "Optimization".toList ++ q ++ ".DependentVariables.".toList ++ t := by
    intro k hk
    rw [mem_getSubKeys_iff] at hk
    obtain ⟨t, ht⟩ := subkey_form hne ((isSubKey_iff _ _).2 hk.2)
    exact ⟨hk.1, t, by rw [ht, path_dot]⟩
  rw [readDependent_ok ("Optimization".toList ++ q) s.dict s.defaults (fun k => (Dict.get? s.dict k).getD []) _ s rfl rfl (by
    intro k hk
    obtain ⟨hkm, t, rfl⟩ := hform k hk
    obtain ⟨c1, _, c3⟩ := hc t hkm
    refine ⟨c3, Or.inl ?_⟩
    obtain ⟨v, hv⟩ := Option.isSome_iff_exists.1 ((Dict.get?_isSome_iff s.dict _).2 hkm)
    rw [c1, hv]; rfl)]
  refine ⟨_, rfl, ?_⟩
  intro t v
  rw [List.mem_map]
  constructor
  · rintro ⟨k, hk, he⟩
    obtain ⟨hkm, t', rfl⟩ := hform k hk
    obtain ⟨_, c2, _⟩ := hc t' hkm
    rw [dependentKey_spec q t' c2, Prod.mk.injEq] at he
    obtain ⟨rfl, rfl⟩ := he
    obtain ⟨v, hv⟩ := Option.isSome_iff_exists.1 ((Dict.get?_isSome_iff s.dict _).2 hkm)
    rw [hv]; rfl
  · intro hv
    have hm := (Dict.get?_isSome_iff s.dict _).1 (Option.isSome_iff_exists.2 ⟨v, hv⟩)
    refine ⟨"Optimization".toList ++ q ++ ".DependentVariables.".toList ++ t, ?_, ?_⟩
    · rw [mem_getSubKeys_iff]
      refine ⟨hm, ?_⟩
      unfold Below
      rw [dictPath_of_ne_nil hne, splitC_prefix_iff]
      exact ⟨t, (path_dot _ t).symm⟩
    · rw [dependentKey_spec q t (hc t hm).2.1, hv]; rfl

/-! ## Batch optimisation -/

/-- what one case of the batch file is turned into -/
def CaseSim (parseInt : Str → Except PyErr Int) (load : Str → Except PyErr Store) (batch : Store) (case : Str)
    (sim : Store) : Prop :=
  ∃ path sim0 b b', Lookup batch.dict batch.defaults (strip (case ++ ".simDefinitionFile".toList)) path ∧
    load path = .ok sim0 ∧ b.dict = batch.dict ∧ b.defaults = batch.defaults ∧
    implementOverrides parseInt case b sim0 = .ok (b', sim)

theorem implementOverrides_readonly (parseInt : Str → Except PyErr Int) (case : Str) (b sim b' sim' : Store)
    (h : implementOverrides parseInt case b sim = .ok (b', sim')) : b'.dict = b.dict ∧ b'.defaults = b.defaults := by
  unfold implementOverrides at h
  dsimp only at h
  split at h
  · cases h
  · split at h
    · cases h
    · exact overrides_readonly _ _ _ _ h

theorem batch_fold (parseInt : Str → Except PyErr Int) (load : Str → Except PyErr Store) (batch : Store) :
    ∀ (cases : List Str) (st st' : Store × List Store), st.1.dict = batch.dict → st.1.defaults = batch.defaults →
      cases.foldlM (batchCase parseInt load) st = .ok st' →
      ∃ sims, st'.2 = st.2 ++ sims ∧ List.Forall₂ (CaseSim parseInt load batch) cases sims := by
  intro cases
  induction cases with
  | nil => intro st st' _ _ h; cases h; exact ⟨[], by simp, .nil⟩
  | cons case rest ih =>
    intro st st' h1 h2 h
    rw [List.foldlM_cons] at h
    unfold batchCase at h
    obtain ⟨r1, r2⟩ := getValue_readonly st.1 (case ++ ".simDefinitionFile".toList)
    have hlk := getValue_ok_iff st.1 (case ++ ".simDefinitionFile".toList)
    cases hg : getValue st.1 (case ++ ".simDefinitionFile".toList) with
    | mk r b =>
      rw [hg] at h r1 r2 hlk
      dsimp only at h r1 r2 hlk
      cases r with
      | error e => cases h
      | ok path =>
        dsimp only at h
        cases hl : load path with
        | error e => rw [hl] at h; cases h
        | ok sim0 =>
          rw [hl] at h
          dsimp only at h
          cases ho : implementOverrides parseInt case b sim0 with
          | error e => rw [ho] at h; cases h
          | ok p =>
            obtain ⟨b', sim⟩ := p
            rw [ho] at h
            obtain ⟨q1, q2⟩ := implementOverrides_readonly _ _ _ _ _ _ ho
            obtain ⟨sims, e1, e2⟩ := ih (b', st.2 ++ [sim]) st' (q1.trans (r1.trans h1)) (q2.trans (r2.trans h2)) h
            refine ⟨sim :: sims, by rw [e1]; simp, .cons ⟨path, sim0, b, b', ?_, hl, r1.trans h1, r2.trans h2, ho⟩ e2⟩
            rw [← h1, ← h2]
            exact (hlk path).1 rfl

/-- **C86** A batch optimisation simulates, for every trial, one definition per root-level dictionary of the batch file,
in alphabetical order: the file that dictionary names, with its overrides. -/
theorem loadBatch_cases (parseInt : Str → Except PyErr Int) (load : Str → Except PyErr Store) (batch : Store)
    (sims : List Store) (h : loadBatch parseInt load batch = .ok sims) :
    ∃ cases : List Str, List.Forall₂ (CaseSim parseInt load batch) cases sims ∧ cases.Nodup ∧
      cases.Pairwise (fun a b => strLe a b = true) ∧
      ∀ c, c ∈ cases ↔ '.' ∉ c ∧ ∃ k, c ++ '.' :: k ∈ Dict.keys batch.dict := by
  unfold loadBatch at h
  have hperm := List.perm_insertionSort (fun a b => strLe a b = true) (getImmediateSubDicts batch.dict [])
  have htot : Std.Total (fun a b : Str => strLe a b = true) := ⟨fun a b => by simpa using strLe_total a b⟩
  have htr : IsTrans Str (fun a b => strLe a b = true) := ⟨strLe_trans⟩
  have hsort := List.pairwise_insertionSort (fun a b => strLe a b = true) (getImmediateSubDicts batch.dict [])
  split at h
  · cases h
  · rename_i st hst
    cases h
    obtain ⟨sims, e1, e2⟩ := batch_fold parseInt load batch _ _ _ rfl rfl hst
    rw [e1, List.nil_append]
    refine ⟨_, e2, hperm.nodup_iff.2 (getImmediateSubDicts_nodup _ _), hsort, ?_⟩
    intro c
    rw [hperm.mem_iff, mem_getImmediateSubDicts_iff]
    have hroot : dictPath [] = [] := rfl
    rw [hroot]
    simp only [List.nil_append]
    constructor
    · rintro ⟨⟨name, hn⟩, k, hk, rest, hr, hs⟩
      obtain ⟨b, rfl⟩ := (splitC_prefix_iff c k).1 ⟨rest, hr, hs⟩
      have hj := join_splitC '.' c
      rw [hn] at hj
      simp only [join] at hj
      exact ⟨hj ▸ splitC_no_sep name (by rw [hn]; simp), b, hk⟩
    · rintro ⟨hc, k, hk⟩
      refine ⟨⟨c, ?_⟩, c ++ '.' :: k, hk, splitC '.' k, splitC_ne_nil _ _, splitC_append_dot c k⟩
      have := splitC_join '.' (l := [c]) (by simp) (by intro s hs; simp at hs; rw [hs]; exact hc)
      simpa [join] using this

/-- **C86** The definition of a case: its overrides first, then plots off and the logging level at least 3, then what its
file says. -/
theorem caseSim_values (parseInt : Str → Except PyErr Int) (load : Str → Except PyErr Store) (batch : Store) (case : Str)
    (sim : Store) (h : CaseSim parseInt load batch case sim) (hc : CleanOverrides case batch.dict) :
    ∃ path sim0 text level, Lookup batch.dict batch.defaults (strip (case ++ ".simDefinitionFile".toList)) path ∧
      load path = .ok sim0 ∧
      Lookup (Dict.set sim0.dict "SimControl.plot".toList "None".toList) sim0.defaults "SimControl.loggingLevel".toList text ∧
      parseInt text = .ok level ∧ sim.defaults = sim0.defaults ∧
      ∀ k, Dict.get? sim.dict k = ((Dict.get? batch.dict (case ++ ".ParameterOverrides.".toList ++ k)).or
        (Forced level sim0.dict k)) := by
  obtain ⟨path, sim0, b, b', h1, h2, h3, h4, h5⟩ := h
  have e1 : strip "SimControl.plot".toList = "SimControl.plot".toList := by decide +kernel
  have e2 : strip "SimControl.loggingLevel".toList = "SimControl.loggingLevel".toList := by decide +kernel
  have h5' := h5
  unfold implementOverrides at h5'
  dsimp only at h5'
  have hlk := getValue_ok_iff (setValue sim0 "SimControl.plot".toList "None".toList) "SimControl.loggingLevel".toList
  split at h5'
  · cases h5'
  · rename_i text s1 hg
    split at h5'
    · cases h5'
    · rename_i level hi
      have hl := (hlk text).1 (by rw [hg])
      rw [e2] at hl
      unfold setValue at hl
      rw [e1] at hl
      obtain ⟨b2, sim2, g1, g2, g3, g4⟩ := overrides_spec parseInt b sim0 (by rw [h3]; exact hc) hl hi
      rw [g1, Except.ok.injEq, Prod.mk.injEq] at h5
      obtain ⟨rfl, rfl⟩ := h5
      exact ⟨path, sim0, text, level, h1, h2, hl, hi, g3, by rw [← h3]; exact g4⟩

/-- **C86** Without a `batchDefinition` exactly the definition itself is simulated. -/
theorem definitions_single (parseInt : Str → Except PyErr Int) (load : Str → Except PyErr Store) (s : Store) (path : Str)
    (h : ¬ Found s path "batchDefinition".toList) : definitions parseInt load s path = .ok [s] := by
  unfold definitions
  rcases getString_cases s path "batchDefinition".toList with ⟨v, _, hf⟩ | ⟨he, _⟩
  · exact absurd hf h
  · cases hg : getString s path "batchDefinition".toList with
    | mk r s1 => rw [hg] at he; dsimp only at he; subst he; rfl

/-- **C86** With one, the definitions are those of the batch file it names. -/
theorem definitions_batch (parseInt : Str → Except PyErr Int) (load : Str → Except PyErr Store) (s : Store) (file : Str)
    (h : Lookup s.dict s.defaults "Optimization.batchDefinition".toList file)
    (hn : ¬ ∃ w, Lookup s.dict s.defaults "Optimization.Optimization.batchDefinition".toList w)
    (hf : file ≠ "notPresent.fakeFile".toList) :
    definitions parseInt load s "Optimization".toList = (load file).bind (loadBatch parseInt load) := by
  have e1 : strip (relKey "Optimization".toList "batchDefinition".toList) = "Optimization.batchDefinition".toList := by
    decide +kernel
  have e2 : strip (relKey "Optimization".toList "Optimization.batchDefinition".toList)
      = "Optimization.Optimization.batchDefinition".toList := by decide +kernel
  have e3 : strip "Optimization.batchDefinition".toList = "Optimization.batchDefinition".toList := by decide +kernel
  unfold definitions
  obtain ⟨g1, g2, g3, g4⟩ := getString_spec s "Optimization".toList "batchDefinition".toList
  have hv := (g1 file).2 (Or.inl (by rw [e1]; exact h))
  cases hg : getString s "Optimization".toList "batchDefinition".toList with
  | mk r s1 =>
    rw [hg] at hv g3 g4
    dsimp only at hv g3 g4
    subst hv
    dsimp only
    rw [if_neg hf]
    obtain ⟨k1, _, _, _⟩ := getString_spec s1 "Optimization".toList "Optimization.batchDefinition".toList
    have hw := (k1 file).2 (Or.inr (by rw [e2, e3, g3, g4]; exact ⟨hn, h⟩))
    cases hg2 : getString s1 "Optimization".toList "Optimization.batchDefinition".toList with
    | mk r2 s2 =>
      rw [hg2] at hw
      dsimp only at hw
      subst hw
      dsimp only
      cases load file <;> rfl

/-- **C86 fails** for a batch optimisation with a nested one: the inner optimisation reads the definition of the case,
not the definition with the `Optimization` dictionary, so it raises `KeyError` unless every case repeats that
dictionary. -/
theorem nested_batch_violated (case : Store) (path : Str) (h : ¬ Found case (path ++ ".InnerOptimization".toList)
    "costFunction".toList) : costFunctionDef case (path ++ ".InnerOptimization".toList) = .error .keyError := by
  unfold costFunctionDef
  rcases getString_cases case (path ++ ".InnerOptimization".toList) "costFunction".toList with ⟨v, _, hf⟩ | ⟨he, _⟩
  · exact absurd hf h
  · cases hg : getString case (path ++ ".InnerOptimization".toList) "costFunction".toList with
    | mk r s1 => rw [hg] at he; dsimp only at he; subst he; rfl

/-! ## The swarm -/

/-- the value of an entry that may be left out -/
def Entry {α : Type} (conv : Str → Except PyErr α) (s : Store) (path key : Str) (dflt r : α) : Prop :=
  (¬ Found s path key ∧ r = dflt) ∨ ∃ v, (getString s path key).1 = .ok v ∧ conv v = .ok r

theorem entry_iff {α : Type} (conv : Str → Except PyErr α) (hconv : ∀ t, conv t ≠ .error .keyError) (s : Store)
    (path key : Str) (dflt r : α) : (tryGet conv s path key dflt).1 = .ok r ↔ Entry conv s path key dflt r := by
  obtain ⟨t1, t2, t3⟩ := tryGet_spec conv hconv s path key dflt
  unfold Entry
  rcases getString_cases s path key with ⟨v, hv, hf⟩ | ⟨he, hf⟩
  · rw [t2 v hv]
    constructor
    · exact fun h => Or.inr ⟨v, hv, h⟩
    · rintro (⟨h, _⟩ | ⟨v', hv', h⟩)
      · exact absurd hf h
      · rw [hv, Except.ok.injEq] at hv'; rw [hv']; exact h
  · rw [t1 hf, Except.ok.injEq]
    constructor
    · exact fun h => Or.inl ⟨hf, h.symm⟩
    · rintro (⟨_, h⟩ | ⟨v', hv', _⟩)
      · exact h.symm
      · rw [he] at hv'; cases hv'

theorem lookup_getString {s s1 : Store} (h1 : s1.dict = s.dict) (h2 : s1.defaults = s.defaults) (path key v : Str) :
    (getString s1 path key).1 = .ok v ↔ (getString s path key).1 = .ok v := by
  rw [(getString_spec s1 path key).1, (getString_spec s path key).1, h1, h2]

theorem entry_same {α : Type} (conv : Str → Except PyErr α) {s s1 : Store} (h1 : s1.dict = s.dict)
    (h2 : s1.defaults = s.defaults) (path key : Str) (dflt r : α) :
    Entry conv s1 path key dflt r ↔ Entry conv s path key dflt r := by
  unfold Entry
  simp only [lookup_getString h1 h2]
  unfold Found
  rw [h1, h2]

/-- **C86** The parameters of the swarm are those of the dictionary `ParticleSwarm`; left out, the number of iterations
is 50 and the cognitive, social and inertia parameters are 0.5, 0.6 and 0.9.  The number of particles has to be given. -/
theorem swarmOptions_iff [DivisionRing K] (parseInt : Str → Except PyErr Int) (num : Str → Except PyErr K)
    (hp : ∀ t, parseInt t ≠ .error .keyError) (hn : ∀ t, num t ≠ .error .keyError) (s : Store) (path : Str) (o : Swarm K) :
    swarmOptions parseInt num s path = .ok o ↔
      (∃ v, (getString s path "ParticleSwarm.nParticles".toList).1 = .ok v ∧ parseInt v = .ok o.rows) ∧
      Entry parseInt s (path ++ ".ParticleSwarm".toList) "nParticles".toList 20 o.particles ∧
      Entry parseInt s (path ++ ".ParticleSwarm".toList) "nIterations".toList 50 o.iterations ∧
      Entry num s (path ++ ".ParticleSwarm".toList) "cognitiveParam".toList (5 / 10) o.c1 ∧
      Entry num s (path ++ ".ParticleSwarm".toList) "socialParam".toList (6 / 10) o.c2 ∧
      Entry num s (path ++ ".ParticleSwarm".toList) "inertiaParam".toList (9 / 10) o.w := by
  obtain ⟨g1, g2, g3, g4⟩ := getString_spec s path "ParticleSwarm.nParticles".toList
  unfold swarmOptions getParsed
  cases hg : getString s path "ParticleSwarm.nParticles".toList with
  | mk r s1 =>
    rw [hg] at g3 g4
    dsimp only at g3 g4
    cases r with
    | error e =>
      dsimp only
      simp only [reduceCtorEq, false_and, exists_false]
    | ok v =>
      dsimp only
      cases hv : parseInt v with
      | error e =>
        dsimp only
        simp only [Except.ok.injEq, exists_eq_left', hv, reduceCtorEq, false_and]
      | ok rows =>
        dsimp only
        simp only [Except.ok.injEq, exists_eq_left', hv]
        rw [← entry_same parseInt g3 g4, ← entry_same parseInt g3 g4, ← entry_same num g3 g4, ← entry_same num g3 g4,
          ← entry_same num g3 g4, ← entry_iff parseInt hp, ← entry_iff parseInt hp, ← entry_iff num hn, ← entry_iff num hn,
          ← entry_iff num hn]
        generalize (tryGet parseInt s1 (path ++ ".ParticleSwarm".toList) "nParticles".toList 20).1 = x1
        generalize (tryGet parseInt s1 (path ++ ".ParticleSwarm".toList) "nIterations".toList 50).1 = x2
        generalize (tryGet num s1 (path ++ ".ParticleSwarm".toList) "cognitiveParam".toList (5 / 10)).1 = x3
        generalize (tryGet num s1 (path ++ ".ParticleSwarm".toList) "socialParam".toList (6 / 10)).1 = x4
        generalize (tryGet num s1 (path ++ ".ParticleSwarm".toList) "inertiaParam".toList (9 / 10)).1 = x5
        obtain ⟨o1, o2, o3, o4, o5, o6⟩ := o
        cases x1 <;> cases x2 <;> cases x3 <;> cases x4 <;> cases x5 <;>
          simp [bind, Except.bind, pure, Except.pure, and_comm, and_assoc]
        tauto

/-- **C86 fails**: the number of particles has a default (20) in the program, but leaving it out is a `KeyError`: it is
read once without a default before. -/
theorem particles_default_violated [DivisionRing K] (parseInt : Str → Except PyErr Int) (num : Str → Except PyErr K)
    (s : Store) (path : Str) (h : ¬ Found s path "ParticleSwarm.nParticles".toList) :
    swarmOptions parseInt num s path = .error .keyError := by
  unfold swarmOptions getParsed
  rcases getString_cases s path "ParticleSwarm.nParticles".toList with ⟨v, _, hf⟩ | ⟨he, _⟩
  · exact absurd hf h
  · cases hg : getString s path "ParticleSwarm.nParticles".toList with
    | mk r s1 => rw [hg] at he; dsimp only at he; subst he; rfl

/-- **C86** If the entry stands in the optimisation's own dictionary there are as many starting positions as particles. -/
theorem swarm_rows [DivisionRing K] (parseInt : Str → Except PyErr Int) (num : Str → Except PyErr K)
    (hp : ∀ t, parseInt t ≠ .error .keyError) (hn : ∀ t, num t ≠ .error .keyError) (s : Store) (path : Str) (o : Swarm K)
    (v : Str) (hv : Lookup s.dict s.defaults (strip (path ++ ".ParticleSwarm.nParticles".toList)) v)
    (h : swarmOptions parseInt num s path = .ok o) : o.rows = o.particles := by
  obtain ⟨⟨w, h1, h2⟩, h3, _⟩ := (swarmOptions_iff parseInt num hp hn s path o).1 h
  have e1 : relKey path "ParticleSwarm.nParticles".toList = path ++ ".ParticleSwarm.nParticles".toList := by
    unfold relKey
    rw [show ".ParticleSwarm.nParticles".toList = '.' :: "ParticleSwarm.nParticles".toList by decide +kernel]
  have e2 : relKey (path ++ ".ParticleSwarm".toList) "nParticles".toList = path ++ ".ParticleSwarm.nParticles".toList := by
    unfold relKey
    rw [show ".ParticleSwarm.nParticles".toList = ".ParticleSwarm".toList ++ '.' :: "nParticles".toList by decide +kernel]
    simp
  have k1 := ((getString_spec s path "ParticleSwarm.nParticles".toList).1 v).2 (Or.inl (by rw [e1]; exact hv))
  have k2 := ((getString_spec s (path ++ ".ParticleSwarm".toList) "nParticles".toList).1 v).2 (Or.inl (by rw [e2]; exact hv))
  rw [k1, Except.ok.injEq] at h1
  subst h1
  rcases h3 with ⟨hf, _⟩ | ⟨w', h3, h4⟩
  · exact absurd (Or.inl ⟨v, by rw [e2]; exact hv⟩) hf
  · rw [k2, Except.ok.injEq] at h3
    subst h3
    rw [h2, Except.ok.injEq] at h4
    exact h4

/-! ## The cost function -/

/-- **C86** A cost function without a colon is an expression; with exactly one, the function (after it) of a module
(before it); with more, it is rejected. -/
theorem costKind_spec (text : Str) :
    (∀ t, costKind text = .ok (.formula t) ↔ t = text ∧ ':' ∉ text) ∧
    (∀ m f, costKind text = .ok (.custom m f) ↔ text = m ++ ':' :: f ∧ ':' ∉ m ∧ ':' ∉ f) ∧
    (∀ e, costKind text = .error e ↔ e = .valueError ∧ 2 ≤ text.count ':') := by
  have hin : isIn [':'] text = true ↔ ':' ∈ text := by
    rw [isIn_iff]
    constructor
    · rintro ⟨a, b, h⟩; rw [← h]; simp
    · intro h
      obtain ⟨a, b, h⟩ := List.append_of_mem h
      exact ⟨a, b, by rw [h]; simp⟩
  unfold costKind
  by_cases hc : ':' ∈ text
  · rw [if_pos (hin.2 hc)]
    have hj := join_splitC ':' text
    have hno : ∀ t ∈ splitC ':' text, ':' ∉ t := splitC_no_sep
    match hs : splitC ':' text with
    | [] => exact absurd hs (splitC_ne_nil _ _)
    | [a] =>
      rw [hs] at hj hno
      simp only [join] at hj
      exact absurd (hj ▸ hc) (hno a (by simp))
    | [a, b] =>
      rw [hs] at hj hno
      have ha : ':' ∉ a := hno a (by simp)
      have hb : ':' ∉ b := hno b (by simp)
      have ht : text = a ++ ':' :: b := by rw [← hj]; simp [join]
      refine ⟨fun t => ⟨fun h => (nomatch h), fun h => absurd hc h.2⟩, fun m f => ⟨?_, ?_⟩, fun e => ⟨fun h => (nomatch h), ?_⟩⟩
      · intro h
        simp only [Except.ok.injEq, Cost.custom.injEq] at h
        obtain ⟨rfl, rfl⟩ := h
        exact ⟨ht, ha, hb⟩
      · rintro ⟨h, hm, hf⟩
        have h2 : splitC ':' text = [m, f] := by
          rw [h]
          have := splitC_join ':' (l := [m, f]) (by simp) (by
            intro s hs; simp at hs; rcases hs with rfl | rfl <;> assumption)
          simpa [join] using this
        rw [hs] at h2
        simp only [List.cons.injEq, and_true] at h2
        simp [h2]
      · rintro ⟨_, h⟩
        rw [ht, List.count_append, List.count_cons_self, List.count_eq_zero.2 ha, List.count_eq_zero.2 hb] at h
        omega
    | a :: b :: c :: d =>
      rw [hs] at hj
      have ht : text = a ++ ':' :: (b ++ ':' :: join [':'] (c :: d)) := by rw [← hj]; simp [join]
      refine ⟨fun t => ⟨fun h => (nomatch h), fun h => absurd hc h.2⟩, fun m f => ⟨fun h => (nomatch h), ?_⟩, fun e => ⟨?_, ?_⟩⟩
      · rintro ⟨h, hm, hf⟩
        have h2 : splitC ':' text = [m, f] := by
          rw [h]
          have := splitC_join ':' (l := [m, f]) (by simp) (by
            intro s hs; simp at hs; rcases hs with rfl | rfl <;> assumption)
          simpa [join] using this
        rw [hs] at h2
        simp at h2
      · intro h
        cases h
        refine ⟨rfl, ?_⟩
        rw [ht, List.count_append, List.count_cons_self, List.count_append, List.count_cons_self]
        omega
      · rintro ⟨rfl, _⟩; rfl
  · rw [if_neg (fun h => hc (hin.1 h))]
    refine ⟨fun t => ?_, fun m f => ⟨fun h => (nomatch h), ?_⟩, fun e => ⟨fun h => (nomatch h), ?_⟩⟩
    · simp [hc, eq_comm]
    · rintro ⟨h, _⟩; exact absurd (h ▸ (by simp)) hc
    · rintro ⟨_, h⟩; rw [List.count_eq_zero.2 hc] at h; omega

/-! ## The cost function shipped with the program -/

/-- **C86** The log read is the first one whose path mentions `ControlSystem_Log.csv`; without one the cost function
raises `ValueError`. -/
theorem controlLog_spec (files : List Str) :
    (∀ f, controlLog files = .ok f ↔ ∃ a b, files = a ++ f :: b ∧ "ControlSystem_Log.csv".toList <:+: f ∧
      ∀ g ∈ a, ¬ "ControlSystem_Log.csv".toList <:+: g) ∧
    (∀ e, controlLog files = .error e ↔ e = .valueError ∧ ∀ g ∈ files, ¬ "ControlSystem_Log.csv".toList <:+: g) := by
  induction files with
  | nil =>
    refine ⟨fun f => ⟨fun h => (nomatch h), ?_⟩, fun e => ?_⟩
    · rintro ⟨a, b, h, _⟩; cases a <;> cases h
    · unfold controlLog; simp [eq_comm]
  | cons g gs ih =>
    unfold controlLog
    generalize "ControlSystem_Log.csv".toList = name at *
    by_cases hg : isIn name g = true
    · have hg' := (isIn_iff name g).1 hg
      rw [if_pos hg]
      refine ⟨fun f => ?_, fun e => ⟨fun h => (nomatch h), fun h => absurd hg' (h.2 g (by simp))⟩⟩
      rw [Except.ok.injEq]
      constructor
      · rintro rfl; exact ⟨[], gs, rfl, hg', by simp⟩
      · rintro ⟨a, b, h1, h2, h3⟩
        cases a with
        | nil => exact (List.cons.inj h1).1
        | cons x a => exact absurd ((List.cons.inj h1).1 ▸ hg') (h3 x (by simp))
    · have hg' : ¬ name <:+: g := fun h => hg ((isIn_iff name g).2 h)
      rw [if_neg hg]
      refine ⟨fun f => ?_, fun e => ?_⟩
      · rw [ih.1]
        constructor
        · rintro ⟨a, b, rfl, h2, h3⟩
          exact ⟨g :: a, b, rfl, h2, by intro x hx; rcases List.mem_cons.1 hx with rfl | hx; exacts [hg', h3 x hx]⟩
        · rintro ⟨a, b, h1, h2, h3⟩
          cases a with
          | nil => exact absurd ((List.cons.inj h1).1 ▸ h2) hg'
          | cons x a => exact ⟨a, b, (List.cons.inj h1).2, h2, fun y hy => h3 y (by simp [hy])⟩
      · rw [ih.2]
        refine and_congr_right fun _ => ?_
        simp [hg']

/-- **C86** Each sum is the integral of the squared error, by the value at the end of every step. -/
theorem errorIntegral_sum [Ring K] (t e : List K) (h : t.length = e.length) :
    errorIntegral t e = ((List.range (t.length - 1)).map fun i => (e[i + 1]?.getD 0) ^ 2 * (t[i + 1]?.getD 0 - t[i]?.getD 0)).sum := by
  induction t generalizing e with
  | nil => cases e <;> simp [errorIntegral]
  | cons t0 ts ih =>
    match e, ts, h with
    | [e0], [], _ => simp [errorIntegral]
    | e0 :: e1 :: es, t1 :: ts, h =>
      rw [errorIntegral, ih (e1 :: es) (by simpa using h)]
      simp only [List.length_cons, Nat.add_sub_cancel]
      rw [List.range_succ_eq_map]
      simp [List.map_map, Function.comp_def]

theorem errorIntegral_nonneg [Field K] [LinearOrder K] [IsStrictOrderedRing K] (t e : List K)
    (h : t.Pairwise (· ≤ ·)) : 0 ≤ errorIntegral t e := by
  induction t generalizing e with
  | nil => simp [errorIntegral]
  | cons t0 ts ih =>
    match ts, e with
    | [], e => simp [errorIntegral]
    | t1 :: ts, [] => simp [errorIntegral]
    | t1 :: ts, [e0] => simp [errorIntegral]
    | t1 :: ts, e0 :: e1 :: es =>
      rw [errorIntegral]
      have h1 : t0 ≤ t1 := (List.pairwise_cons.1 h).1 t1 (by simp)
      have h2 := ih (e1 :: es) (List.pairwise_cons.1 h).2
      have h3 : 0 ≤ e1 ^ 2 * (t1 - t0) := mul_nonneg (sq_nonneg _) (by linarith)
      linarith

theorem errorIntegral_zero [Field K] [LinearOrder K] [IsStrictOrderedRing K] (t e : List K) (hl : t.length = e.length)
    (h : t.Pairwise (· < ·)) : errorIntegral t e = 0 ↔ ∀ x ∈ e.tail, x = 0 := by
  induction t generalizing e with
  | nil => cases e <;> simp_all [errorIntegral]
  | cons t0 ts ih =>
    match e, ts, hl with
    | [e0], [], _ => simp [errorIntegral]
    | e0 :: e1 :: es, t1 :: ts, hl =>
      rw [errorIntegral]
      obtain ⟨h1, h2⟩ := List.pairwise_cons.1 h
      have h1 : t0 < t1 := h1 t1 (by simp)
      have i1 := ih (e1 :: es) (by simpa using hl) h2
      have h3 : 0 ≤ e1 ^ 2 * (t1 - t0) := mul_nonneg (sq_nonneg _) (by linarith)
      have h4 := errorIntegral_nonneg (t1 :: ts) (e1 :: es) (h2.imp le_of_lt)
      have h5 : t1 - t0 ≠ 0 := ne_of_gt (sub_pos.2 h1)
      rw [add_eq_zero_iff_of_nonneg h3 h4, i1]
      simp [h5]

/-- **C86** The cost is 100 times the sum of the three integrals, pitch and yaw counted half. -/
theorem momentCost_spec [Field K] (h2 : (2 : K) ≠ 0) (t p y r : List K) (more : List (List K)) :
    momentCost (t :: p :: y :: r :: more)
      = .ok (50 * errorIntegral t p + 50 * errorIntegral t y + 100 * errorIntegral t r) := by
  unfold momentCost
  rw [Except.ok.injEq]
  field_simp
  ring

/-- **C86** With fewer columns it is an `IndexError`, except that a log of at most one row costs nothing. -/
theorem momentCost_columns [Field K] (cols : List (List K)) (h : cols.length < 4) :
    momentCost cols = if (∃ t, cols.head? = some t ∧ t.length ≤ 1) then .ok 0 else .error .indexError := by
  match cols with
  | [] => simp [momentCost]
  | [t] => simp [momentCost]
  | [t, _] => simp [momentCost]
  | [t, _, _] => simp [momentCost]
  | _ :: _ :: _ :: _ :: l => simp at h; omega

/-- **C86** It is not negative, and zero exactly when all three errors are zero after the first row. -/
theorem momentCost_zero [Field K] [LinearOrder K] [IsStrictOrderedRing K] (t p y r : List K) (more : List (List K))
    (hp : t.length = p.length) (hy : t.length = y.length) (hr : t.length = r.length) (ht : t.Pairwise (· < ·)) :
    ∃ c, momentCost (t :: p :: y :: r :: more) = .ok c ∧ 0 ≤ c ∧
      (c = 0 ↔ (∀ x ∈ p.tail, x = 0) ∧ (∀ x ∈ y.tail, x = 0) ∧ ∀ x ∈ r.tail, x = 0) := by
  refine ⟨_, rfl, ?_, ?_⟩
  · have := errorIntegral_nonneg t p (ht.imp le_of_lt)
    have := errorIntegral_nonneg t y (ht.imp le_of_lt)
    have := errorIntegral_nonneg t r (ht.imp le_of_lt)
    positivity
  · rw [← errorIntegral_zero t p hp ht, ← errorIntegral_zero t y hy ht, ← errorIntegral_zero t r hr ht]
    have h1 := errorIntegral_nonneg t p (ht.imp le_of_lt)
    have h2 := errorIntegral_nonneg t y (ht.imp le_of_lt)
    have h3 := errorIntegral_nonneg t r (ht.imp le_of_lt)
    constructor
    · intro h
      refine ⟨?_, ?_, ?_⟩ <;> linarith
    · rintro ⟨a, b, c⟩; rw [a, b, c]; simp

/-- **C86** Afterwards all logs of the run are gone and nothing else is. -/
theorem filesLeft_iff (files logs : List Str) (f : Str) : f ∈ filesLeft files logs ↔ f ∈ files ∧ f ∉ logs := by
  simp [filesLeft]

/-! ## Examples -/

example : pickMethod (some "scipy.optimize.minimize BFGS".toList) = .ok (.scipy "BFGS".toList) := by decide +kernel

example : dependentKey "Optimization.InnerOptimization.DependentVariables.Rocket.S.Fins.span".toList
    = "Rocket.S.Fins.span".toList := by decide +kernel

/-- the hypotheses of `loadDependent_iff` are met, and the list is as it says -/
example : loadDependent (newStore [("Optimization.DependentVariables.Rocket.b".toList, "!2*a!".toList),
      ("Optimization.DependentVariables.c".toList, "(0 !a! 0)".toList), ("Rocket.b".toList, "0".toList)] [])
    "Optimization".toList = .ok [("Rocket.b".toList, "!2*a!".toList), ("c".toList, "(0 !a! 0)".toList)] := by decide +kernel

example : getSubKeys (newStore [("Optimization.DependentVariables.Rocket.b".toList, "!2*a!".toList)] []).dict
    "DependentVariables".toList = [] := by decide +kernel

example : CleanOverrides "caseA".toList [("caseA.ParameterOverrides.Rocket.m".toList, "3".toList)] := by
  intro s hs
  have : s = "Rocket.m".toList := by
    simp only [Dict.keys, List.map_cons, List.map_nil, List.mem_singleton] at hs
    have hh : "caseA.ParameterOverrides.Rocket.m".toList = "caseA".toList ++ ".ParameterOverrides.".toList ++ "Rocket.m".toList := by
      decide +kernel
    rw [hh] at hs
    exact List.append_cancel_left hs
  subst this
  refine ⟨by decide +kernel, by decide +kernel, ?_⟩
  rw [← Str.isIn_iff]
  decide +kernel

/-- two cases, in alphabetical order, the second with an override -/
example :
    ((loadBatch (fun _ => .ok 3) (fun p => .ok (newStore [("Rocket.m".toList, p)] [("SimControl.loggingLevel".toList, "3".toList)]))
      (newStore [("b.simDefinitionFile".toList, "1".toList), ("b.ParameterOverrides.Rocket.m".toList, "9".toList),
        ("a.simDefinitionFile".toList, "2".toList)] [])).toOption.getD []).map (fun s => Dict.get? s.dict "Rocket.m".toList)
    = [some "2".toList, some "9".toList] := by decide +kernel

example : swarmOptions (fun _ => .ok 7) (fun _ => (.ok 1 : Except PyErr ℚ))
    (newStore [("Optimization.ParticleSwarm.nParticles".toList, "7".toList)] []) "Optimization".toList
    = .ok ⟨7, 7, 50, 5 / 10, 6 / 10, 9 / 10⟩ := by decide +kernel

example : costKind "MAPLEAF.Costs:moment".toList = .ok (.custom "MAPLEAF.Costs".toList "moment".toList) := by decide +kernel

/-- times 0, 1, 3; pitch error 5, 1, 2; the error of the first row does not count -/
example : momentCost ([[0, 1, 3], [5, 1, 2], [0, 0, 0], [0, 0, 1]] : List (List ℚ)) = .ok 650 := by decide +kernel

end Mapleaf.Run.OptSetup
