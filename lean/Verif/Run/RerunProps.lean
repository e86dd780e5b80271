import Verif.Run.RecordProps

/-!
# C89: a batch reports on the selected cases and can be run against its own recorded results (2)

Recording changes nothing that the simulations are made from, and a batch that passed passes again, unchanged, against the
results it recorded.
-/

namespace Mapleaf.Rec
open Str SimDef Run

variable {K : Type} [Field K] [LinearOrder K] [IsStrictOrderedRing K]

/-! ## what recording can change -/

/-- The entries of case `c` that hold expected results -/
def Result (c k : Str) : Prop :=
  (∃ s, k = c ++ ".ExpectedFinalValues.".toList ++ s) ∨
  ∃ n, '.' ∉ n ∧ k = c ++ ".ParameterSweep.".toList ++ n ++ ".expectedValues".toList

/-- An entry that holds an expected result of some case -/
def AnyResult (k : Str) : Prop := ∃ c, '.' ∉ c ∧ Result c k

/-- Two batch definitions with the same entries, in the same order, that differ in expected results at most.  A batch definition
has no default values (Batch.py:169). -/
structure Same (b b' : Store) : Prop where
  keys : Dict.keys b'.dict = Dict.keys b.dict
  left : b.defaults = []
  right : b'.defaults = []
  get : ∀ k, ¬ AnyResult k → Dict.get? b'.dict k = Dict.get? b.dict k

theorem Same.refl {b : Store} (h : b.defaults = []) : Same b b := ⟨rfl, h, h, fun _ _ => rfl⟩

theorem Same.symm {b b' : Store} (h : Same b b') : Same b' b :=
  ⟨h.keys.symm, h.right, h.left, fun k hk => (h.get k hk).symm⟩

theorem Same.trans {a b c : Store} (h : Same a b) (h' : Same b c) : Same a c :=
  ⟨h'.keys.trans h.keys, h.left, h'.right, fun k hk => (h'.get k hk).trans (h.get k hk)⟩

/-- A case name that can be told from the names inside a case -/
structure Named (c : Str) : Prop where
  ne : c ≠ []
  dot : '.' ∉ c
  ws : ∀ x, c.head? = some x → isWs x = false
  efv : c ≠ "ExpectedFinalValues".toList

theorem seg_one {n : Str} (h : '.' ∉ n) : splitC '.' n = [n] := by
  have := splitC_join '.' (l := [n]) (by simp) (by simpa using h)
  simpa [join] using this

theorem seg_cons {n : Str} (h : '.' ∉ n) (s : Str) : splitC '.' (n ++ '.' :: s) = n :: splitC '.' s := by
  rw [splitC_append_dot, seg_one h]; rfl

theorem efv_dots (c s : Str) : c ++ ".ExpectedFinalValues.".toList ++ s =
    c ++ '.' :: ("ExpectedFinalValues".toList ++ '.' :: s) := by
  rw [show ".ExpectedFinalValues.".toList = '.' :: "ExpectedFinalValues".toList ++ ['.'] by decide +kernel]
  simp

theorem sweep_dots (c n : Str) : c ++ ".ParameterSweep.".toList ++ n = c ++ '.' :: ("ParameterSweep".toList ++ '.' :: n) := by
  rw [show ".ParameterSweep.".toList = '.' :: "ParameterSweep".toList ++ ['.'] by decide +kernel]
  simp

theorem values_dots (c n : Str) : c ++ ".ParameterSweep.".toList ++ n ++ ".expectedValues".toList =
    c ++ '.' :: ("ParameterSweep".toList ++ '.' :: (n ++ '.' :: "expectedValues".toList)) := by
  rw [sweep_dots, show ".expectedValues".toList = '.' :: "expectedValues".toList by decide +kernel]
  simp

/-- the names an expected result consists of -/
theorem result_names {c k : Str} (hc : '.' ∉ c) (h : Result c k) :
    (∃ s, splitC '.' k = c :: "ExpectedFinalValues".toList :: splitC '.' s) ∨
    ∃ n, splitC '.' k = [c, "ParameterSweep".toList, n, "expectedValues".toList] := by
  rcases h with ⟨s, rfl⟩ | ⟨n, hn, rfl⟩
  · left
    refine ⟨s, ?_⟩
    rw [efv_dots, seg_cons hc, seg_cons (by decide +kernel)]
  · right
    refine ⟨n, ?_⟩
    rw [values_dots, seg_cons hc, seg_cons (by decide +kernel), seg_cons hn, seg_one (by decide +kernel)]

/-- **C89** Different cases have different expected results. -/
theorem result_case {c c' k : Str} (hc : '.' ∉ c) (hc' : '.' ∉ c') (h : Result c k) (h' : Result c' k) : c = c' := by
  rcases result_names hc h with ⟨s, e⟩ | ⟨n, e⟩ <;> rcases result_names hc' h' with ⟨s', e'⟩ | ⟨n', e'⟩ <;>
    · rw [e] at e'
      exact (List.cons.inj e').1

/-- not an expected result: the second name is neither of the two, or is the sweep with another last name -/
theorem not_result_of {k : Str} (h1 : ∀ c rest, splitC '.' k ≠ c :: "ExpectedFinalValues".toList :: rest)
    (h2 : ∀ c n, splitC '.' k ≠ [c, "ParameterSweep".toList, n, "expectedValues".toList]) : ¬ AnyResult k := by
  rintro ⟨c, hc, h⟩
  rcases result_names hc h with ⟨s, e⟩ | ⟨n, e⟩
  · exact h1 _ _ e
  · exact h2 _ _ e

/-! ## reading -/

theorem getValue_plain {b : Store} (hb : b.defaults = []) (key : Str) :
    (getValue b key).1 = match Dict.get? b.dict (strip key) with | some v => .ok v | none => .error .keyError := by
  have hc : ∀ k n, classLoop b k n = none := by
    intro k n
    induction n with
    | zero => rfl
    | succ n ih =>
      unfold classLoop
      dsimp only
      split
      · rw [hb]; rfl
      · exact ih
  unfold getValue
  dsimp only
  cases h : Dict.get? b.dict (strip key) with
  | some v => rfl
  | none =>
    rw [hb]
    simp only [Dict.get?_nil, classBased, hc]

theorem getString_plain {b : Store} (hb : b.defaults = []) (c key : Str) :
    (getString b c key).1 = match Dict.get? b.dict (strip (relKey c key)) with
      | some v => .ok v
      | none => match Dict.get? b.dict (strip key) with | some v => .ok v | none => .error .keyError := by
  have h1 := getValue_plain hb (relKey c key)
  obtain ⟨d1, d2⟩ := getValue_readonly b (relKey c key)
  unfold getString
  cases hg : getValue b (relKey c key) with
  | mk r s =>
    rw [hg] at h1 d1 d2
    dsimp only at h1 d1 d2 ⊢
    cases hd : Dict.get? b.dict (strip (relKey c key)) with
    | some v => rw [hd] at h1; subst h1; rfl
    | none =>
      rw [hd] at h1; subst h1
      dsimp only
      have h2 := getValue_plain (b := s) (by rw [d2]; exact hb) key
      rw [d1] at h2
      cases hg2 : getValue s key with
      | mk r2 s2 =>
        rw [hg2] at h2
        dsimp only at h2
        cases hd2 : Dict.get? b.dict (strip key) with
        | some v => rw [hd2] at h2; subst h2; rfl
        | none => rw [hd2] at h2; subst h2; rfl

theorem getString_same {b b' : Store} (h : Same b b') (c key : Str) (h1 : ¬ AnyResult (strip (relKey c key)))
    (h2 : ¬ AnyResult (strip key)) : (getString b' c key).1 = (getString b c key).1 := by
  rw [getString_plain h.left, getString_plain h.right, h.get _ h1, h.get _ h2]

theorem strip_named {c : Str} (hc : Named c) {s : Str} {x : Char} (h : s.getLast? = some x) (hx : isWs x = false) :
    strip (c ++ s) = c ++ s := by
  apply CaseM.strip_of_ends
  · intro y hy
    apply hc.ws
    cases hcc : c with
    | nil => exact absurd hcc hc.ne
    | cons a t => rw [hcc] at hy; exact hy
  · intro y hy
    rw [List.getLast?_append, h] at hy
    cases hy
    exact hx

theorem overrides_same (root : Str) : ∀ (keys : List Str) (_ : ∀ k ∈ keys, ¬ AnyResult (strip k)) (b b' sim : Store),
    Same b b' → (keys.foldlM (CaseM.overrideStep root) (b', sim)).map Prod.snd =
      (keys.foldlM (CaseM.overrideStep root) (b, sim)).map Prod.snd := by
  intro keys
  induction keys with
  | nil => intro _ b b' sim _; rfl
  | cons key rest ih =>
    intro hk b b' sim hs
    rw [List.foldlM_cons, List.foldlM_cons]
    have e : (getValue b' key).1 = (getValue b key).1 := by
      rw [getValue_plain hs.left, getValue_plain hs.right, hs.get _ (hk key (by simp))]
    obtain ⟨d1, d2⟩ := getValue_readonly b key
    obtain ⟨d1', d2'⟩ := getValue_readonly b' key
    unfold CaseM.overrideStep
    dsimp only
    cases hg : getValue b key with
    | mk r s =>
      cases hg' : getValue b' key with
      | mk r' s' =>
        rw [hg] at d1 d2; rw [hg'] at d1' d2'
        rw [hg, hg'] at e
        dsimp only at e d1 d2 d1' d2'
        subst e
        cases r' with
        | error e => rfl
        | ok v =>
          refine ih (fun k h => hk k (by simp [h])) s s' _ ⟨?_, d2.trans hs.left, d2'.trans hs.right, ?_⟩
          · rw [d1, d1']; exact hs.keys
          · intro k h; rw [d1, d1']; exact hs.get k h

/-- **C89** Expected results do not influence what a case is run with. -/
theorem prepareCase_same (parseInt : Str → Except PyErr Int) (load : Str → Except PyErr Store) {c : Str} (hc : Named c)
    {b b' : Store} (hs : Same b b') (hk : ∀ k ∈ Dict.keys b.dict, strip k = k) :
    CaseM.prepareCase parseInt load c b' = CaseM.prepareCase parseInt load c b := by
  have e1 : (getString b' c "simDefinitionFile".toList).1 = (getString b c "simDefinitionFile".toList).1 := by
    apply getString_same hs
    · unfold relKey
      rw [strip_named hc (x := 'e') (by decide +kernel) (by decide +kernel)]
      apply not_result_of
      · intro d rest h
        rw [seg_cons hc.dot, seg_one (by decide +kernel)] at h
        have := (List.cons.inj (List.cons.inj h).2).1
        revert this; decide +kernel
      · intro d n h
        rw [seg_cons hc.dot, seg_one (by decide +kernel)] at h
        simp at h
    · rw [show strip "simDefinitionFile".toList = "simDefinitionFile".toList by decide +kernel]
      apply not_result_of
      · intro d rest h
        rw [seg_one (by decide +kernel)] at h
        simp at h
      · intro d n h
        rw [seg_one (by decide +kernel)] at h
        simp at h
  obtain ⟨_, _, d1, d2⟩ := getString_spec b c "simDefinitionFile".toList
  obtain ⟨_, _, d1', d2'⟩ := getString_spec b' c "simDefinitionFile".toList
  unfold CaseM.prepareCase
  cases hg : getString b c "simDefinitionFile".toList with
  | mk r s =>
    cases hg' : getString b' c "simDefinitionFile".toList with
    | mk r' s' =>
      rw [hg] at d1 d2; rw [hg'] at d1' d2'
      rw [hg, hg'] at e1
      dsimp only at e1 d1 d2 d1' d2'
      subst e1
      cases r' with
      | error e => rfl
      | ok path =>
        dsimp only
        cases hl : load path with
        | error e => rfl
        | ok sim =>
          dsimp only
          have hs' : Same s s' := ⟨by rw [d1, d1']; exact hs.keys, d2.trans hs.left, d2'.trans hs.right, fun k h => by
            rw [d1, d1']; exact hs.get k h⟩
          have hroot : c ++ '.' :: "ParameterOverrides".toList ≠ [] := by simp
          have hres : ∀ k ∈ getSubKeys s.dict (c ++ '.' :: "ParameterOverrides".toList), ¬ AnyResult (strip k) := by
            intro k hm
            rw [d1] at hm
            rw [mem_getSubKeys_iff] at hm
            obtain ⟨t, ht⟩ := subkey_form hroot ((isSubKey_iff _ _).2 hm.2)
            rw [hk k hm.1, ht]
            have hseg : splitC '.' (c ++ '.' :: "ParameterOverrides".toList ++ '.' :: t) =
                c :: "ParameterOverrides".toList :: splitC '.' t := by
              rw [splitC_append_dot, seg_cons hc.dot, seg_one (by decide +kernel)]; rfl
            apply not_result_of
            · intro d rest h
              rw [hseg] at h
              have := (List.cons.inj (List.cons.inj h).2).1
              revert this; decide +kernel
            · intro d n h
              rw [hseg] at h
              have := (List.cons.inj (List.cons.inj h).2).1
              revert this; decide +kernel
          have hkeys : getSubKeys s'.dict (c ++ '.' :: "ParameterOverrides".toList) =
              getSubKeys s.dict (c ++ '.' :: "ParameterOverrides".toList) := by
            unfold getSubKeys; rw [hs'.keys]
          have hov : (CaseM.implementOverrides parseInt c s' sim).map Prod.snd =
              (CaseM.implementOverrides parseInt c s sim).map Prod.snd := by
            unfold CaseM.implementOverrides
            dsimp only
            split
            · rfl
            · split
              · rfl
              · rw [hkeys]
                exact overrides_same _ _ hres s s' _ hs'
          cases ho : CaseM.implementOverrides parseInt c s sim with
          | error e =>
            cases ho' : CaseM.implementOverrides parseInt c s' sim with
            | error e' =>
              rw [ho, ho'] at hov
              simp only [Except.map, Except.error.injEq] at hov
              rw [hov]
            | ok q => rw [ho, ho'] at hov; simp [Except.map] at hov
          | ok q =>
            cases ho' : CaseM.implementOverrides parseInt c s' sim with
            | error e' => rw [ho, ho'] at hov; simp [Except.map] at hov
            | ok q' =>
              rw [ho, ho'] at hov
              simp only [Except.map, Except.ok.injEq] at hov
              have hro : ∀ (x : Store) (w : Store × Store), CaseM.implementOverrides parseInt c x sim = .ok w →
                  w.1.dict = x.dict := by
                intro x w hw
                unfold CaseM.implementOverrides at hw
                dsimp only at hw
                split at hw
                · cases hw
                · split at hw
                  · cases hw
                  · exact (CaseM.overrides_readonly _ _ _ _ hw).1
              obtain ⟨q1, q2⟩ := q
              obtain ⟨q1', q2'⟩ := q'
              dsimp only at hov ⊢
              subst hov
              have e2 : getImmediateSubDicts q1'.dict c = getImmediateSubDicts q1.dict c := by
                rw [hro _ _ ho, hro _ _ ho']
                unfold getImmediateSubDicts getSubKeys
                rw [hs'.keys]
              rw [e2]

/-- No entry of the definition lies in a dictionary `c` inside case `c`, so that complete names of entries of the case are never
taken for names inside the case; all keys are written without surrounding white space. -/
structure Apart (c : Str) (keys : List Str) : Prop where
  clean : ∀ k ∈ keys, strip k = k
  apart : ∀ s, c ++ '.' :: (c ++ '.' :: s) ∉ keys

theorem sweep_dict_form {c : Str} (hc : Named c) {b : Store} (ha : Apart c (Dict.keys b.dict)) (d : Str)
    (hd : d ∈ CaseM.resultDicts b c ∨ d ∈ CaseM.parameterDicts b c) :
    ∃ n, '.' ∉ n ∧ d = c ++ ".ParameterSweep.".toList ++ n := by
  have hno : getImmediateSubDicts b.dict (relKey c (c ++ ".ParameterSweep".toList)) = [] := by
    rw [List.eq_nil_iff_forall_not_mem]
    intro e he
    rw [CaseM.dict_entry_iff (by simp [relKey, hc.ne])] at he
    obtain ⟨n, _, he, t, ht⟩ := he
    apply ha.apart ("ParameterSweep".toList ++ '.' :: n ++ '.' :: t)
    rw [he, relKey, show ".ParameterSweep".toList = '.' :: "ParameterSweep".toList by decide +kernel] at ht
    simpa using ht
  obtain ⟨h1, h2⟩ := CaseM.sweep_dicts_iff hc.ne b hno d
  rcases hd with hd | hd
  · obtain ⟨n, hn, he, _⟩ := h1.1 hd; exact ⟨n, hn, he⟩
  · obtain ⟨n, hn, he, _⟩ := h2.1 hd; exact ⟨n, hn, he⟩

/-- the value of an entry of a sweep dictionary -/
theorem sweep_read {c n : Str} (hc : Named c) {b : Store} (hb : b.defaults = []) (ha : Apart c (Dict.keys b.dict))
    {lit : Str} {x : Char} (hl : lit.getLast? = some x) (hx : isWs x = false) :
    (getString b c (c ++ ".ParameterSweep.".toList ++ n ++ '.' :: lit)).1 =
      match Dict.get? b.dict (c ++ ".ParameterSweep.".toList ++ n ++ '.' :: lit) with
      | some v => .ok v | none => .error .keyError := by
  have hlast : ('.' :: lit).getLast? = some x := by
    cases lit with
    | nil => cases hl
    | cons a t => rw [List.getLast?_cons_cons]; exact hl
  have e1 : strip (c ++ ".ParameterSweep.".toList ++ n ++ '.' :: lit) = c ++ ".ParameterSweep.".toList ++ n ++ '.' :: lit := by
    rw [List.append_assoc, List.append_assoc]
    exact strip_named hc (x := x) (by rw [List.getLast?_append, List.getLast?_append, hlast]; rfl) hx
  have e2 : Dict.get? b.dict (strip (relKey c (c ++ ".ParameterSweep.".toList ++ n ++ '.' :: lit))) = none := by
    unfold relKey
    rw [strip_named hc (x := x) (by
      rw [show '.' :: (c ++ ".ParameterSweep.".toList ++ n ++ '.' :: lit) =
        ('.' :: (c ++ ".ParameterSweep.".toList ++ n)) ++ '.' :: lit by simp, List.getLast?_append, hlast]; rfl) hx,
      Dict.get?_eq_none_iff]
    intro h
    apply ha.apart ("ParameterSweep".toList ++ '.' :: n ++ '.' :: lit)
    rw [sweep_dots] at h
    simpa using h
  rw [getString_plain hb, e2, e1]

theorem sweep_read_same {c n : Str} (hc : Named c) (hn : '.' ∉ n) {b b' : Store} (hs : Same b b')
    (ha : Apart c (Dict.keys b.dict)) {lit : Str} {x : Char} (hl : lit.getLast? = some x) (hx : isWs x = false)
    (hd : '.' ∉ lit) (he : lit ≠ "expectedValues".toList) :
    (getString b' c (c ++ ".ParameterSweep.".toList ++ n ++ '.' :: lit)).1 =
      (getString b c (c ++ ".ParameterSweep.".toList ++ n ++ '.' :: lit)).1 := by
  rw [sweep_read hc hs.left ha hl hx, sweep_read hc hs.right (by rw [hs.keys]; exact ha) hl hx, hs.get]
  have hseg : splitC '.' (c ++ ".ParameterSweep.".toList ++ n ++ '.' :: lit) = [c, "ParameterSweep".toList, n, lit] := by
    rw [splitC_append_dot, sweep_dots, seg_cons hc.dot, seg_cons (by decide +kernel), seg_one hn, seg_one hd]; rfl
  apply not_result_of
  · intro d rest h
    rw [hseg] at h
    have := (List.cons.inj (List.cons.inj h).2).1
    revert this; decide +kernel
  · intro d m h
    rw [hseg] at h
    have h1 := (List.cons.inj (List.cons.inj (List.cons.inj h).2).2).2
    exact he (List.cons.inj h1).1

theorem dicts_same {b b' : Store} (hs : Same b b') (p : Str) : getImmediateSubDicts b'.dict p = getImmediateSubDicts b.dict p := by
  unfold getImmediateSubDicts getSubKeys; rw [hs.keys]

theorem sweepDicts_same {b b' : Store} (hs : Same b b') (c : Str) : CaseM.sweepDicts b' c = CaseM.sweepDicts b c := by
  unfold CaseM.sweepDicts readerList
  simp only [dicts_same hs]

/-- **C89** Expected results do not influence which points a sweep goes through. -/
theorem readSweeps_same (T : CaseM.Text K) {c : Str} (hc : Named c) {b b' : Store} (hs : Same b b')
    (ha : Apart c (Dict.keys b.dict)) : CaseM.readSweeps T b' c = CaseM.readSweeps T b c := by
  have hp : CaseM.parameterDicts b' c = CaseM.parameterDicts b c := by
    unfold CaseM.parameterDicts; rw [sweepDicts_same hs]
  unfold CaseM.readSweeps
  rw [hp]
  have key : ∀ ds : List Str, (∀ d ∈ ds, ∃ n, '.' ∉ n ∧ d = c ++ ".ParameterSweep.".toList ++ n) →
      ds.mapM (fun d => do
        let p ← (getString b' c (d ++ ".sweptParameter".toList)).1
        let v ← (getString b' c (d ++ ".parameterValues".toList)).1
        (Except.ok (p, v) : Except PyErr (Str × Str))) = ds.mapM (fun d => do
        let p ← (getString b c (d ++ ".sweptParameter".toList)).1
        let v ← (getString b c (d ++ ".parameterValues".toList)).1
        Except.ok (p, v)) := by
    intro ds
    induction ds with
    | nil => intro _; rfl
    | cons d ds ih =>
      intro h
      obtain ⟨n, hn, rfl⟩ := h d (by simp)
      rw [List.mapM_cons, List.mapM_cons, ih (fun d hd => h d (by simp [hd])),
        show ".sweptParameter".toList = '.' :: "sweptParameter".toList by decide +kernel,
        show ".parameterValues".toList = '.' :: "parameterValues".toList by decide +kernel,
        sweep_read_same hc hn hs ha (x := 'r') (by decide +kernel) (by decide +kernel) (by decide +kernel) (by decide +kernel),
        sweep_read_same hc hn hs ha (x := 's') (by decide +kernel) (by decide +kernel) (by decide +kernel) (by decide +kernel)]
  dsimp only
  rw [key _ (fun d hd => sweep_dict_form hc ha d (Or.inr hd))]

theorem smoothLine_same {c : Str} (hc : Named c) {b b' : Store} (hs : Same b b') (values : List (List Str)) :
    CaseM.smoothLine b' c values = CaseM.smoothLine b c values := by
  have e : (getString b' c "ParameterSweep.smoothLine".toList).1 = (getString b c "ParameterSweep.smoothLine".toList).1 := by
    apply getString_same hs
    · unfold relKey
      rw [strip_named hc (x := 'e') (by decide +kernel) (by decide +kernel)]
      have hseg : splitC '.' (c ++ '.' :: "ParameterSweep.smoothLine".toList) =
          [c, "ParameterSweep".toList, "smoothLine".toList] := by
        rw [seg_cons hc.dot]
        rw [show splitC '.' "ParameterSweep.smoothLine".toList = ["ParameterSweep".toList, "smoothLine".toList] by decide +kernel]
      apply not_result_of
      · intro d rest h
        rw [hseg] at h
        have := (List.cons.inj (List.cons.inj h).2).1
        revert this; decide +kernel
      · intro d n h
        rw [hseg] at h
        simp at h
    · rw [show strip "ParameterSweep.smoothLine".toList = "ParameterSweep.smoothLine".toList by decide +kernel]
      have hseg : splitC '.' "ParameterSweep.smoothLine".toList = ["ParameterSweep".toList, "smoothLine".toList] := by decide +kernel
      apply not_result_of
      · intro d rest h
        rw [hseg] at h
        have := (List.cons.inj (List.cons.inj h).2).1
        revert this; decide +kernel
      · intro d n h
        rw [hseg] at h
        simp at h
  have hp : ∀ (s : Store) (dflt : Str), (tryGet .ok s c "ParameterSweep.smoothLine".toList dflt).1 =
      match (getString s c "ParameterSweep.smoothLine".toList).1 with
      | .ok v => .ok v | .error .keyError => .ok dflt | .error e => .error e := by
    intro s dflt
    unfold tryGet getParsed
    cases hg : getString s c "ParameterSweep.smoothLine".toList with
    | mk r s1 =>
      cases r with
      | ok v => rfl
      | error e => cases e <;> rfl
  unfold CaseM.smoothLine
  rw [hp, hp, e]

end Mapleaf.Rec
