import Verif.Rocket.SetupModel
import Mathlib.Data.List.Dedup
import Mathlib.Algebra.Order.Field.Rat

/-!
# C71: a rocket is made of the stages its definition lists, and a dropped stage is one of them
-/

namespace Mapleaf.Rocket
open Mapleaf.Motion

/-- **C71.** Every immediate sub-dictionary of `Rocket` is a stage except the three with a fixed meaning; their order is kept. -/
theorem stageDicts_spec (subs : List Str) (hn : subs.Nodup) :
    (∀ p, p ∈ stageDicts subs ↔ p ∈ subs ∧ p ≠ "Rocket.ControlSystem".toList ∧ p ≠ "Rocket.HIL".toList ∧ p ≠ "Rocket.Aero".toList) ∧
    (stageDicts subs).Sublist subs := by
  have step : ∀ (l : List Str) (n : Str), (if n ∈ l then l.erase n else l) = l.erase n := by
    intro l n
    split
    · rfl
    · rename_i h; exact (List.erase_of_not_mem h).symm
  unfold stageDicts
  simp only [List.foldl_cons, List.foldl_nil, step]
  constructor
  · intro p
    rw [((hn.erase _).erase _).mem_erase_iff, (hn.erase _).mem_erase_iff, hn.mem_erase_iff]
    tauto
  · exact (List.erase_sublist.trans List.erase_sublist).trans List.erase_sublist

example : stageDicts ["Rocket.Aero".toList, "Rocket.S1".toList, "Rocket.HIL".toList] = ["Rocket.S1".toList] := by decide +kernel

section
variable {K : Type} [Field K] [LinearOrder K] [IsStrictOrderedRing K]

/-- A component of the definition whose class is a body tube of the given diameter. -/
def TubeOf (r : Reader K) (comp : Str) (d : K) : Prop :=
  r.text (comp ++ ".class".toList) = .ok "Bodytube".toList ∧ r.getFloat (comp ++ ".outerDiameter".toList) = .ok d

theorem tubes_fold (r : Reader K) : ∀ (cs : List Str) (m out : K), cs.foldlM (tubeStep r) m = .ok out →
    m ≤ out ∧ (∀ c ∈ cs, ∀ d, TubeOf r c d → d ≤ out) ∧ (out = m ∨ ∃ c ∈ cs, TubeOf r c out) := by
  intro cs
  induction cs with
  | nil =>
    intro m out h
    obtain rfl : m = out := Except.ok.inj h
    exact ⟨le_rfl, by simp, Or.inl rfl⟩
  | cons c cs ih =>
    intro m out h
    rw [List.foldlM_cons] at h
    cases hs : tubeStep r m c with
    | error e => rw [hs] at h; cases h
    | ok m' =>
      rw [hs] at h
      obtain ⟨h1, h2, h3⟩ := ih m' out h
      unfold tubeStep at hs
      cases ht : r.text (c ++ ".class".toList) with
      | error e => rw [ht] at hs; cases hs
      | ok cl =>
        rw [ht] at hs
        simp only at hs
        by_cases hc : cl = "Bodytube".toList
        · rw [if_pos hc] at hs
          cases hd : r.getFloat (c ++ ".outerDiameter".toList) with
          | error e => rw [hd] at hs; cases hs
          | ok d =>
            rw [hd] at hs
            obtain rfl : max m d = m' := Except.ok.inj hs
            have tube : TubeOf r c d := ⟨by rw [ht, hc], hd⟩
            refine ⟨(le_max_left _ _).trans h1, ?_, ?_⟩
            · intro c' hc' d' htube
              rcases List.mem_cons.1 hc' with rfl | hc'
              · have := htube.2
                rw [hd] at this
                rw [← Except.ok.inj this]
                exact (le_max_right _ _).trans h1
              · exact h2 c' hc' d' htube
            · rcases h3 with h3 | ⟨c', hc', h3⟩
              · rcases max_choice m d with hm | hm
                · exact Or.inl (h3.trans hm)
                · exact Or.inr ⟨c, by simp, by rw [h3, hm]; exact tube⟩
              · exact Or.inr ⟨c', List.mem_cons_of_mem _ hc', h3⟩
        · rw [if_neg hc] at hs
          obtain rfl : m = m' := Except.ok.inj hs
          refine ⟨h1, ?_, ?_⟩
          · intro c' hc' d' htube
            rcases List.mem_cons.1 hc' with rfl | hc'
            · have := htube.1
              rw [ht] at this
              exact absurd (Except.ok.inj this) hc
            · exact h2 c' hc' d' htube
          · rcases h3 with h3 | ⟨c', hc', h3⟩
            · exact Or.inl h3
            · exact Or.inr ⟨c', List.mem_cons_of_mem _ hc', h3⟩

/-- **C71.** The reference diameter is the largest body tube diameter of all stages of the definition, and zero without body tubes. -/
theorem maxTubeDiameter_spec (r : Reader K) (subs : List Str) (comps : Str → List Str) (m : K)
    (h : maxTubeDiameter r subs comps = .ok m) :
    0 ≤ m ∧ (∀ s ∈ stageDicts subs, ∀ c ∈ comps s, ∀ d, TubeOf r c d → d ≤ m) ∧
    (m = 0 ∨ ∃ s ∈ stageDicts subs, ∃ c ∈ comps s, TubeOf r c m) := by
  obtain ⟨h1, h2, h3⟩ := tubes_fold r _ 0 m h
  refine ⟨h1, fun s hs c hc => h2 c (List.mem_flatMap.2 ⟨s, hs, hc⟩), ?_⟩
  rcases h3 with h3 | ⟨c, hc, h3⟩
  · exact Or.inl h3
  · obtain ⟨s, hs, hc⟩ := List.mem_flatMap.1 hc
    exact Or.inr ⟨s, hs, c, hc, h3⟩

/-- The stage of this path has this number. -/
def Numbered (r : Reader K) (d : Str) (n : K) : Prop := r.getFloat (d ++ ".stageNumber".toList) = .ok n

variable {σ : Type} (build : Str → Except PyErr σ)

/-- **C71.** On the pad every stage of the definition is built, once and in the order of the definition; a stage without a number or one
that cannot be built is an error. -/
theorem createStages_pad (r : Reader K) (subs : List Str) (l : List σ) : createStages r build subs none = .ok l ↔
    List.Forall₂ (fun d s => (∃ n, Numbered r d n) ∧ build d = .ok s) (stageDicts subs) l := by
  unfold createStages
  simp only
  generalize stageDicts subs = ds
  induction ds generalizing l with
  | nil =>
    simp only [buildStages, List.forall₂_nil_left_iff]
    exact ⟨fun e => (Except.ok.inj e).symm, fun e => by rw [e]⟩
  | cons d ds ih =>
    unfold buildStages
    constructor
    · intro h
      cases hn : r.getFloat (d ++ ".stageNumber".toList) with
      | error e => rw [hn] at h; cases h
      | ok n =>
        rw [hn] at h
        simp only [true_or, if_true] at h
        cases hb : build d with
        | error e => rw [hb] at h; cases h
        | ok s =>
          rw [hb] at h
          cases hr : buildStages r build none ds with
          | error e => rw [hr] at h; cases h
          | ok l' =>
            rw [hr] at h
            obtain rfl : s :: l' = l := Except.ok.inj h
            exact .cons ⟨⟨n, hn⟩, hb⟩ ((ih l').1 hr)
    · intro h
      cases h with
      | @cons _ s _ l' h1 h2 =>
        obtain ⟨⟨n, hn⟩, hb⟩ := h1
        unfold Numbered at hn
        rw [hn]
        simp only [true_or, if_true]
        rw [hb, (ih l').2 h2]

theorem buildStages_none (r : Reader K) (n : K) (ds : List Str) (ns : List K) (h : List.Forall₂ (Numbered r) ds ns) (hn : n ∉ ns) :
    buildStages r build (some n) ds = .ok [] := by
  induction h with
  | nil => rfl
  | @cons d m ds ns h1 _ ih =>
    unfold Numbered at h1
    unfold buildStages
    rw [h1]
    simp only [List.mem_cons, not_or] at hn
    simp only [reduceCtorEq, false_or, Option.some.injEq, hn.1, if_false]
    exact ih hn.2

theorem buildStages_one (r : Reader K) (n : K) (ds : List Str) (ns : List K) (h : List.Forall₂ (Numbered r) ds ns) (hd : ns.Nodup)
    (d : Str) (hm : d ∈ ds) (hn : Numbered r d n) :
    buildStages r build (some n) ds = (build d).map (fun s => [s]) := by
  induction h with
  | nil => cases hm
  | @cons d' m ds ns h1 h2 ih =>
    unfold Numbered at h1
    unfold buildStages
    rw [h1]
    simp only [reduceCtorEq, false_or, Option.some.injEq]
    rw [List.nodup_cons] at hd
    by_cases e : n = m
    · subst e
      rw [if_pos rfl, buildStages_none build r n ds ns h2 hd.1]
      rcases List.mem_cons.1 hm with rfl | hm
      · cases build d <;> rfl
      · exfalso
        apply hd.1
        obtain ⟨i, hi, rfl⟩ := List.mem_iff_getElem.1 hm
        have := h2.get hi (by rw [← h2.length_eq]; exact hi)
        unfold Numbered at this hn
        simp only [List.get_eq_getElem] at this
        rw [hn] at this
        rw [Except.ok.inj this]
        exact List.getElem_mem _
    · rw [if_neg e]
      rcases List.mem_cons.1 hm with rfl | hm
      · unfold Numbered at hn
        rw [h1] at hn
        exact absurd (Except.ok.inj hn).symm e
      · exact ih hd.2 hm

theorem stageNumbers_iff (r : Reader K) (ds : List Str) (ns : List K) : stageNumbers r ds = .ok ns ↔ List.Forall₂ (Numbered r) ds ns := by
  unfold stageNumbers
  induction ds generalizing ns with
  | nil =>
    simp only [List.mapM_nil, List.forall₂_nil_left_iff]
    exact ⟨fun e => (Except.ok.inj e).symm, fun e => by rw [e]; rfl⟩
  | cons d ds ih =>
    rw [List.mapM_cons]
    constructor
    · intro h
      cases h1 : r.getFloat (d ++ ".stageNumber".toList) with
      | error e => rw [h1] at h; cases h
      | ok n =>
        cases h2 : ds.mapM (fun d => r.getFloat (d ++ ".stageNumber".toList)) with
        | error e => rw [h1, h2] at h; cases h
        | ok l =>
          rw [h1, h2] at h
          obtain rfl : n :: l = ns := Except.ok.inj h
          exact .cons h1 ((ih l).1 h2)
    · intro h
      cases h with
      | @cons _ n _ l h1 h2 =>
        unfold Numbered at h1
        rw [h1, (ih l).2 h2]
        rfl

/-- In a list without repetition sorted upwards, the element at place `i` has exactly `i` smaller ones. -/
theorem sorted_rank (ns : List K) (hd : ns.Nodup) (n : K) (hn : n ∈ ns) (i : Nat) :
    (ns.insertionSort (· ≤ ·))[i]? = some n ↔ (ns.filter (· < n)).length = i := by
  have hs : (ns.insertionSort (· ≤ ·)).Pairwise (· ≤ ·) := List.pairwise_insertionSort _ _
  have hp := List.perm_insertionSort (· ≤ ·) ns
  have hd' : (ns.insertionSort (· ≤ ·)).Nodup := hp.nodup_iff.2 hd
  have hn' : n ∈ ns.insertionSort (· ≤ ·) := hp.mem_iff.2 hn
  have hf : (ns.filter (· < n)).length = ((ns.insertionSort (· ≤ ·)).filter (· < n)).length := ((hp.filter _).length_eq).symm
  rw [hf]
  generalize ns.insertionSort (· ≤ ·) = l at *
  have rank : ∀ j (hj : j < l.length), (l.filter (· < l[j])).length = j := by
    intro j hj
    have e : l = l.take j ++ l[j] :: l.drop (j + 1) := by
      rw [← List.drop_eq_getElem_cons hj, List.take_append_drop]
    have hlt : l.Pairwise (· < ·) := by
      have := hs.and hd'
      exact this.imp (fun h => lt_of_le_of_ne h.1 h.2)
    have h1 := hlt
    rw [e, List.pairwise_append] at h1
    obtain ⟨_, h2, h3⟩ := h1
    rw [List.pairwise_cons] at h2
    have f1 : (l.take j).filter (· < l[j]) = l.take j := by
      rw [List.filter_eq_self]
      intro a ha
      simpa using h3 a ha l[j] List.mem_cons_self
    have f2 : (l[j] :: l.drop (j + 1)).filter (· < l[j]) = [] := by
      rw [List.filter_eq_nil_iff]
      intro a ha
      rcases List.mem_cons.1 ha with rfl | ha
      · simp
      · simpa using (h2.1 a ha).le
    have hfin : l.filter (· < l[j]) = (l.take j ++ l[j] :: l.drop (j + 1)).filter (· < l[j]) := congrArg (List.filter _) e
    rw [hfin, List.filter_append, f1, f2, List.append_nil, List.length_take, min_eq_left hj.le]
  constructor
  · intro h
    obtain ⟨hj, rfl⟩ := List.getElem?_eq_some_iff.1 h
    exact rank i hj
  · intro h
    obtain ⟨j, hj, rfl⟩ := List.mem_iff_getElem.1 hn'
    rw [rank j hj] at h
    subst h
    exact List.getElem?_eq_some_iff.2 ⟨hj, rfl⟩

/-- **C71.** Which stage flies on its own at the `i`-th separation: the numbers of the stages must be distinct, and the one with exactly `i`
smaller numbers is built, alone. -/
theorem createStages_dropped (r : Reader K) (subs : List Str) (ns : List K) (h : List.Forall₂ (Numbered r) (stageDicts subs) ns) (i : Nat) :
    (ns.Nodup → i < ns.length → ∃ d n, d ∈ stageDicts subs ∧ Numbered r d n ∧ (ns.filter (· < n)).length = i ∧
      createStages r build subs (some i) = (build d).map (fun s => [s])) ∧
    (ns.Nodup → ns.length ≤ i → createStages r build subs (some i) = .error .indexError) ∧
    (¬ ns.Nodup → createStages r build subs (some i) = .error .valueError) := by
  have e := (stageNumbers_iff r (stageDicts subs) ns).2 h
  have hnd : ns.length ≠ ns.dedup.length ↔ ¬ ns.Nodup := by
    rw [not_iff_not]
    constructor
    · intro hl
      have := (List.dedup_sublist ns).eq_of_length hl.symm
      rw [← this]
      exact List.nodup_dedup ns
    · intro hd
      rw [List.Nodup.dedup hd]
  refine ⟨fun hd hi => ?_, fun hd hi => ?_, fun hd => ?_⟩
  · have hlen : (ns.insertionSort (· ≤ ·)).length = ns.length := List.length_insertionSort _ _
    have hn : (ns.insertionSort (· ≤ ·))[i]? = some ((ns.insertionSort (· ≤ ·))[i]'(by rw [hlen]; exact hi)) :=
      List.getElem?_eq_getElem _
    generalize (ns.insertionSort (· ≤ ·))[i]'(by rw [hlen]; exact hi) = n at hn
    have hmem : n ∈ ns := (List.perm_insertionSort (· ≤ ·) ns).mem_iff.1 (List.mem_of_getElem? hn)
    obtain ⟨k, hk, rfl⟩ := List.mem_iff_getElem.1 hmem
    have hk' : k < (stageDicts subs).length := by rw [h.length_eq]; exact hk
    refine ⟨(stageDicts subs)[k], ns[k], List.getElem_mem _, h.get hk' hk, (sorted_rank ns hd _ hmem i).1 hn, ?_⟩
    unfold createStages
    simp only [e]
    rw [if_neg (by rw [hnd, not_not]; exact hd)]
    simp only [hn]
    exact buildStages_one build r ns[k] _ ns h hd _ (List.getElem_mem _) (h.get hk' hk)
  · unfold createStages
    simp only [e]
    rw [if_neg (by rw [hnd, not_not]; exact hd)]
    have : (ns.insertionSort (· ≤ ·))[i]? = none := by
      rw [List.getElem?_eq_none_iff, List.length_insertionSort]
      exact hi
    simp only [this]
  · unfold createStages
    simp only [e]
    rw [if_pos (hnd.2 hd)]

/-- **C71.** A stage without a number stops a separation as well. -/
theorem createStages_unnumbered (r : Reader K) (subs : List Str) (i : Nat) (h : ¬ ∃ ns, List.Forall₂ (Numbered r) (stageDicts subs) ns) :
    ∃ e, createStages r build subs (some i) = .error e := by
  unfold createStages
  cases e : stageNumbers r (stageDicts subs) with
  | error x => exact ⟨x, rfl⟩
  | ok ns => exact absurd ⟨ns, (stageNumbers_iff r _ ns).1 e⟩ h

/-- **C71 (negation of "a definition that cannot be flown is rejected on the pad").** Two stages with the same number are built without
complaint; the first separation raises ValueError, whichever stage it drops. -/
theorem same_number_violated (r : Reader K) (subs : List Str) (l : List σ) (ns : List K)
    (h : List.Forall₂ (Numbered r) (stageDicts subs) ns) (hd : ¬ ns.Nodup) (hb : List.Forall₂ (fun d s => build d = .ok s) (stageDicts subs) l) :
    createStages r build subs none = .ok l ∧ ∀ i, createStages r build subs (some i) = .error .valueError := by
  refine ⟨(createStages_pad build r subs l).2 ?_, fun i => (createStages_dropped build r subs ns h i).2.2 hd⟩
  have hl : ∀ (ds : List Str) (ns : List K) (l : List σ), List.Forall₂ (Numbered r) ds ns → List.Forall₂ (fun d s => build d = .ok s) ds l →
      List.Forall₂ (fun d s => (∃ n, Numbered r d n) ∧ build d = .ok s) ds l := by
    intro ds ns l h
    induction h generalizing l with
    | nil => intro h2; cases h2; exact .nil
    | cons h1 _ ih =>
      intro h2
      cases h2 with
      | cons h3 h4 => exact .cons ⟨⟨_, h1⟩, h3⟩ (ih _ h4)
  exact hl _ ns l h hb

/-- **C71.** One staging event per stage that has a trigger, from the top down; a dropped stage has none. -/
theorem stagingTriggers_spec (stages : List (Trigger K)) :
    stagingTriggers true stages = [] ∧
    (∀ t, t ∈ stagingTriggers false stages ↔ t ∈ stages ∧ t.kind ≠ ['N', 'o', 'n', 'e']) ∧
    (stagingTriggers false stages).Sublist stages ∧
    ((∀ t ∈ stages, t.kind ≠ ['N', 'o', 'n', 'e']) → stagingTriggers false stages = stages) := by
  have e : "None".toList = ['N', 'o', 'n', 'e'] := by decide +kernel
  unfold stagingTriggers
  rw [e]
  refine ⟨by simp, fun t => by simp, by simp, fun h => ?_⟩
  simp only [Bool.false_eq_true, if_false]
  rw [List.filter_eq_self]
  intro t ht
  simpa using h t ht

end

/-- **C71.** Stages are reachable under their names, unless the rocket has an attribute of that name already. -/
theorem keepStage_spec (attrs : Dict Str (Option Nat)) (name : Str) (i : Nat) :
    (Dict.get? attrs name = none → Dict.get? (keepStage attrs name i) name = some (some i)) ∧
    (∀ v, Dict.get? attrs name = some v → keepStage attrs name i = attrs) ∧
    (∀ other, other ≠ name → Dict.get? (keepStage attrs name i) other = Dict.get? attrs other) := by
  unfold keepStage Dict.has
  refine ⟨fun h => ?_, fun v h => ?_, fun o ho => ?_⟩
  · rw [h]; simp
  · rw [h]; simp
  · split
    · rfl
    · exact Dict.get?_set_ne _ _ (Ne.symm ho)

/-- **C71 (negation of "separation forgets the dropped stage only").** A stage named like an attribute of the rocket (`environment`, `stages`,
…) is not kept under its name, and when it is dropped the rocket loses its own attribute. -/
theorem forget_own_violated (attrs : Dict Str (Option Nat)) (hw : Dict.WF attrs) (name : Str) (i : Nat) (h : Dict.get? attrs name = some none) :
    ∃ attrs', forgetStage (keepStage attrs name i) name = .ok attrs' ∧ Dict.get? attrs' name = none := by
  rw [(keepStage_spec attrs name i).2.1 none h]
  unfold forgetStage Dict.has
  rw [h]
  refine ⟨_, rfl, ?_⟩
  rw [Dict.get?_erase hw]
  simp

/-- **C71.** Otherwise keeping and forgetting a stage leaves the attributes as they were. -/
theorem forget_kept (attrs : Dict Str (Option Nat)) (hw : Dict.WF attrs) (name : Str) (i : Nat) (h : Dict.get? attrs name = none) :
    ∃ attrs', forgetStage (keepStage attrs name i) name = .ok attrs' ∧ ∀ o, Dict.get? attrs' o = Dict.get? attrs o := by
  have hk : keepStage attrs name i = Dict.set attrs name (some i) := by
    unfold keepStage Dict.has
    rw [h]; simp
  rw [hk]
  unfold forgetStage Dict.has
  rw [Dict.get?_set_self]
  refine ⟨_, rfl, fun o => ?_⟩
  rw [Dict.get?_erase (Dict.WF_set hw _ _)]
  by_cases ho : name = o
  · subst ho; simp [h]
  · simp only [ho, if_false]
    rw [Dict.get?_set_ne _ _ ho]

/-- A reader over ℚ for the examples: two stages, numbers given. -/
def numberReader (a b : Option ℚ) : Reader ℚ where
  text k := if k = "Rocket.A.stageNumber".toList then .ok "a".toList else if k = "Rocket.B.stageNumber".toList then .ok "b".toList else .error .keyError
  float s := if s = "a".toList then a else if s = "b".toList then b else none

/-- The hypotheses of `createStages_dropped` hold for two stages numbered 2 and 1; the first stage dropped is the second one listed. -/
example : List.Forall₂ (Numbered (numberReader (some 2) (some 1))) (stageDicts ["Rocket.A".toList, "Rocket.B".toList]) [2, 1] ∧
    createStages (numberReader (some 2) (some 1)) (fun d => Except.ok d) ["Rocket.A".toList, "Rocket.B".toList] (some 0) =
      .ok ["Rocket.B".toList] := by
  constructor
  · rw [← stageNumbers_iff]; decide +kernel
  · decide +kernel

/-- And those of `same_number_violated` for two stages numbered 1. -/
example : List.Forall₂ (Numbered (numberReader (some 1) (some 1))) (stageDicts ["Rocket.A".toList, "Rocket.B".toList]) [1, 1] ∧
    ¬ [(1 : ℚ), 1].Nodup := by
  constructor
  · rw [← stageNumbers_iff]; decide +kernel
  · decide

end Mapleaf.Rocket
