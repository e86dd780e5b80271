import Verif.Run.CaseModel
import Verif.Run.OptProps
import Verif.SimDef.DerivedProps
import Verif.Motion.InterpProps

/-!
# Batch cases (C81)
-/

namespace Mapleaf.CaseM
open Str SimDef Motion

/-! ## overrides -/

theorem overrides_fold (root : Str) (D : Dict Str Str) : ∀ (keys : List Str)
    (_ : ∀ k ∈ keys, ∃ s v, k = root ++ '.' :: s ∧ strip k = k ∧ strip s = s ∧ ¬ (root ++ ['.']) <:+: s ∧
      Dict.get? D k = some v) (b sim : Store) (_ : b.dict = D),
    ∃ b' sim', keys.foldlM (overrideStep root) (b, sim) = .ok (b', sim') ∧ b'.dict = D ∧ sim'.defaults = sim.defaults ∧
      ∀ k, Dict.get? sim'.dict k =
        if root ++ '.' :: k ∈ keys then Dict.get? D (root ++ '.' :: k) else Dict.get? sim.dict k := by
  intro keys
  induction keys with
  | nil => intro _ b sim hb; exact ⟨b, sim, rfl, hb, rfl, fun k => by simp⟩
  | cons key rest ih =>
    intro h b sim hb
    obtain ⟨s, v, hk, h1, h2, h3, h4⟩ := h key (by simp)
    have hget : getValue b key = (.ok v, { b with unaccessed := b.unaccessed.filter (· ≠ key) }) := by
      unfold getValue
      simp only [h1, hb, h4]
    have hrep : replace key (root ++ ['.']) [] = s := by
      have : key = (root ++ ['.']) ++ s := by rw [hk]; simp
      rw [this, replace_reroots (by simp) h3]; rfl
    have hstep : overrideStep root (b, sim) key =
        .ok ({ b with unaccessed := b.unaccessed.filter (· ≠ key) }, setValue sim s v) := by
      unfold overrideStep
      simp only [hget, hrep]
    obtain ⟨b', sim', g1, g2, g3, g4⟩ := ih (fun k hk => h k (by simp [hk]))
      { b with unaccessed := b.unaccessed.filter (· ≠ key) } (setValue sim s v) hb
    refine ⟨b', sim', ?_, g2, g3, ?_⟩
    · rw [List.foldlM_cons, hstep]; exact g1
    · intro k
      rw [g4 k]
      have hset : (setValue sim s v).dict = Dict.set sim.dict s v := by unfold setValue; rw [h2]
      by_cases hr : root ++ '.' :: k ∈ rest
      · rw [if_pos hr, if_pos (List.mem_cons_of_mem _ hr)]
      · rw [if_neg hr, hset]
        by_cases hks : k = s
        · subst hks
          rw [Dict.get?_set_self, if_pos (by rw [← hk]; simp), ← hk, h4]
        · rw [Dict.get?_set_ne _ _ (Ne.symm hks), if_neg]
          intro hm
          rcases List.mem_cons.1 hm with hm | hm
          · rw [hk] at hm
            exact hks (by simpa using hm)
          · exact hr hm

theorem overrides_readonly (root : Str) : ∀ (keys : List Str) (st st' : Store × Store),
    keys.foldlM (overrideStep root) st = .ok st' → st'.1.dict = st.1.dict ∧ st'.1.defaults = st.1.defaults := by
  intro keys
  induction keys with
  | nil => intro st st' h; cases h; exact ⟨rfl, rfl⟩
  | cons key rest ih =>
    intro st st' h
    rw [List.foldlM_cons] at h
    obtain ⟨r1, r2⟩ := getValue_readonly st.1 key
    unfold overrideStep at h
    cases hg : getValue st.1 key with
    | mk r b =>
      rw [hg] at h r1 r2
      cases r with
      | error e => cases h
      | ok v =>
        obtain ⟨q1, q2⟩ := ih _ _ h
        exact ⟨q1.trans r1, q2.trans r2⟩

/-- the value every entry of the definition of a case has before the overrides are applied -/
def Forced (level : Int) (D : Dict Str Str) (k : Str) : Option Str :=
  if k = "SimControl.plot".toList then some "None".toList
  else if k = "SimControl.RocketPlot".toList then some "Off".toList
  else if k = "SimControl.loggingLevel".toList ∧ level < 3 then some "3".toList
  else Dict.get? D k

/-- The overrides of a case can be read: every entry below `case.ParameterOverrides` is written without surrounding white
space and does not mention `case.ParameterOverrides.` a second time. -/
def CleanOverrides (case : Str) (D : Dict Str Str) : Prop :=
  ∀ s, case ++ ".ParameterOverrides.".toList ++ s ∈ Dict.keys D →
    strip (case ++ ".ParameterOverrides.".toList ++ s) = case ++ ".ParameterOverrides.".toList ++ s ∧ strip s = s ∧
      ¬ (case ++ ".ParameterOverrides.".toList) <:+: s

theorem root_dot (case s : Str) :
    (case ++ '.' :: "ParameterOverrides".toList) ++ '.' :: s = case ++ ".ParameterOverrides.".toList ++ s := by
  rw [show ".ParameterOverrides.".toList = '.' :: "ParameterOverrides".toList ++ ['.'] by decide +kernel]
  simp

/-- **C81** A case is run with the definition file's entries, except that plots are off, the logging level is at least 3 and
every entry `case.ParameterOverrides.k = v` of the batch definition replaces (or adds) entry `k`.  The batch definition and the
default values are not changed. -/
theorem overrides_spec (parseInt : Str → Except PyErr Int) {case : Str} (batch sim : Store)
    (hc : CleanOverrides case batch.dict) {text : Str} {level : Int}
    (hl : Lookup (Dict.set sim.dict "SimControl.plot".toList "None".toList) sim.defaults "SimControl.loggingLevel".toList text)
    (hi : parseInt text = .ok level) :
    ∃ batch' sim', implementOverrides parseInt case batch sim = .ok (batch', sim') ∧ batch'.dict = batch.dict ∧
      sim'.defaults = sim.defaults ∧
      ∀ k, Dict.get? sim'.dict k = ((Dict.get? batch.dict (case ++ ".ParameterOverrides.".toList ++ k)).or
        (Forced level sim.dict k)) := by
  have e1 : strip "SimControl.plot".toList = "SimControl.plot".toList := by decide +kernel
  have e2 : strip "SimControl.loggingLevel".toList = "SimControl.loggingLevel".toList := by decide +kernel
  have e3 : strip "SimControl.RocketPlot".toList = "SimControl.RocketPlot".toList := by decide +kernel
  have n12 : "SimControl.plot".toList ≠ "SimControl.loggingLevel".toList := by decide +kernel
  have n13 : "SimControl.plot".toList ≠ "SimControl.RocketPlot".toList := by decide +kernel
  have n23 : "SimControl.loggingLevel".toList ≠ "SimControl.RocketPlot".toList := by decide +kernel
  have hg : (getValue (setValue sim "SimControl.plot".toList "None".toList) "SimControl.loggingLevel".toList).1 = .ok text := by
    rw [getValue_ok_iff, e2]
    unfold setValue
    rw [e1]; exact hl
  obtain ⟨d1, d2⟩ := getValue_readonly (setValue sim "SimControl.plot".toList "None".toList) "SimControl.loggingLevel".toList
  unfold implementOverrides
  dsimp only
  cases hgv : getValue (setValue sim "SimControl.plot".toList "None".toList) "SimControl.loggingLevel".toList with
  | mk r s1 =>
    rw [hgv] at hg d1 d2
    dsimp only at hg d1 d2
    subst hg
    dsimp only
    rw [hi]
    dsimp only
    have hroot : case ++ '.' :: "ParameterOverrides".toList ≠ [] := by simp
    obtain ⟨b', s', g1, g2, g3, g4⟩ := overrides_fold (case ++ '.' :: "ParameterOverrides".toList) batch.dict
      (getSubKeys batch.dict (case ++ '.' :: "ParameterOverrides".toList)) (by
        intro k hk
        rw [mem_getSubKeys_iff] at hk
        obtain ⟨s, hs⟩ := subkey_form hroot ((isSubKey_iff _ _).2 hk.2)
        have hk1 := hk.1
        rw [hs, root_dot] at hk1
        obtain ⟨c1, c2, c3⟩ := hc s hk1
        obtain ⟨v, hv⟩ := Option.isSome_iff_exists.1 ((Dict.get?_isSome_iff batch.dict k).2 hk.1)
        refine ⟨s, v, hs, by rw [hs, root_dot]; exact c1, c2, ?_, hv⟩
        rw [root_dot case [], List.append_nil]; exact c3) batch
      (setValue (if level < 3 then setValue s1 "SimControl.loggingLevel".toList "3".toList else s1)
        "SimControl.RocketPlot".toList "Off".toList) rfl
    refine ⟨b', s', g1, g2, ?_, ?_⟩
    · rw [g3]
      have : (if level < 3 then setValue s1 "SimControl.loggingLevel".toList "3".toList else s1).defaults = s1.defaults := by
        split <;> rfl
      change (if level < 3 then setValue s1 "SimControl.loggingLevel".toList "3".toList else s1).defaults = _
      rw [this, d2]; rfl
    · intro k
      rw [g4 k, root_dot]
      have hmem : case ++ ".ParameterOverrides.".toList ++ k ∈ getSubKeys batch.dict (case ++ '.' :: "ParameterOverrides".toList)
          ↔ case ++ ".ParameterOverrides.".toList ++ k ∈ Dict.keys batch.dict := by
        rw [mem_getSubKeys_iff]
        refine and_iff_left ?_
        unfold Below
        rw [dictPath_of_ne_nil hroot, splitC_prefix_iff]
        exact ⟨k, (root_dot case k).symm⟩
      by_cases hm : case ++ ".ParameterOverrides.".toList ++ k ∈ Dict.keys batch.dict
      · rw [if_pos (hmem.2 hm)]
        obtain ⟨v, hv⟩ := Option.isSome_iff_exists.1 ((Dict.get?_isSome_iff batch.dict _).2 hm)
        rw [hv]; rfl
      · rw [if_neg (fun h => hm (hmem.1 h)), (Dict.get?_eq_none_iff _ _).2 hm, Option.none_or]
        have hs1 : s1.dict = Dict.set sim.dict "SimControl.plot".toList "None".toList := by
          rw [d1]; unfold setValue; rw [e1]
        have hmid : (if level < 3 then setValue s1 "SimControl.loggingLevel".toList "3".toList else s1).dict =
            if level < 3 then Dict.set s1.dict "SimControl.loggingLevel".toList "3".toList else s1.dict := by
          split
          · unfold setValue; rw [e2]
          · rfl
        change Dict.get? (Dict.set _ (strip "SimControl.RocketPlot".toList) _) k = _
        rw [e3, hmid, hs1]
        unfold Forced
        by_cases k1 : k = "SimControl.plot".toList
        · rw [if_pos k1, k1, Dict.get?_set_ne _ _ (Ne.symm n13)]
          split
          · rw [Dict.get?_set_ne _ _ (Ne.symm n12), Dict.get?_set_self]
          · rw [Dict.get?_set_self]
        · rw [if_neg k1]
          by_cases k2 : k = "SimControl.RocketPlot".toList
          · rw [if_pos k2, k2, Dict.get?_set_self]
          · rw [if_neg k2, Dict.get?_set_ne _ _ (Ne.symm k2)]
            by_cases k3 : k = "SimControl.loggingLevel".toList
            · by_cases hlt : level < 3
              · rw [if_pos hlt, if_pos ⟨k3, hlt⟩, k3, Dict.get?_set_self]
              · rw [if_neg hlt, if_neg (fun h => hlt h.2), Dict.get?_set_ne _ _ (Ne.symm k1)]
            · have hn : ¬ (k = "SimControl.loggingLevel".toList ∧ level < 3) := fun h => k3 h.1
              conv_rhs => rw [if_neg hn]
              split
              · rw [Dict.get?_set_ne _ _ (Ne.symm k3), Dict.get?_set_ne _ _ (Ne.symm k1)]
              · rw [Dict.get?_set_ne _ _ (Ne.symm k1)]

/-- **C81** Preparing a case fails only for want of a readable logging level. -/
theorem overrides_error (parseInt : Str → Except PyErr Int) {case : Str} (batch sim : Store)
    (hc : CleanOverrides case batch.dict) (e : PyErr) :
    implementOverrides parseInt case batch sim = .error e ↔
      (e = .keyError ∧ ¬ ∃ t, Lookup (Dict.set sim.dict "SimControl.plot".toList "None".toList) sim.defaults
        "SimControl.loggingLevel".toList t) ∨
      ∃ t, Lookup (Dict.set sim.dict "SimControl.plot".toList "None".toList) sim.defaults
        "SimControl.loggingLevel".toList t ∧ parseInt t = .error e := by
  have e1 : strip "SimControl.plot".toList = "SimControl.plot".toList := by decide +kernel
  have e2 : strip "SimControl.loggingLevel".toList = "SimControl.loggingLevel".toList := by decide +kernel
  have hok := getValue_ok_iff (setValue sim "SimControl.plot".toList "None".toList) "SimControl.loggingLevel".toList
  have her := getValue_error_iff (setValue sim "SimControl.plot".toList "None".toList) "SimControl.loggingLevel".toList
  have hd : (setValue sim "SimControl.plot".toList "None".toList).dict =
      Dict.set sim.dict "SimControl.plot".toList "None".toList := by unfold setValue; rw [e1]
  have hdf : (setValue sim "SimControl.plot".toList "None".toList).defaults = sim.defaults := rfl
  rw [hd, hdf, e2] at hok her
  cases hgv : getValue (setValue sim "SimControl.plot".toList "None".toList) "SimControl.loggingLevel".toList with
  | mk r s1 =>
    rw [hgv] at hok her
    dsimp only at hok her
    cases r with
    | error e' =>
      obtain ⟨h1, h2⟩ := (her e').1 rfl
      have : implementOverrides parseInt case batch sim = .error e' := by
        unfold implementOverrides; dsimp only; rw [hgv]
      rw [this, h1]
      constructor
      · intro h; cases h; exact Or.inl ⟨rfl, h2⟩
      · rintro (⟨rfl, _⟩ | ⟨t, ht, _⟩)
        · rfl
        · exact absurd ⟨t, ht⟩ h2
    | ok text =>
      have hl := (hok text).1 rfl
      cases hi : parseInt text with
      | ok level =>
        obtain ⟨b, s, h, _⟩ := overrides_spec parseInt batch sim hc hl hi
        rw [h]
        constructor
        · intro h; cases h
        · rintro (⟨_, h2⟩ | ⟨t, ht, h2⟩)
          · exact absurd ⟨text, hl⟩ h2
          · have := (hok t).2 ht
            cases this
            rw [hi] at h2; cases h2
      | error e' =>
        have : implementOverrides parseInt case batch sim = .error e' := by
          unfold implementOverrides; dsimp only; rw [hgv]; dsimp only; rw [hi]
        rw [this]
        constructor
        · intro h; cases h; exact Or.inr ⟨text, hl, hi⟩
        · rintro (⟨_, h2⟩ | ⟨t, ht, h2⟩)
          · exact absurd ⟨text, hl⟩ h2
          · have := (hok t).2 ht
            cases this
            rw [hi] at h2; cases h2; rfl

/-- a batch definition with one case overriding one entry -/
def sampleBatch : Store := newStore
  [("c.simDefinitionFile".toList, "a.mapleaf".toList), ("c.ParameterOverrides.Rocket.mass".toList, "7".toList)] []
/-- a definition without entries; the defaults hold a logging level of 2 -/
def sampleSim : Store := newStore [("Rocket.mass".toList, "5".toList)] [("SimControl.loggingLevel".toList, "2".toList)]

example : CleanOverrides "c".toList sampleBatch.dict ∧
    Lookup (Dict.set sampleSim.dict "SimControl.plot".toList "None".toList) sampleSim.defaults
      "SimControl.loggingLevel".toList "2".toList := by
  refine ⟨?_, Or.inr (Or.inl ⟨by decide +kernel, by decide +kernel⟩)⟩
  intro s hs
  have hk : Dict.keys sampleBatch.dict = ["c.simDefinitionFile".toList, "c.ParameterOverrides.Rocket.mass".toList] := by
    decide +kernel
  rw [hk] at hs
  rcases List.mem_cons.1 hs with h | h
  · exfalso
    have := congrArg (fun l => l.take 3) h
    rw [List.append_assoc, show ".ParameterOverrides.".toList = '.' :: 'P' :: "arameterOverrides.".toList by decide +kernel,
      show "c".toList = ['c'] by decide +kernel] at this
    revert this
    rw [show "c.simDefinitionFile".toList = 'c' :: '.' :: 's' :: "imDefinitionFile".toList by decide +kernel]
    simp
  · have h := List.mem_singleton.1 h
    have hs' : s = "Rocket.mass".toList := by
      rw [show "c.ParameterOverrides.Rocket.mass".toList = "c".toList ++ ".ParameterOverrides.".toList ++ "Rocket.mass".toList by
        decide +kernel] at h
      exact List.append_cancel_left h
    subst hs'
    refine ⟨by decide +kernel, by decide +kernel, ?_⟩
    rw [← isIn_iff]; decide +kernel

/-- **C81 fails** for "always disable plotting and enable logging": an override switches logging off again. -/
theorem always_logs_violated (parseInt : Str → Except PyErr Int) (hp : parseInt "2".toList = .ok 2) :
    ∃ batch sim : Store, ∃ b' s', implementOverrides parseInt "c".toList batch sim = .ok (b', s') ∧
      Dict.get? s'.dict "SimControl.loggingLevel".toList = some "0".toList := by
  refine ⟨newStore [("c.ParameterOverrides.SimControl.loggingLevel".toList, "0".toList)] [], sampleSim, ?_⟩
  have hl : Lookup (Dict.set sampleSim.dict "SimControl.plot".toList "None".toList) sampleSim.defaults
      "SimControl.loggingLevel".toList "2".toList := Or.inr (Or.inl ⟨by decide +kernel, by decide +kernel⟩)
  obtain ⟨b', s', h1, _, _, h2⟩ := overrides_spec parseInt (case := "c".toList)
    (newStore [("c.ParameterOverrides.SimControl.loggingLevel".toList, "0".toList)] []) sampleSim (by
      intro s hs
      have hk : Dict.keys (newStore [("c.ParameterOverrides.SimControl.loggingLevel".toList, "0".toList)] []).dict =
        ["c".toList ++ ".ParameterOverrides.".toList ++ "SimControl.loggingLevel".toList] := by decide +kernel
      rw [hk, List.mem_singleton] at hs
      have hs' : s = "SimControl.loggingLevel".toList := List.append_cancel_left hs
      subst hs'
      refine ⟨by decide +kernel, by decide +kernel, ?_⟩
      rw [← isIn_iff]; decide +kernel) hl hp
  refine ⟨b', s', h1, ?_⟩
  rw [h2]
  have : Dict.get? (newStore [("c.ParameterOverrides.SimControl.loggingLevel".toList, "0".toList)] []).dict
    ("c".toList ++ ".ParameterOverrides.".toList ++ "SimControl.loggingLevel".toList) = some "0".toList := by decide +kernel
  rw [this]; rfl

/-! ## which cases are sweeps -/

theorem dict_entry_iff {p : Str} (hp : p ≠ []) (D : Dict Str Str) (d : Str) :
    d ∈ getImmediateSubDicts D p ↔ ∃ name, '.' ∉ name ∧ d = p ++ '.' :: name ∧ ∃ b, d ++ '.' :: b ∈ Dict.keys D := by
  rw [mem_getImmediateSubDicts_iff, dictPath_of_ne_nil hp]
  constructor
  · rintro ⟨⟨name, h⟩, k, hk, rest, hr, hkr⟩
    obtain ⟨b, hb⟩ := (splitC_prefix_iff p d).1 ⟨[name], by simp, h⟩
    have hbn : b = name := by
      rw [hb, splitC_append_dot] at h
      have := List.append_cancel_left h
      have h2 := join_splitC '.' b
      rw [this] at h2
      exact h2.symm
    have hn : '.' ∉ name := splitC_no_sep (s := d) name (by rw [h]; simp)
    obtain ⟨b', hb'⟩ := (splitC_prefix_iff d k).1 ⟨rest, hr, hkr⟩
    exact ⟨name, hn, by rw [hb, hbn], b', hb' ▸ hk⟩
  · rintro ⟨name, hn, hd, b, hb⟩
    refine ⟨⟨name, ?_⟩, _, hb, ?_⟩
    · rw [hd, splitC_append_dot]
      congr 1
      have := splitC_join '.' (l := [name]) (by simp) (by simpa using hn)
      simpa [join] using this
    · exact (splitC_prefix_iff d _).2 ⟨b, rfl⟩

/-- **C81** A prepared case comes from the file it names, with the overrides applied, and is run as a parameter sweep exactly
when the batch definition has an entry inside `case.ParameterSweep`. -/
theorem prepareCase_ok_iff (parseInt : Str → Except PyErr Int) (load : Str → Except PyErr Store) {case : Str}
    (hcase : case ≠ []) (batch : Store) (sim : Store) (sweep : Bool) :
    prepareCase parseInt load case batch = .ok (sim, sweep) ↔
      ∃ path sim0 b', (getString batch case "simDefinitionFile".toList).1 = .ok path ∧ load path = .ok sim0 ∧
        implementOverrides parseInt case (getString batch case "simDefinitionFile".toList).2 sim0 = .ok (b', sim) ∧
        (sweep = true ↔ ∃ k, case ++ ".ParameterSweep.".toList ++ k ∈ Dict.keys batch.dict) := by
  have hsw : ∀ D : Dict Str Str, case ++ ".ParameterSweep".toList ∈ getImmediateSubDicts D case ↔
      ∃ k, case ++ ".ParameterSweep.".toList ++ k ∈ Dict.keys D := by
    intro D
    rw [dict_entry_iff hcase]
    have e : ∀ k : Str, case ++ ".ParameterSweep.".toList ++ k = case ++ ".ParameterSweep".toList ++ '.' :: k := by
      intro k
      rw [show ".ParameterSweep.".toList = ".ParameterSweep".toList ++ ['.'] by decide +kernel]
      simp
    constructor
    · rintro ⟨_, _, _, b, hb⟩; exact ⟨b, by rw [e]; exact hb⟩
    · rintro ⟨k, hk⟩
      refine ⟨"ParameterSweep".toList, by decide +kernel, ?_, k, by rw [← e]; exact hk⟩
      rw [show ".ParameterSweep".toList = '.' :: "ParameterSweep".toList by decide +kernel]
  obtain ⟨_, _, hd1, hd2⟩ := getString_spec batch case "simDefinitionFile".toList
  unfold prepareCase
  cases hg : getString batch case "simDefinitionFile".toList with
  | mk r b1 =>
    rw [hg] at hd1 hd2
    dsimp only at hd1 hd2 ⊢
    cases r with
    | error e => constructor
                 · intro h; cases h
                 · rintro ⟨_, _, _, h, _⟩; cases h
    | ok path =>
      dsimp only
      cases hl : load path with
      | error e =>
        constructor
        · intro h; cases h
        · rintro ⟨p, s0, _, h, h2, _⟩
          cases h; rw [hl] at h2; cases h2
      | ok sim0 =>
        dsimp only
        cases ho : implementOverrides parseInt case b1 sim0 with
        | error e =>
          constructor
          · intro h; cases h
          · rintro ⟨p, s0, _, h, h2, h3, _⟩
            cases h; rw [hl] at h2; cases h2
            rw [ho] at h3; cases h3
        | ok q =>
          obtain ⟨b2, s2⟩ := q
          have hb2 : b2.dict = batch.dict := by
            unfold implementOverrides at ho
            dsimp only at ho
            split at ho
            · cases ho
            · split at ho
              · cases ho
              · have := (overrides_readonly _ _ _ _ ho).1
                exact this.trans hd1
          dsimp only
          rw [Except.ok.injEq, Prod.mk.injEq, hb2]
          constructor
          · rintro ⟨rfl, rfl⟩
            exact ⟨path, sim0, b2, rfl, hl, ho, by rw [decide_eq_true_iff]; exact hsw _⟩
          · rintro ⟨p, s0, b', h1, h2, h3, h4⟩
            cases h1
            rw [hl] at h2; cases h2
            rw [ho] at h3; cases h3
            refine ⟨rfl, ?_⟩
            rw [Bool.eq_iff_iff, decide_eq_true_iff, h4]; exact hsw _

/-- **C81 fails** for the isolation of cases: a case that names no definition file ends the batch with a `KeyError`, since
nothing around it catches the exception. -/
theorem missing_file_violated (parseInt : Str → Except PyErr Int) (load : Str → Except PyErr Store) (case : Str) (batch : Store)
    (h : ¬ Found batch case "simDefinitionFile".toList) : prepareCase parseInt load case batch = .error .keyError := by
  unfold prepareCase
  rcases getString_cases batch case "simDefinitionFile".toList with ⟨v, _, h2⟩ | ⟨h1, _⟩
  · exact absurd h2 h
  · cases hg : getString batch case "simDefinitionFile".toList with
    | mk r b1 =>
      rw [hg] at h1
      dsimp only at h1 ⊢
      subst h1
      rfl

/-! ## the dictionaries of a sweep -/

theorem infix_append_cons {p a b : Str} {c : Char} (hc : c ∉ p) : p <:+: a ++ c :: b ↔ p <:+: a ∨ p <:+: b := by
  constructor
  · rintro ⟨s, t, h⟩
    rw [List.append_eq_append_iff] at h
    rcases h with ⟨u, h1, h2⟩ | ⟨u, h1, h2⟩
    · exact Or.inl ⟨s, u, h1.symm⟩
    · cases u with
      | nil =>
        left
        exact ⟨s, [], by rw [List.append_nil] at h1 ⊢; exact h1⟩
      | cons x u =>
        rw [List.cons_append, List.cons.injEq] at h2
        obtain ⟨rfl, h2⟩ := h2
        -- `s ++ p = a ++ c :: u`
        rw [List.append_eq_append_iff] at h1
        rcases h1 with ⟨w, h3, h4⟩ | ⟨w, h3, h4⟩
        · exfalso
          apply hc
          rw [h4]; simp
        · cases w with
          | nil =>
            exfalso
            apply hc
            rw [List.nil_append] at h4
            rw [← h4]; simp
          | cons y w =>
            rw [List.cons_append, List.cons.injEq] at h4
            obtain ⟨rfl, h4⟩ := h4
            right
            exact ⟨w, t, by rw [h2, h4]⟩
  · rintro (h | h)
    · exact h.trans (List.prefix_append _ _).isInfix
    · refine h.trans ⟨a ++ [c], [], by simp⟩

/-- **C81** The dictionaries inside `case.ParameterSweep` are divided by whether "Results" occurs in the *path*: in the
dictionary's own name or in the name of the case. -/
theorem sweep_dicts_iff {case : Str} (hcase : case ≠ []) (batch : Store)
    (hno : getImmediateSubDicts batch.dict (relKey case (case ++ ".ParameterSweep".toList)) = []) (d : Str) :
    (d ∈ resultDicts batch case ↔ ∃ name, '.' ∉ name ∧ d = case ++ ".ParameterSweep.".toList ++ name ∧
      (∃ b, d ++ '.' :: b ∈ Dict.keys batch.dict) ∧ ("Results".toList <:+: case ∨ "Results".toList <:+: name)) ∧
    (d ∈ parameterDicts batch case ↔ ∃ name, '.' ∉ name ∧ d = case ++ ".ParameterSweep.".toList ++ name ∧
      (∃ b, d ++ '.' :: b ∈ Dict.keys batch.dict) ∧ ¬ ("Results".toList <:+: case ∨ "Results".toList <:+: name)) := by
  have e : ∀ k : Str, case ++ ".ParameterSweep.".toList ++ k = case ++ ".ParameterSweep".toList ++ '.' :: k := by
    intro k
    rw [show ".ParameterSweep.".toList = ".ParameterSweep".toList ++ ['.'] by decide +kernel]
    simp
  have hs : sweepDicts batch case = getImmediateSubDicts batch.dict (case ++ ".ParameterSweep".toList) :=
    (readerList_spec _ _ _).2.1 hno
  have hin : ∀ name : Str, "Results".toList <:+: case ++ ".ParameterSweep".toList ++ '.' :: name ↔
      ("Results".toList <:+: case ∨ "Results".toList <:+: name) := by
    intro name
    rw [infix_append_cons (by decide +kernel),
      show ".ParameterSweep".toList = '.' :: "ParameterSweep".toList by decide +kernel,
      infix_append_cons (by decide +kernel)]
    have : ¬ "Results".toList <:+: "ParameterSweep".toList := by rw [← isIn_iff]; decide +kernel
    constructor
    · rintro ((h | h) | h)
      · exact Or.inl h
      · exact absurd h this
      · exact Or.inr h
    · rintro (h | h)
      · exact Or.inl (Or.inl h)
      · exact Or.inr h
  have hmem : d ∈ sweepDicts batch case ↔ ∃ name, '.' ∉ name ∧ d = case ++ ".ParameterSweep.".toList ++ name ∧
      ∃ b, d ++ '.' :: b ∈ Dict.keys batch.dict := by
    rw [hs, dict_entry_iff (by simp [hcase])]
    constructor
    · rintro ⟨n, h1, h2, h3⟩; exact ⟨n, h1, by rw [e]; exact h2, h3⟩
    · rintro ⟨n, h1, h2, h3⟩; exact ⟨n, h1, by rw [← e]; exact h2, h3⟩
  constructor
  · unfold resultDicts
    rw [List.mem_filter, hmem, isIn_iff]
    constructor
    · rintro ⟨⟨n, h1, h2, h3⟩, h4⟩
      exact ⟨n, h1, h2, h3, (hin n).1 (by rw [← e, ← h2]; exact h4)⟩
    · rintro ⟨n, h1, h2, h3, h4⟩
      exact ⟨⟨n, h1, h2, h3⟩, by rw [h2, e]; exact (hin n).2 h4⟩
  · unfold parameterDicts
    rw [List.mem_filter, hmem, Bool.not_eq_true', ← Bool.not_eq_true, isIn_iff]
    constructor
    · rintro ⟨⟨n, h1, h2, h3⟩, h4⟩
      exact ⟨n, h1, h2, h3, fun h => h4 (by rw [h2, e]; exact (hin n).2 h)⟩
    · rintro ⟨n, h1, h2, h3, h4⟩
      exact ⟨⟨n, h1, h2, h3⟩, fun h => h4 ((hin n).1 (by rw [← e, ← h2]; exact h))⟩

/-- **C81 fails** for a case whose own name contains "Results": none of its dictionaries is taken for a parameter. -/
theorem results_name_violated {case : Str} (hcase : case ≠ []) (hr : "Results".toList <:+: case) (batch : Store)
    (hno : getImmediateSubDicts batch.dict (relKey case (case ++ ".ParameterSweep".toList)) = []) :
    parameterDicts batch case = [] := by
  rw [List.eq_nil_iff_forall_not_mem]
  intro d hd
  obtain ⟨_, _, _, _, h⟩ := ((sweep_dicts_iff hcase batch hno d).2).1 hd
  exact h (Or.inl hr)

/-- a sweep over one parameter with one list of expected results -/
def sampleSweep : Store := newStore
  [("c.ParameterSweep.v.sweptParameter".toList, "Rocket.velocity".toList),
   ("c.ParameterSweep.v.parameterValues".toList, "1:3:5".toList),
   ("c.ParameterSweep.ResultsA.column".toList, "Fx".toList)] []

example : getImmediateSubDicts sampleSweep.dict (relKey "c".toList ("c".toList ++ ".ParameterSweep".toList)) = [] ∧
    parameterDicts sampleSweep "c".toList = ["c.ParameterSweep.v".toList] ∧
    resultDicts sampleSweep "c".toList = ["c.ParameterSweep.ResultsA".toList] := by decide +kernel

/-! ## the values of a sweep -/

section range
variable {K : Type} [Field K]

/-- **C81** A range has as many values as asked for, starts at the first end, stops at the second, and is equally spaced. -/
theorem linspace_spec [CharZero K] (a b : K) (n : Nat) :
    (linspace a b n).length = n ∧ (1 ≤ n → (linspace a b n)[0]? = some a) ∧
    (2 ≤ n → (linspace a b n)[n - 1]? = some b) ∧
    ∀ (i : ℕ), i < n → (linspace a b n)[i]? = some (a + (i : K) * ((b - a) / ((n : K) - 1))) := by
  have h4 : ∀ (i : ℕ), i < n → (linspace a b n)[i]? = some (a + (i : K) * ((b - a) / ((n : K) - 1))) := by
    intro i hi
    simp [linspace, hi]
  refine ⟨by simp [linspace], ?_, ?_, h4⟩
  · intro h; rw [h4 0 (by omega)]; simp
  · intro h
    rw [h4 (n - 1) (by omega)]
    have h1 : ((n - 1 : ℕ) : K) = (n : K) - 1 := by push_cast [Nat.cast_sub (show 1 ≤ n by omega)]; ring
    have h2 : (n : K) - 1 ≠ 0 := by
      rw [← h1]; exact_mod_cast (show n - 1 ≠ 0 by omega)
    rw [h1, mul_div_cancel₀ _ h2]
    congr 1; ring

/-- **C81** What the values of a swept parameter may look like, and what they mean: a list separated by commas, or a range
`first:count:last` of numbers or of vectors. -/
theorem parseSweepValues_ok_iff (T : Text K) (s : Str) (out : List Str) :
    parseSweepValues T s = .ok out ↔
      (':' ∉ s ∧ out = splitC ',' s) ∨
      ∃ a n b : Str, ∃ N : ℕ, ':' ∉ a ∧ ':' ∉ n ∧ ':' ∉ b ∧ s = a ++ ':' :: n ++ ':' :: b ∧ T.int n = .ok (N : ℤ) ∧
        ((∃ x y, T.float a = some x ∧ T.float b = some y ∧
            out = (List.range N).map (fun i : ℕ => T.showF (x + (i : K) * ((y - x) / ((N : K) - 1))))) ∨
         (T.float a = none ∧ ∃ u v, T.vec a = .ok u ∧ T.vec b = .ok v ∧
            out = (List.range N).map (fun i : ℕ => T.showV
              ⟨u.x + (i : K) * ((v.x - u.x) / ((N : K) - 1)), u.y + (i : K) * ((v.y - u.y) / ((N : K) - 1)),
               u.z + (i : K) * ((v.z - u.z) / ((N : K) - 1))⟩))) := by
  have hsplit : ∀ a n b : Str, splitC ':' s = [a, n, b] ↔
      (':' ∉ a ∧ ':' ∉ n ∧ ':' ∉ b ∧ s = a ++ ':' :: n ++ ':' :: b) := by
    intro a n b
    constructor
    · intro h
      have hm := splitC_no_sep (c := ':') (s := s)
      rw [h] at hm
      have hj := join_splitC ':' s
      rw [h] at hj
      refine ⟨hm a (by simp), hm n (by simp), hm b (by simp), ?_⟩
      rw [← hj]; simp [join]
    · rintro ⟨h1, h2, h3, h4⟩
      have := splitC_join ':' (l := [a, n, b]) (by simp) (by
        intro t ht
        simp only [List.mem_cons, List.not_mem_nil, or_false] at ht
        rcases ht with rfl | rfl | rfl <;> assumption)
      rw [h4, ← this]
      congr 1
      simp [join]
  have hvec : ∀ (u v : V3 K) (N : ℕ), (List.range N).map (fun i : ℕ => T.showV
        ⟨((linspace u.x v.x N)[i]?).getD 0, ((linspace u.y v.y N)[i]?).getD 0, ((linspace u.z v.z N)[i]?).getD 0⟩) =
      (List.range N).map (fun i : ℕ => T.showV
        ⟨u.x + (i : K) * ((v.x - u.x) / ((N : K) - 1)), u.y + (i : K) * ((v.y - u.y) / ((N : K) - 1)),
          u.z + (i : K) * ((v.z - u.z) / ((N : K) - 1))⟩) := by
    intro u v N
    apply List.map_congr_left
    intro i hi
    rw [List.mem_range] at hi
    simp [linspace, hi]
  have hnum : ∀ (x y : K) (N : ℕ), (linspace x y N).map T.showF =
      (List.range N).map (fun i : ℕ => T.showF (x + (i : K) * ((y - x) / ((N : K) - 1)))) := by
    intro x y N
    simp [linspace, Function.comp_def]
  unfold parseSweepValues
  by_cases hc : ':' ∈ s
  · rw [if_pos hc]
    constructor
    · intro h
      right
      split at h
      · rename_i a n b hs
        obtain ⟨h1, h2, h3, h4⟩ := (hsplit a n b).1 hs
        cases hn : T.int n with
        | error e => rw [hn] at h; cases h
        | ok M =>
          rw [hn] at h
          dsimp only at h
          cases ha : T.float a with
          | some x =>
            rw [ha] at h
            dsimp only at h
            cases hb : T.float b with
            | none => rw [hb] at h; cases h
            | some y =>
              rw [hb] at h
              dsimp only at h
              by_cases hM : M < 0
              · rw [if_pos hM] at h; cases h
              · rw [if_neg hM] at h
                cases h
                refine ⟨a, n, b, M.toNat, h1, h2, h3, h4, by rw [hn, Int.toNat_of_nonneg (by omega)],
                  Or.inl ⟨x, y, ha, hb, hnum _ _ _⟩⟩
          | none =>
            rw [ha] at h
            dsimp only at h
            cases hu : T.vec a with
            | error e => rw [hu] at h; cases h
            | ok u =>
              rw [hu] at h
              dsimp only at h
              cases hv : T.vec b with
              | error e => rw [hv] at h; cases h
              | ok v =>
                rw [hv] at h
                dsimp only at h
                by_cases hM : M < 0
                · rw [if_pos hM] at h; cases h
                · rw [if_neg hM] at h
                  cases h
                  refine ⟨a, n, b, M.toNat, h1, h2, h3, h4, by rw [hn, Int.toNat_of_nonneg (by omega)],
                    Or.inr ⟨ha, u, v, hu, hv, hvec _ _ _⟩⟩
      · cases h
    · rintro (⟨h, _⟩ | ⟨a, n, b, N, h1, h2, h3, h4, hn, h⟩)
      · exact absurd hc h
      · rw [(hsplit a n b).2 ⟨h1, h2, h3, h4⟩]
        dsimp only
        rw [hn]
        dsimp only
        have hN : ¬ ((N : ℤ) < 0) := by omega
        rcases h with ⟨x, y, ha, hb, ho⟩ | ⟨ha, u, v, hu, hv, ho⟩
        · rw [ha, hb]
          dsimp only
          rw [if_neg hN, Int.toNat_natCast, hnum, ho]
        · rw [ha]
          dsimp only
          rw [hu, hv]
          dsimp only
          rw [if_neg hN, Int.toNat_natCast, hvec, ho]
  · rw [if_neg hc, Except.ok.injEq]
    constructor
    · intro h; exact Or.inl ⟨hc, h.symm⟩
    · rintro (⟨_, h⟩ | ⟨a, n, b, N, _, _, _, h4, _⟩)
      · exact h.symm
      · exfalso; apply hc; rw [h4]; simp

/-- **C81** Every parameter dictionary contributes its parameter and its values, in order. -/
theorem readSweeps_ok_iff (T : Text K) (batch : Store) (case : Str) (ps : List Str) (vals : List (List Str)) :
    readSweeps T batch case = .ok (ps, vals) ↔
      List.Forall₂ (fun d (q : Str × List Str) => (getString batch case (d ++ ".sweptParameter".toList)).1 = .ok q.1 ∧
        ∃ text, (getString batch case (d ++ ".parameterValues".toList)).1 = .ok text ∧ parseSweepValues T text = .ok q.2)
        (parameterDicts batch case) (ps.zip vals) ∧ ps.length = vals.length := by
  have hread : ∀ (d : Str) (q : Str × Str), (do
      let p ← (getString batch case (d ++ ".sweptParameter".toList)).1
      let v ← (getString batch case (d ++ ".parameterValues".toList)).1
      Except.ok (p, v) : Except PyErr (Str × Str)) = .ok q ↔
      (getString batch case (d ++ ".sweptParameter".toList)).1 = .ok q.1 ∧
      (getString batch case (d ++ ".parameterValues".toList)).1 = .ok q.2 := by
    intro d q
    cases (getString batch case (d ++ ".sweptParameter".toList)).1 with
    | error e => simp [bind, Except.bind]
    | ok p =>
      cases (getString batch case (d ++ ".parameterValues".toList)).1 with
      | error e => simp [bind, Except.bind]
      | ok v => simp [bind, Except.bind, Prod.ext_iff]
  have key : readSweeps T batch case = .ok (ps, vals) ↔ ∃ texts : List (Str × Str),
      List.Forall₂ (fun d (q : Str × Str) => (getString batch case (d ++ ".sweptParameter".toList)).1 = .ok q.1 ∧
        (getString batch case (d ++ ".parameterValues".toList)).1 = .ok q.2) (parameterDicts batch case) texts ∧
      List.Forall₂ (fun (t : Str × Str) v => parseSweepValues T t.2 = .ok v) texts vals ∧ ps = texts.map Prod.fst := by
    unfold readSweeps
    dsimp only
    cases h1 : (parameterDicts batch case).mapM (fun d => (do
      let p ← (getString batch case (d ++ ".sweptParameter".toList)).1
      let v ← (getString batch case (d ++ ".parameterValues".toList)).1
      Except.ok (p, v) : Except PyErr (Str × Str))) with
    | error e =>
      constructor
      · intro h; cases h
      · rintro ⟨texts, h, _⟩
        simp only [← hread] at h
        rw [← Run.Opt.mapM_ok_iff, h1] at h
        cases h
    | ok texts =>
      have h1' := (Run.Opt.mapM_ok_iff _ _ _).1 h1
      simp only [hread] at h1'
      have huniq : ∀ t2 : List (Str × Str), List.Forall₂ (fun d (q : Str × Str) =>
        (getString batch case (d ++ ".sweptParameter".toList)).1 = .ok q.1 ∧
        (getString batch case (d ++ ".parameterValues".toList)).1 = .ok q.2) (parameterDicts batch case) t2 → t2 = texts := by
        intro t2 h
        simp only [← hread] at h
        rw [← Run.Opt.mapM_ok_iff, h1] at h
        exact (Except.ok.inj h).symm
      dsimp only [bind, Except.bind]
      cases h2 : texts.mapM (fun t => parseSweepValues T t.2) with
      | error e =>
        constructor
        · intro h; cases h
        · rintro ⟨t2, h, h3, _⟩
          rw [huniq t2 h, ← Run.Opt.mapM_ok_iff, h2] at h3
          cases h3
      | ok vs =>
        have h2' := (Run.Opt.mapM_ok_iff _ _ _).1 h2
        dsimp only
        constructor
        · intro h
          cases h
          exact ⟨texts, h1', h2', rfl⟩
        · rintro ⟨t2, h, h3, h4⟩
          rw [huniq t2 h] at h3 h4
          rw [← Run.Opt.mapM_ok_iff, h2] at h3
          cases h3
          rw [h4]
  rw [key]
  clear key
  generalize parameterDicts batch case = ds
  constructor
  · rintro ⟨texts, h1, h2, rfl⟩
    refine ⟨?_, by simpa using h2.length_eq⟩
    induction h1 generalizing vals with
    | nil => simp
    | cons hq _ ih =>
      cases h2 with
      | cons hv h2 =>
        rw [List.map_cons, List.zip_cons_cons]
        exact List.Forall₂.cons ⟨hq.1, _, hq.2, hv⟩ (ih _ h2)
  · rintro ⟨h, hlen⟩
    induction ds generalizing ps vals with
    | nil =>
      cases ps with
      | nil =>
        cases vals with
        | nil => exact ⟨[], List.Forall₂.nil, List.Forall₂.nil, rfl⟩
        | cons _ _ => simp at hlen
      | cons p ps =>
        cases vals with
        | nil => simp at hlen
        | cons _ _ => cases h
    | cons d ds ih =>
      cases ps with
      | nil => cases h
      | cons p ps =>
        cases vals with
        | nil => cases h
        | cons v vals =>
          cases h with
          | cons hq h =>
            obtain ⟨texts, g1, g2, g3⟩ := ih ps vals h (by simpa using hlen)
            obtain ⟨q1, text, q2, q3⟩ := hq
            exact ⟨(p, text) :: texts, List.Forall₂.cons ⟨q1, q2⟩ g1, List.Forall₂.cons q3 g2, by rw [g3]; rfl⟩

end range

/-- **C81** Points are added between the given ones when the case says so, and otherwise when fewer than 25 *parameters* are
swept. -/
theorem smoothLine_spec (batch : Store) (case : Str) (values : List (List Str)) :
    (∀ v, (getString batch case "ParameterSweep.smoothLine".toList).1 = .ok v → smoothLine batch case values = .ok v) ∧
    (¬ Found batch case "ParameterSweep.smoothLine".toList →
      smoothLine batch case values = .ok (if values.length < 25 then "True".toList else "False".toList)) := by
  obtain ⟨h1, h2, _⟩ := tryGet_spec (α := Str) .ok (by intro t h; cases h) batch case "ParameterSweep.smoothLine".toList
    (if values.length < 25 then "True".toList else "False".toList)
  exact ⟨h2, h1⟩

/-- **C81 fails** for the intention that only sparse sweeps are refined: one parameter with any number of values is. -/
theorem smooth_default_violated (batch : Store) (case : Str) (hf : ¬ Found batch case "ParameterSweep.smoothLine".toList)
    (n : Nat) (v : Str) : smoothLine batch case [List.replicate n v] = .ok "True".toList := by
  rw [(smoothLine_spec batch case _).2 hf]; rfl

example : ¬ Found (newStore [] []) "c".toList "ParameterSweep.smoothLine".toList := by
  rintro (⟨w, h⟩ | ⟨w, h⟩)
  · have h2 := (getValue_ok_iff (newStore [] []) (relKey "c".toList "ParameterSweep.smoothLine".toList) w).2 h
    have h1 : (getValue (newStore [] []) (relKey "c".toList "ParameterSweep.smoothLine".toList)).1 = .error .keyError := by
      decide +kernel
    rw [h1] at h2; cases h2
  · have h2 := (getValue_ok_iff (newStore [] []) "ParameterSweep.smoothLine".toList w).2 h
    have h1 : (getValue (newStore [] []) "ParameterSweep.smoothLine".toList).1 = .error .keyError := by decide +kernel
    rw [h1] at h2; cases h2

/-- **C81** The column compared is the only match of the first log file that has a match. -/
theorem sweepColumn_ok_iff {α : Type} (logs : List (List α)) (c : α) :
    sweepColumn logs = .ok c ↔ ∃ pre rest, logs = pre ++ [c] :: rest ∧ ∀ m ∈ pre, m = [] := by
  have key : sweepColumn logs = .ok c ↔ logs.find? (fun m => !m.isEmpty) = some [c] := by
    cases logs with
    | nil => simp [sweepColumn]
    | cons m logs =>
      unfold sweepColumn
      split
      · cases ‹_ :: _ = []›
      · split
        · rename_i x h
          rw [h]; simp
        · rename_i h
          constructor
          · intro h2; cases h2
          · intro h2; exact absurd h2 (h c)
  rw [key, List.find?_eq_some_iff_append]
  constructor
  · rintro ⟨_, pre, rest, h1, h2⟩
    exact ⟨pre, rest, h1, fun m hm => by simpa using h2 m hm⟩
  · rintro ⟨pre, rest, h1, h2⟩
    exact ⟨rfl, pre, rest, h1, fun m hm => by simpa using h2 m hm⟩

/-- **C81 fails** for the reporting of a column that is not found exactly once: instead of a warning for that case, the
whole batch ends with an exception. -/
theorem missing_column_violated {α : Type} (logs : List (List α)) (h : ∀ c, sweepColumn logs ≠ .ok c) :
    ∃ e, sweepColumn logs = .error e ∧ (e = .typeError ∨ logs = []) := by
  cases logs with
  | nil => exact ⟨_, rfl, Or.inr rfl⟩
  | cons m logs =>
    refine ⟨.typeError, ?_, Or.inl rfl⟩
    unfold sweepColumn at h ⊢
    split at h
    · cases ‹_ :: _ = []›
    · split at h
      · exact absurd rfl (h _)
      · rfl

/-! ## expected results of full flights -/

/-- **C81** The checked entries are those inside `case.ExpectedFinalValues`, and nothing is changed when there are any. -/
theorem expectedKeys_spec (case : Str) (batch : Store)
    (h : getSubKeys batch.dict (relKey case "ExpectedFinalValues".toList) ≠ []) :
    expectedKeys case batch = (batch, getSubKeys batch.dict (relKey case "ExpectedFinalValues".toList)) := by
  unfold expectedKeys
  rw [(readerList_spec _ _ _).1 h]
  dsimp only
  rw [if_neg (by rw [List.length_eq_zero_iff]; exact h)]

theorem strip_of_ends {s : Str} (h1 : ∀ c, s.head? = some c → isWs c = false) (h2 : ∀ c, s.getLast? = some c → isWs c = false) :
    strip s = s := by
  have hl : lstrip s = s := by
    cases s with
    | nil => rfl
    | cons c s => simp [lstrip, h1 c rfl]
  unfold strip
  rw [hl]
  unfold rstrip
  have : s.reverse.dropWhile isWs = s.reverse := by
    cases hr : s.reverse with
    | nil => rfl
    | cons c t =>
      have hs : s.getLast? = some c := by rw [List.getLast?_eq_head?_reverse, hr]; rfl
      simp [h2 c hs]
  rw [this, List.reverse_reverse]

theorem record_fold (case : Str) (hc : ∀ c, case.head? = some c → isWs c = false) : ∀ (cs : List String)
    (_ : ∀ c ∈ cs, ∃ x, c.toList.getLast? = some x ∧ isWs x = false) (b : Store) (k : Str),
    Dict.get? (cs.foldl (fun b c => setValue b (case ++ ".ExpectedFinalValues.".toList ++ c.toList) "Record".toList) b).dict k =
      if ∃ c ∈ cs, k = case ++ ".ExpectedFinalValues.".toList ++ c.toList then some "Record".toList else Dict.get? b.dict k := by
  intro cs
  induction cs with
  | nil => intro _ b k; simp
  | cons c cs ih =>
    intro h b k
    rw [List.foldl_cons, ih (fun c hc => h c (by simp [hc]))]
    have hs : strip (case ++ ".ExpectedFinalValues.".toList ++ c.toList) =
        case ++ ".ExpectedFinalValues.".toList ++ c.toList := by
      obtain ⟨x, hx1, hx2⟩ := h c (by simp)
      apply strip_of_ends
      · intro y hy
        cases hcase : case with
        | nil =>
          rw [hcase, show ".ExpectedFinalValues.".toList = '.' :: "ExpectedFinalValues.".toList by decide +kernel] at hy
          cases hy
          decide +kernel
        | cons z case' =>
          apply hc
          rw [hcase] at hy ⊢
          exact hy
      · intro y hy
        rw [List.getLast?_append, hx1] at hy
        cases hy
        exact hx2
    have hset : (setValue b (case ++ ".ExpectedFinalValues.".toList ++ c.toList) "Record".toList).dict =
        Dict.set b.dict (case ++ ".ExpectedFinalValues.".toList ++ c.toList) "Record".toList := by
      unfold setValue; rw [hs]
    rw [hset]
    by_cases h1 : ∃ c ∈ cs, k = case ++ ".ExpectedFinalValues.".toList ++ c.toList
    · obtain ⟨c', h2, h3⟩ := h1
      rw [if_pos ⟨c', h2, h3⟩, if_pos ⟨c', by simp [h2], h3⟩]
    · rw [if_neg h1]
      by_cases h2 : k = case ++ ".ExpectedFinalValues.".toList ++ c.toList
      · rw [if_pos ⟨c, by simp, h2⟩, h2, Dict.get?_set_self]
      · rw [Dict.get?_set_ne _ _ (Ne.symm h2), if_neg]
        rintro ⟨c', h3, h4⟩
        rcases List.mem_cons.1 h3 with rfl | h3
        · exact h2 h4
        · exact h1 ⟨c', h3, h4⟩

/-- **C81 fails** for "if no expected results are provided, record the default set": six entries are set to "Record" (nothing
else changes), but only after the list of entries to look at was read, so the list is empty and none is recorded. -/
theorem default_recording_violated (case : Str) (batch : Store) (hc : ∀ c, case.head? = some c → isWs c = false)
    (h1 : getSubKeys batch.dict (relKey case "ExpectedFinalValues".toList) = [])
    (h2 : getSubKeys batch.dict "ExpectedFinalValues".toList = []) :
    (expectedKeys case batch).2 = [] ∧
    ∀ k, Dict.get? (expectedKeys case batch).1.dict k =
      if ∃ c ∈ ["PositionX", "PositionY", "PositionZ", "VelocityX", "VelocityY", "VelocityZ"],
        k = case ++ ".ExpectedFinalValues.".toList ++ c.toList then some "Record".toList else Dict.get? batch.dict k := by
  have hk : readerList (getSubKeys batch.dict) case (some "ExpectedFinalValues".toList) = [] := by
    rw [(readerList_spec _ _ _).2.1 h1, h2]
  unfold expectedKeys
  rw [hk]
  dsimp only
  refine ⟨rfl, fun k => ?_⟩
  rw [if_pos (by rfl)]
  exact record_fold case hc _ (by
    intro c hc
    simp only [List.mem_cons, List.not_mem_nil, or_false] at hc
    rcases hc with rfl | rfl | rfl | rfl | rfl | rfl
    · exact ⟨'X', by decide +kernel, by decide +kernel⟩
    · exact ⟨'Y', by decide +kernel, by decide +kernel⟩
    · exact ⟨'Z', by decide +kernel, by decide +kernel⟩
    · exact ⟨'X', by decide +kernel, by decide +kernel⟩
    · exact ⟨'Y', by decide +kernel, by decide +kernel⟩
    · exact ⟨'Z', by decide +kernel, by decide +kernel⟩) batch k

example : getSubKeys sampleBatch.dict (relKey "c".toList "ExpectedFinalValues".toList) = [] ∧
    getSubKeys sampleBatch.dict "ExpectedFinalValues".toList = [] := by decide +kernel

/-! ## validation -/

section validate
variable {K : Type} [Field K] [LinearOrder K]

/-- **C81** The figure for one curve: the mean, over the validation points, of (MAPLEAF − validation) / validation with
MAPLEAF's curve interpolated linearly; a validation value of zero counts as 100. -/
theorem avgError_ok_iff (X Y valX valY : List K) (e : K) (hlen : valX.length = valY.length) :
    avgError X Y valX valY = .ok e ↔ valX ≠ [] ∧ ∃ m, List.Forall₂ (fun x y => linInterp X Y x = .ok y) valX m ∧
      e = (List.zipWith (fun y v => if v = 0 then 100 else (y - v) / v) m valY).sum / (valX.length : K) := by
  have hz : ∀ m : List K, List.zipWith (fun e v => if v ≠ 0 then e / v else 100) (List.zipWith (fun a b => a - b) m valY) valY =
      List.zipWith (fun y v => if v = 0 then 100 else (y - v) / v) m valY := by
    intro m
    clear hlen
    induction m generalizing valY with
    | nil => rfl
    | cons a m ih =>
      cases valY with
      | nil => rfl
      | cons v valY =>
        simp only [List.zipWith_cons_cons, ih]
        by_cases hv : v = 0
        · simp [hv]
        · simp [hv]
  unfold avgError
  cases hm : valX.mapM (fun x => linInterp X Y x) with
  | error e' =>
    constructor
    · intro h; cases h
    · rintro ⟨_, m, h, _⟩
      rw [← Run.Opt.mapM_ok_iff, hm] at h; cases h
  | ok m =>
    have hm' := (Run.Opt.mapM_ok_iff _ _ _).1 hm
    have hl := hm'.length_eq
    dsimp only [bind, Except.bind]
    rw [hz]
    have hzl : (List.zipWith (fun y v => if v = 0 then 100 else (y - v) / v) m valY).length = valX.length := by
      rw [List.length_zipWith]; omega
    have hmean : ∀ l : List K, ∀ q, mean l = .ok q ↔ l ≠ [] ∧ q = l.sum / (l.length : K) := by
      intro l q
      cases l with
      | nil => simp [mean]
      | cons a l => simp [mean, eq_comm]
    rw [hmean, hzl]
    constructor
    · rintro ⟨h1, h2⟩
      refine ⟨fun h => h1 ?_, m, hm', h2⟩
      rw [← List.length_eq_zero_iff, hzl, h]; rfl
    · rintro ⟨h1, m', h2, h3⟩
      rw [← Run.Opt.mapM_ok_iff, hm] at h2
      cases h2
      refine ⟨fun h => h1 ?_, h3⟩
      rw [← List.length_eq_zero_iff, ← hzl, h]; rfl

/-- **C81** Which comparisons are made: one MAPLEAF curve with one or several validation curves (mean), several MAPLEAF curves
with one validation curve (smallest); anything else is not recorded. The recorded figure is a percentage. -/
theorem validate_spec (mX mY valY : List (List K)) (valX : List K) :
    (∀ X Y V, mX = [X] → mY = [Y] → valY = [V] → ∀ e, avgError X Y valX V = .ok e →
      validate mX mY valY valX = .ok (some (e * 100))) ∧
    (∀ X Y es, mX = [X] → mY = [Y] → 2 ≤ valY.length → List.Forall₂ (fun V e => avgError X Y valX V = .ok e) valY es →
      validate mX mY valY valX = .ok (some (es.sum / (es.length : K) * 100))) ∧
    (∀ V es, mX.length = mY.length → 2 ≤ mY.length → valY = [V] →
      List.Forall₂ (fun (c : List K × List K) e => avgError c.1 c.2 valX V = .ok e) (mX.zip mY) es →
      ∃ e ∈ es, (∀ e' ∈ es, e ≤ e') ∧ validate mX mY valY valX = .ok (some (e * 100))) ∧
    (mX.length ≠ mY.length → validate mX mY valY valX = .ok none) ∧
    (mY = [] ∨ valY = [] ∨ 2 ≤ mY.length ∧ 2 ≤ valY.length → validate mX mY valY valX = .ok none) := by
  refine ⟨?_, ?_, ?_, ?_, ?_⟩
  · rintro X Y V rfl rfl rfl e he
    unfold validate
    simp only [ne_eq, not_true_eq_false, if_false, List.length_cons]
    rw [he]; rfl
  · rintro X Y es rfl rfl h2 hes
    match valY, h2, hes with
    | V1 :: V2 :: Vs, _, hes =>
      have hm := (Run.Opt.mapM_ok_iff (fun V => avgError X Y valX V) _ _).2 hes
      have hne : es ≠ [] := by rintro rfl; cases hes
      unfold validate
      simp only [ne_eq, not_true_eq_false, if_false, List.length_cons]
      rw [hm]
      dsimp only [bind, Except.bind]
      cases es with
      | nil => exact absurd rfl hne
      | cons a es => rfl
  · rintro V es hl h2 rfl hes
    obtain ⟨Y1, Y2, Ys, rfl⟩ : ∃ a b l, mY = a :: b :: l := by
      match mY, h2 with
      | a :: b :: l, _ => exact ⟨a, b, l, rfl⟩
    obtain ⟨X1, X2, Xs, rfl⟩ : ∃ a b l, mX = a :: b :: l := by
      match mX, hl with
      | a :: b :: l, _ => exact ⟨a, b, l, rfl⟩
    · skip
      have hm := (Run.Opt.mapM_ok_iff (fun c : List K × List K => avgError c.1 c.2 valX V) _ _).2 hes
      cases es with
      | nil => cases hes
      | cons a es =>
        have hmin : ∀ (l : List K) (x : K), (l.foldl min x ∈ x :: l) ∧ ∀ y ∈ x :: l, l.foldl min x ≤ y := by
          intro l
          induction l with
          | nil => intro x; simp
          | cons b l ih =>
            intro x
            obtain ⟨i1, i2⟩ := ih (min x b)
            rw [List.foldl_cons]
            constructor
            · rcases List.mem_cons.1 i1 with h | h
              · rcases min_choice x b with h' | h' <;> rw [h, h'] <;> simp
              · simp [h]
            · intro y hy
              have hb := i2 (min x b) (by simp)
              rcases List.mem_cons.1 hy with rfl | hy
              · exact hb.trans (min_le_left _ _)
              · rcases List.mem_cons.1 hy with rfl | hy
                · exact hb.trans (min_le_right _ _)
                · exact i2 y (by simp [hy])
        refine ⟨es.foldl min a, (hmin es a).1, (hmin es a).2, ?_⟩
        unfold validate
        rw [if_neg (by simpa using hl)]
        dsimp only
        rw [hm]
        rfl
  · intro h
    unfold validate
    rw [if_pos h]
  · intro h
    unfold validate
    split
    · rfl
    · rename_i hl
      rw [ne_eq, not_not] at hl
      rcases h with rfl | rfl | ⟨h1, h2⟩
      · have : mX = [] := by rw [← List.length_eq_zero_iff, hl]; rfl
        subst this; rfl
      · match mX, mY, hl with
        | [], [], _ => rfl
        | [_], [_], _ => rfl
        | _ :: _ :: _, _ :: _ :: _, _ => rfl
      · obtain ⟨Y1, Y2, Ys, rfl⟩ : ∃ a b l, mY = a :: b :: l := by
          match mY, h1 with
          | a :: b :: l, _ => exact ⟨a, b, l, rfl⟩
        obtain ⟨X1, X2, Xs, rfl⟩ : ∃ a b l, mX = a :: b :: l := by
          match mX, hl with
          | a :: b :: l, _ => exact ⟨a, b, l, rfl⟩
        match valY, h2 with
        | _ :: _ :: _, _ => rfl

variable [IsStrictOrderedRing K]

theorem zip_sum_bound {ε : K} : ∀ (m V : List K) (_ : ∀ v ∈ V, v ≠ 0)
    (_ : ∀ p ∈ m.zip V, |p.1 - p.2| ≤ ε * |p.2|) (_ : m.length = V.length),
    |(List.zipWith (fun y v => if v = 0 then 100 else (y - v) / v) m V).sum| ≤ ε * (m.length : K) := by
  intro m
  induction m with
  | nil => intro V _ _ _; simp
  | cons a m ih =>
    intro V h0 h hl
    cases V with
    | nil => simp at hl
    | cons v V =>
      have hv : v ≠ 0 := h0 v (by simp)
      have h1 : |a - v| ≤ ε * |v| := h (a, v) (by simp)
      have h2 := ih V (fun w hw => h0 w (by simp [hw])) (fun p hp => h p (by simp [hp])) (by simpa using hl)
      rw [List.zipWith_cons_cons, List.sum_cons, if_neg hv]
      have h3 : |(a - v) / v| ≤ ε := by
        rw [abs_div, div_le_iff₀ (abs_pos.2 hv)]; exact h1
      calc _ ≤ |(a - v) / v| + _ := abs_add_le _ _
        _ ≤ ε + ε * (m.length : K) := add_le_add h3 h2
        _ = ε * ((a :: m).length : K) := by push_cast [List.length_cons]; ring

/-- **C81** (positive part) If MAPLEAF's curve is within a fraction `ε` of every (non-zero) validation value, the recorded
percentage is within `100 ε` of zero. -/
theorem avgError_bound (X Y valX valY m : List K) (hlen : valX.length = valY.length) (hne : valX ≠ [])
    (h0 : ∀ v ∈ valY, v ≠ 0) (hm : List.Forall₂ (fun x y => linInterp X Y x = .ok y) valX m) {ε : K}
    (h : ∀ p ∈ m.zip valY, |p.1 - p.2| ≤ ε * |p.2|) :
    ∃ e, avgError X Y valX valY = .ok e ∧ |e * 100| ≤ 100 * ε := by
  refine ⟨_, (avgError_ok_iff X Y valX valY _ hlen).2 ⟨hne, m, hm, rfl⟩, ?_⟩
  have hb := zip_sum_bound m valY h0 h (hm.length_eq.symm.trans hlen)
  have hn : (0 : K) < (valX.length : K) := by exact_mod_cast List.length_pos_iff.2 hne
  rw [abs_mul, abs_div, abs_of_pos hn, abs_of_pos (by norm_num : (0 : K) < 100)]
  rw [← hm.length_eq] at hb
  have : |(List.zipWith (fun y v => if v = 0 then 100 else (y - v) / v) m valY).sum| / (valX.length : K) ≤ ε := by
    rw [div_le_iff₀ hn]; exact hb
  linarith

example : avgError [0, 1] [1, 2] [0, 1] [1, 4] = .ok (-1 / 4 : ℚ) := by decide +kernel

/-- **C81 fails** for "average percentage disagreement": disagreements of opposite sign cancel. -/
theorem signed_violated : validate [[0, 1]] [[1, 1]] [[2, 2 / 3]] [0, 1] = .ok (some (0 : ℚ)) := by decide +kernel

/-- **C81 fails** for a validation value of zero: perfect agreement is recorded as 10000 percent. -/
theorem zero_value_violated : validate [[0, 1]] [[0, 0]] [[0]] [0] = .ok (some (10000 : ℚ)) := by decide +kernel

/-- **C81 fails** for "the mapleaf line that matches it most closely": with one line that agrees exactly and one that is half the
validation value, the second is the one reported. -/
theorem closest_violated : validate [[0, 1], [0, 1]] [[2, 2], [1, 1]] [[2]] [0] = .ok (some (-50 : ℚ)) := by decide +kernel

end validate

/-! ## wind tunnel sweeps -/

/-- **C81** A sweep needs one list of values per parameter, all of the same length. -/
theorem windTunnelInit_ok_iff (params : List Str) (values : List (List Str)) (r : List Str × List (List Str)) :
    windTunnelInit (some params) (some values) = .ok r ↔
      r = (params, values) ∧ params.length = values.length ∧ ∀ v ∈ values, ∀ w ∈ values, v.length = w.length := by
  have hall : (∀ v ∈ values, v.length = (values.head?.map List.length).getD 0) ↔
      ∀ v ∈ values, ∀ w ∈ values, v.length = w.length := by
    cases values with
    | nil => simp
    | cons a l =>
      constructor
      · intro h v hv w hw; rw [h v hv, h w hw]
      · intro h v hv; exact h v hv a (by simp)
  unfold windTunnelInit
  simp only [Option.getD_some]
  by_cases h1 : params.length = values.length
  · rw [if_neg (by simpa using h1)]
    by_cases h2 : ∀ v ∈ values, v.length = (values.head?.map List.length).getD 0
    · rw [if_neg (by simpa using h2), Except.ok.injEq]
      exact ⟨fun h => ⟨h.symm, h1, hall.1 h2⟩, fun h => h.1.symm⟩
    · rw [if_pos h2]
      constructor
      · intro h; cases h
      · rintro ⟨_, _, h⟩; exact absurd (hall.2 h) h2
  · rw [if_pos h1]
    constructor
    · intro h; cases h
    · rintro ⟨_, h, _⟩; exact absurd h h1

/-- the default sweep: three speeds -/
theorem windTunnelInit_default : windTunnelInit none none =
    .ok (["Rocket.velocity".toList], [["(0 0 100)".toList, "(0 0 200)".toList, "(0 0 300)".toList]]) := by decide +kernel

theorem setPoint_prefix (params : List Str) (values : List (List Str)) (i : Nat) (hl : params.length = values.length)
    (hi : ∀ v ∈ values, i < v.length) (hs : ∀ p ∈ params, strip p = p) (hn : params.Nodup) (s : Store) :
    ∀ n, n ≤ values.length → ∃ s', (List.range n).foldlM (fun s j =>
        match params[j]?, (values[j]?).bind (fun v => v[i]?) with
        | some p, some v => Except.ok (setValue s p v)
        | _, _ => .error PyErr.indexError) s = .ok s' ∧ s'.defaults = s.defaults ∧
      (∀ (j : ℕ) p vs, j < n → params[j]? = some p → values[j]? = some vs → Dict.get? s'.dict p = vs[i]?) ∧
      ∀ k, (∀ (j : ℕ), j < n → params[j]? ≠ some k) → Dict.get? s'.dict k = Dict.get? s.dict k := by
  intro n
  induction n with
  | zero => intro _; exact ⟨s, rfl, rfl, by intro j _ _ h; omega, fun _ _ => rfl⟩
  | succ n ih =>
    intro hn'
    obtain ⟨s', h1, h2, h3, h4⟩ := ih (by omega)
    have hp : params[n]? = some (params[n]'(by omega)) := List.getElem?_eq_getElem (by omega)
    have hv : values[n]? = some (values[n]'(by omega)) := List.getElem?_eq_getElem (by omega)
    have hvi : (values[n]'(by omega))[i]? = some ((values[n]'(by omega))[i]'(hi _ (List.getElem_mem _))) :=
      List.getElem?_eq_getElem (hi _ (List.getElem_mem _))
    have hstrip := hs _ (List.getElem_mem (l := params) (n := n) (by omega))
    refine ⟨setValue s' (params[n]'(by omega)) ((values[n]'(by omega))[i]'(hi _ (List.getElem_mem _))), ?_, h2, ?_, ?_⟩
    · rw [List.range_succ, List.foldlM_append, h1]
      simp only [bind, Except.bind, List.foldlM_cons, List.foldlM_nil, hp, hv, Option.bind_some, hvi, pure, Except.pure]
    · intro j p vs hj hpj hvj
      unfold setValue
      rw [hstrip]
      dsimp only
      by_cases hjn : j = n
      · subst hjn
        rw [hp] at hpj; rw [hv] at hvj
        cases hpj; cases hvj
        rw [Dict.get?_set_self, hvi]
      · have hne : params[n]'(by omega) ≠ p := by
          intro h
          have hj' : j < params.length := by omega
          rw [List.getElem?_eq_getElem hj', Option.some.injEq] at hpj
          rw [← hpj] at h
          exact hjn ((List.Nodup.getElem_inj_iff hn).1 h).symm
        rw [Dict.get?_set_ne _ _ hne]
        exact h3 j p vs (by omega) hpj hvj
    · intro k hk
      unfold setValue
      rw [hstrip]
      dsimp only
      have hne : params[n]'(by omega) ≠ k := by
        intro h
        exact hk n (by omega) (by rw [hp, h])
      rw [Dict.get?_set_ne _ _ hne]
      exact h4 k (fun j hj => hk j (by omega))

/-- The entries of a definition at point `i` of a sweep: swept parameters have their `i`-th value, the others what `base`
says. -/
def AtPoint (params : List Str) (values : List (List Str)) (base : Str → Option Str) (i : Nat) (s : Store) : Prop :=
  (∀ (j : ℕ) p vs, params[j]? = some p → values[j]? = some vs → Dict.get? s.dict p = vs[i]?) ∧
  ∀ k, k ∉ params → Dict.get? s.dict k = base k

theorem runPoints_spec (params : List Str) (values : List (List Str)) (hl : params.length = values.length)
    (hs : ∀ p ∈ params, strip p = p) (hn : params.Nodup) (base : Str → Option Str) : ∀ (is : List Nat) (s : Store),
    (∀ i ∈ is, ∀ v ∈ values, i < v.length) → (∀ k, k ∉ params → Dict.get? s.dict k = base k) →
    ∃ out, runPoints params values is s = .ok out ∧ List.Forall₂ (fun i s' => AtPoint params values base i s') is out := by
  intro is
  induction is with
  | nil => intro s _ _; exact ⟨[], rfl, List.Forall₂.nil⟩
  | cons i is ih =>
    intro s hi hb
    obtain ⟨s', h1, h2, h3, h4⟩ := setPoint_prefix params values i hl (hi i (by simp)) hs hn s values.length le_rfl
    have hsp : setPoint params values i s = .ok s' := h1
    have hb' : ∀ k, k ∉ params → Dict.get? s'.dict k = base k := by
      intro k hk
      rw [h4 k (fun j _ h => hk (List.mem_of_getElem? h)), hb k hk]
    obtain ⟨out, g1, g2⟩ := ih s' (fun j hj => hi j (by simp [hj])) hb'
    refine ⟨s' :: out, ?_, List.Forall₂.cons ⟨?_, hb'⟩ g2⟩
    · unfold runPoints
      rw [hsp]
      dsimp only [bind, Except.bind]
      rw [g1]
    · intro j p vs hp hv
      have hj : j < values.length := by
        by_contra hge
        rw [List.getElem?_eq_none (by omega)] at hv
        cases hv
      exact h3 j p vs hj hp hv

/-- **C81** A sweep makes one force evaluation per value, in order.  At each, every swept parameter has the value of that point
and every other entry is the definition's, with plots off and logging level 3. -/
theorem runSweep_spec (add : List (List Str) → Except PyErr (List (List Str))) (level : Int) (params : List Str)
    (values : List (List Str)) (sim : Store) (hl : params.length = values.length) (hne : values ≠ []) {n : ℕ} (hpos : 0 < n)
    (hv : ∀ v ∈ values, v.length = n) (hs : ∀ p ∈ params, strip p = p) (hn : params.Nodup) :
    ∃ out, runSweep add false level params values sim = .ok (out, decide (0 < level)) ∧ out.length = n ∧
      ∀ (i : ℕ) s, out[i]? = some s → AtPoint params values (fun k =>
        if k = "SimControl.loggingLevel".toList then some "3".toList
        else if k = "SimControl.plot".toList then some "None".toList
        else if k = "SimControl.RocketPlot".toList then some "Off".toList else Dict.get? sim.dict k) i s := by
  have e1 : strip "SimControl.plot".toList = "SimControl.plot".toList := by decide +kernel
  have e2 : strip "SimControl.loggingLevel".toList = "SimControl.loggingLevel".toList := by decide +kernel
  have e3 : strip "SimControl.RocketPlot".toList = "SimControl.RocketPlot".toList := by decide +kernel
  have n12 : "SimControl.plot".toList ≠ "SimControl.loggingLevel".toList := by decide +kernel
  have n13 : "SimControl.plot".toList ≠ "SimControl.RocketPlot".toList := by decide +kernel
  have n23 : "SimControl.loggingLevel".toList ≠ "SimControl.RocketPlot".toList := by decide +kernel
  match values, hne with
  | v :: vs, _ =>
    have hvl : v.length = n := hv v (by simp)
    obtain ⟨out, h1, h2⟩ := runPoints_spec params (v :: vs) hl hs hn (fun k =>
        if k = "SimControl.loggingLevel".toList then some "3".toList
        else if k = "SimControl.plot".toList then some "None".toList
        else if k = "SimControl.RocketPlot".toList then some "Off".toList else Dict.get? sim.dict k) (List.range v.length)
      (setValue (setValue (setValue sim "SimControl.loggingLevel".toList "3".toList) "SimControl.plot".toList "None".toList)
        "SimControl.RocketPlot".toList "Off".toList)
      (by intro i hi w hw; rw [List.mem_range] at hi; rw [hv w hw]; omega)
      (by
        intro k _
        unfold setValue
        rw [e1, e2, e3]
        dsimp only
        by_cases k2 : k = "SimControl.loggingLevel".toList
        · rw [if_pos k2, k2, Dict.get?_set_ne _ _ (Ne.symm n23), Dict.get?_set_ne _ _ n12, Dict.get?_set_self]
        · rw [if_neg k2]
          by_cases k1 : k = "SimControl.plot".toList
          · rw [if_pos k1, k1, Dict.get?_set_ne _ _ (Ne.symm n13), Dict.get?_set_self]
          · rw [if_neg k1]
            by_cases k3 : k = "SimControl.RocketPlot".toList
            · rw [if_pos k3, k3, Dict.get?_set_self]
            · rw [if_neg k3, Dict.get?_set_ne _ _ (Ne.symm k3), Dict.get?_set_ne _ _ (Ne.symm k1),
                Dict.get?_set_ne _ _ (Ne.symm k2)])
    have hlen : out.length = n := by rw [← h2.length_eq, List.length_range, hvl]
    refine ⟨out, ?_, hlen, ?_⟩
    · unfold runSweep
      dsimp only [bind, Except.bind]
      rw [if_neg Bool.false_ne_true, h1]
      have : out.isEmpty = false := by
        cases out with
        | nil => simp at hlen; omega
        | cons _ _ => rfl
      dsimp only
      rw [this]
      rfl
    · intro i s hi
      have hilt : i < out.length := by
        by_contra hge
        rw [List.getElem?_eq_none (by omega)] at hi
        cases hi
      have := h2.get (i := i) (by rw [h2.length_eq]; exact hilt) hilt
      rw [List.getElem?_eq_getElem hilt, Option.some.injEq] at hi
      rw [← hi]
      have h0 : (List.range v.length).get ⟨i, by rw [h2.length_eq]; exact hilt⟩ = i := by
        rw [List.get_eq_getElem, List.getElem_range]
      rw [h0] at this
      exact this

/-- With interpolated points the same holds of the refined values. -/
theorem runSweep_smooth (add : List (List Str) → Except PyErr (List (List Str))) (level : Int) (params : List Str)
    (values values' : List (List Str)) (sim : Store) (h : add values = .ok values') :
    runSweep add true level params values sim = runSweep add false level params values' sim := by
  unfold runSweep
  simp only [bind, Except.bind, Bool.false_eq_true, if_false, if_true, h]

example : ["Rocket.velocity".toList].length = [["(0 0 1)".toList, "(0 0 2)".toList]].length ∧
    (∀ v ∈ [["(0 0 1)".toList, "(0 0 2)".toList]], v.length = 2) ∧ strip "Rocket.velocity".toList = "Rocket.velocity".toList := by
  decide +kernel

/-- **C81 fails** for "returns the list of log file paths": the logging level that decides is read before `runSweep` raises it, so
for a definition with level 0 no log is written. -/
theorem sweep_logs_violated (add : List (List Str) → Except PyErr (List (List Str))) (params : List Str)
    (values : List (List Str)) (sim : Store) (hl : params.length = values.length) (hne : values ≠ []) {n : ℕ} (hpos : 0 < n)
    (hv : ∀ v ∈ values, v.length = n) (hs : ∀ p ∈ params, strip p = p) (hn : params.Nodup) :
    ∃ out, runSweep add false 0 params values sim = .ok (out, false) := by
  obtain ⟨out, h, _⟩ := runSweep_spec add 0 params values sim hl hne hpos hv hs hn
  exact ⟨out, h⟩

/-- **C81** Without parameters, or without values, a sweep stops with an error. -/
theorem runSweep_empty (add : List (List Str) → Except PyErr (List (List Str))) (level : Int) (params : List Str) (sim : Store)
    (vs : List (List Str)) :
    runSweep add false level params [] sim = .error .indexError ∧
    runSweep add false level params ([] :: vs) sim = .error .attributeError := ⟨rfl, rfl⟩

end Mapleaf.CaseM
