import Verif.Run.ConvRunProps

/-! # C87: comparing integration schemes -/

namespace Mapleaf.Run.ConvRun
open Str SimDef Motion Conv

variable {E : Type} {sim : E → Store → Except PyErr (Flight × Store × E)} {fmt : ℝ → Str} {parse : Str → Except PyErr ℝ}

/-- setting up keeps the entries it is not about, if simulations leave the definition as it is -/
theorem setUp_keeps (hk : ∀ e s f s1 e1, sim e s = .ok (f, s1, e1) → s1 = s) {s s' : Store} {e e' : E}
    (h : setUp sim fmt s e = .ok (s', e')) {k : Str} (h1 : "SimControl.plot".toList ≠ strip k)
    (h2 : "SimControl.EndCondition".toList ≠ strip k) (h3 : "SimControl.EndConditionValue".toList ≠ strip k) :
    (getValue s' k).1 = (getValue s k).1 := by
  have e1 : strip "SimControl.plot".toList = "SimControl.plot".toList := by decide +kernel
  have e2 : strip "SimControl.EndCondition".toList = "SimControl.EndCondition".toList := by decide +kernel
  have e3 : strip "SimControl.EndConditionValue".toList = "SimControl.EndConditionValue".toList := by decide +kernel
  have c1 : ¬ ".class".toList <:+ strip "SimControl.plot".toList := by decide +kernel
  have c2 : ¬ ".class".toList <:+ strip "SimControl.EndCondition".toList := by decide +kernel
  have c3 : ¬ ".class".toList <:+ strip "SimControl.EndConditionValue".toList := by decide +kernel
  cases hc : (getValue s "SimControl.EndCondition".toList).1 with
  | error err =>
    unfold setUp at h
    simp only at h
    rw [plot_end, hc] at h
    cases h
  | ok c =>
    by_cases ht : c = "Time".toList
    · rw [ht] at hc
      rw [setUp_time e hc] at h
      obtain ⟨rfl, rfl⟩ := Prod.mk.inj (Except.ok.inj h)
      exact getValue_setValue_ne _ _ (by rw [e1]; exact h1) c1
    · obtain ⟨f, s1, hs, rfl⟩ := (setUp_other hc ht s' e').1 h
      rw [getValue_setValue_ne _ _ (by rw [e3]; exact h3) c3, getValue_setValue_ne _ _ (by rw [e2]; exact h2) c2, hk _ _ _ _ _ hs]
      exact getValue_setValue_ne _ _ (by rw [e1]; exact h1) c1

/-- Specification: the study of one scheme in a comparison. It is made with the scheme, ends at a time, starts from `h`, and
has `n` simulations. -/
def Studied (sim : E → Store → Except PyErr (Flight × Store × E)) (fmt : ℝ → Str) (key : Str) (h : ℝ) (n : Nat) (c : Str) (st : St E) : Prop :=
  ∃ s1 e1 fs, (getValue s1 "SimControl.timeDiscretization".toList).1 = .ok c ∧
    (getValue s1 "SimControl.EndCondition".toList).1 = .ok "Time".toList ∧
    Ended sim fmt key 2 h false n s1 e1 fs st

/-- the kinds of scheme a comparison is for: `key` is the entry refined -/
def Suits (key c : Str) : Prop :=
  (isIn "Adaptive".toList c = true ∧ key = "SimControl.TimeStepAdaptation.targetError".toList) ∨
  (isIn "Adaptive".toList c = false ∧ key = "SimControl.timeStep".toList)

/-- **Every scheme starts afresh.** Comparing schemes of the kind the comparison is for, every one is studied with the initial
step (or target error) divided by powers of two. -/
theorem schemes_spec (hk : ∀ e s f s1 e1, sim e s = .ok (f, s1, e1) → s1 = s) {key : Str}
    {h : ℝ} (hparse : parse (fmt h) = .ok h) {n : Nat} : ∀ {cs : List Str} {s : Store} {e : E} {l : List (St E)}, (∀ c ∈ cs, Suits key c) →
    schemes sim fmt parse key (fmt h) n cs s e = .ok l → List.Forall₂ (Studied sim fmt key h n) cs l := by
  intro cs
  induction cs with
  | nil =>
    intro s e l _ hl
    obtain rfl := Except.ok.inj hl
    exact List.Forall₂.nil
  | cons c cs ih =>
    intro s e l hs hl
    unfold schemes at hl
    simp only at hl
    have hkey : key = "SimControl.TimeStepAdaptation.targetError".toList ∨ key = "SimControl.timeStep".toList := by
      rcases hs c (by simp) with h | h
      · exact Or.inl h.2
      · exact Or.inr h.2
    have d1 : strip key ≠ strip "SimControl.timeDiscretization".toList ∧ ¬ ".class".toList <:+ strip key ∧
        "SimControl.plot".toList ≠ strip key ∧ "SimControl.EndCondition".toList ≠ strip key ∧
        "SimControl.EndConditionValue".toList ≠ strip key := by
      rcases hkey with rfl | rfl <;> decide +kernel
    obtain ⟨d1, d2, d3, d4, d5⟩ := d1
    generalize hs0 : setValue (setValue s "SimControl.timeDiscretization".toList c) key (fmt h) = s0 at hl
    cases hst : study sim fmt parse 2 false n s0 e with
    | error err => rw [hst] at hl; cases hl
    | ok st =>
    rw [hst] at hl
    simp only at hl
    cases hrest : schemes sim fmt parse key (fmt h) n cs st.store st.env with
    | error err => rw [hrest] at hl; cases hl
    | ok rest =>
    rw [hrest] at hl
    obtain rfl := Except.ok.inj hl
    refine List.Forall₂.cons ?_ (ih (fun c hc => hs c (by simp [hc])) hrest)
    obtain ⟨s1, e1, key', h', fs, ⟨hu, c', t, hc, hk', ht, hp⟩, hend⟩ := study_ok (by norm_num) hst
    have g1 : (getValue s1 "SimControl.timeDiscretization".toList).1 = .ok c := by
      rw [setUp_keeps hk hu (by decide +kernel) (by decide +kernel) (by decide +kernel), ← hs0, getValue_setValue_ne _ _ d1 d2]
      exact get_after_set _ _ _ _ rfl
    rw [g1] at hc
    obtain rfl := Except.ok.inj hc
    have ek : key' = key := by
      rw [← (stepKey_spec _ _).2 hk', ← (stepKey_spec _ _).2 (hs c (by simp))]
    subst ek
    have g2 : (getValue s1 key').1 = .ok (fmt h) := by
      rw [setUp_keeps hk hu d3 d4 d5, ← hs0]
      exact get_after_set _ _ _ _ rfl
    rw [g2] at ht
    obtain rfl := Except.ok.inj ht
    rw [hparse] at hp
    obtain rfl := Except.ok.inj hp
    refine ⟨s1, e1, fs, g1, (setUp_spec hu (fun e s f s1 e1 hh => by rw [hk _ _ _ _ _ hh])).1, hend⟩

/-- the end time is kept by a study that finds it set -/
theorem study_end (hk : ∀ e s f s1 e1, sim e s = .ok (f, s1, e1) → s1 = s) {n : Nat} {s : Store} {e : E} {st : St E}
    (ht : (getValue s "SimControl.EndCondition".toList).1 = .ok "Time".toList)
    (hst : study sim fmt parse 2 false n s e = .ok st) :
    Dict.get? st.store.dict "SimControl.EndConditionValue".toList = Dict.get? s.dict "SimControl.EndConditionValue".toList := by
  obtain ⟨s1, e1, key, h, fs, ⟨hu, c, t, hc, hkey, _⟩, hend⟩ := study_ok (by norm_num) hst
  rw [setUp_time e ht] at hu
  obtain ⟨rfl, rfl⟩ := Prod.mk.inj (Except.ok.inj hu)
  have hne : "SimControl.EndConditionValue".toList ≠ strip key := by
    rcases hkey with ⟨_, rfl⟩ | ⟨_, rfl⟩ <;> decide +kernel
  rw [(run_definition hk hend.ran).2.1 _ hne]
  exact Dict.get?_set_ne _ _ (by decide +kernel)

/-- after a study the end condition is a time -/
theorem study_time (hk : ∀ e s f s1 e1, sim e s = .ok (f, s1, e1) → s1 = s) {n : Nat} {s : Store} {e : E} {st : St E}
    (hst : study sim fmt parse 2 false n s e = .ok st) :
    (getValue st.store "SimControl.EndCondition".toList).1 = .ok "Time".toList := by
  obtain ⟨s1, e1, key, h, fs, ⟨hu, c, t, hc, hkey, _⟩, hend⟩ := study_ok (by norm_num) hst
  have h1 := (setUp_spec hu (fun e s f s1 e1 hh => by rw [hk _ _ _ _ _ hh])).1
  have hne : strip key ≠ strip "SimControl.EndCondition".toList ∧ ¬ ".class".toList <:+ strip key := by
    rcases hkey with ⟨_, rfl⟩ | ⟨_, rfl⟩ <;> decide +kernel
  have key2 : ∀ {fs s' e'}, Ran sim fmt key 2 h s1 e1 fs s' e' →
      (getValue s' "SimControl.EndCondition".toList).1 = .ok "Time".toList := by
    intro fs s' e' hr
    induction hr with
    | none => exact h1
    | more before run ih =>
      rw [hk _ _ _ _ _ run, getValue_setValue_ne _ _ hne.1 hne.2]; exact ih
  exact key2 hend.ran

/-- **One end time.** The end time is measured at most once, in the study of the first scheme: all others use the same. -/
theorem schemes_end (hk : ∀ e s f s1 e1, sim e s = .ok (f, s1, e1) → s1 = s) {key t0 : Str}
    (hkey : key = "SimControl.TimeStepAdaptation.targetError".toList ∨ key = "SimControl.timeStep".toList) {n : Nat} :
    ∀ {cs : List Str} {s : Store} {e : E} {l : List (St E)},
    (getValue s "SimControl.EndCondition".toList).1 = .ok "Time".toList → schemes sim fmt parse key t0 n cs s e = .ok l →
    ∀ st ∈ l, Dict.get? st.store.dict "SimControl.EndConditionValue".toList = Dict.get? s.dict "SimControl.EndConditionValue".toList := by
  intro cs
  have d1 : strip key ≠ strip "SimControl.EndCondition".toList ∧ ¬ ".class".toList <:+ strip key ∧
      strip key ≠ "SimControl.EndConditionValue".toList := by
    rcases hkey with rfl | rfl <;> decide +kernel
  induction cs with
  | nil =>
    intro s e l _ hl
    obtain rfl := Except.ok.inj hl
    intro st hst; simp at hst
  | cons c cs ih =>
    intro s e l hT hl
    unfold schemes at hl
    simp only at hl
    generalize hs0 : setValue (setValue s "SimControl.timeDiscretization".toList c) key t0 = s0 at hl
    have hT0 : (getValue s0 "SimControl.EndCondition".toList).1 = .ok "Time".toList := by
      rw [← hs0, getValue_setValue_ne _ _ d1.1 d1.2.1, getValue_setValue_ne _ _ (by decide +kernel) (by decide +kernel)]
      exact hT
    have hv0 : Dict.get? s0.dict "SimControl.EndConditionValue".toList = Dict.get? s.dict "SimControl.EndConditionValue".toList := by
      rw [← hs0]
      unfold setValue
      simp only
      rw [Dict.get?_set_ne _ _ d1.2.2, Dict.get?_set_ne _ _ (by decide +kernel)]
    cases hst : study sim fmt parse 2 false n s0 e with
    | error err => rw [hst] at hl; cases hl
    | ok st =>
    rw [hst] at hl
    simp only at hl
    cases hrest : schemes sim fmt parse key t0 n cs st.store st.env with
    | error err => rw [hrest] at hl; cases hl
    | ok rest =>
    rw [hrest] at hl
    obtain rfl := Except.ok.inj hl
    have h1 := study_end hk hT0 hst
    intro st' hst'
    rcases List.mem_cons.1 hst' with rfl | hmem
    · rw [h1, hv0]
    · rw [ih (study_time hk hst) hrest st' hmem, h1, hv0]

/-! ## The table -/

theorem mapM_all_ok {α β : Type} {f : α → Except PyErr β} {g : α → β} : ∀ {l : List α}, (∀ a ∈ l, f a = .ok (g a)) → l.mapM f = .ok (l.map g) := by
  intro l
  induction l with
  | nil => intro _; rfl
  | cons a l ih =>
    intro h
    rw [List.mapM_cons, h a (by simp), ih (fun b hb => h b (by simp [hb]))]
    rfl

/-- Specification: entries of row `k` of a table: the step, then final position and wall time of every scheme -/
noncomputable def rowOf (l : List (St E)) (h : ℝ) (k : Nat) : List ℝ :=
  h / 2 ^ k :: l.flatMap (fun st => match st.positions[k]?, st.walls[k]? with
    | some p, some w => [p.x, p.y, p.z, w]
    | _, _ => [])

theorem studied_lengths {key : Str} {h : ℝ} {n : Nat} {c : Str} {st : St E} (hs : Studied sim fmt key h n c st) :
    st.steps = (List.range n).map (fun k : ℕ => h / 2 ^ k) ∧ st.positions.length = n ∧ st.walls.length = n := by
  obtain ⟨s1, e1, fs, _, _, hend⟩ := hs
  rcases hend.ending with ⟨_, hn, _⟩ | ⟨hf, _⟩
  · obtain ⟨a, b, c, _⟩ := hend.recorded
    exact ⟨by rw [a, hn], by rw [b, List.length_map, hn], by rw [c, List.length_map, hn]⟩
  · cases hf

theorem rows_spec {key : Str} {h : ℝ} {n : Nat} {cs : List Str} {l : List (St E)} (hne : cs ≠ [])
    (hs : List.Forall₂ (Studied sim fmt key h n) cs l) : rows l = .ok ((List.range n).map (rowOf l h)) := by
  have hall : ∀ st ∈ l, st.steps = (List.range n).map (fun k : ℕ => h / 2 ^ k) ∧ st.positions.length = n ∧ st.walls.length = n := by
    clear hne
    induction hs with
    | nil => intro st hst; simp at hst
    | cons h1 _ ih =>
      intro st hst
      rcases List.mem_cons.1 hst with rfl | hm
      · exact studied_lengths h1
      · exact ih st hm
  have hl : l ≠ [] := by
    intro h0
    have := hs.length_eq
    rw [h0] at this
    exact hne (List.length_eq_zero_iff.1 this)
  have hsteps : (l.getLast?.map St.steps).getD [] = (List.range n).map (fun k : ℕ => h / 2 ^ k) := by
    rw [List.getLast?_eq_getLast_of_ne_nil hl]
    exact (hall _ (List.getLast_mem hl)).1
  unfold rows
  simp only
  rw [hsteps]
  have hz : ((List.range n).map (fun k : ℕ => h / 2 ^ k)).zipIdx = (List.range n).map (fun k : ℕ => (h / 2 ^ k, k)) := by
    apply List.ext_getElem
    · simp
    · intro i h1 h2; simp
  rw [hz]
  rw [mapM_all_ok (g := fun p => rowOf l h p.2)]
  · rw [List.map_map]; rfl
  · intro p hp
    obtain ⟨k, hk, rfl⟩ := List.mem_map.1 hp
    have hk := List.mem_range.1 hk
    unfold row rowOf
    rw [mapM_all_ok (g := fun st => match st.positions[k]?, st.walls[k]? with
      | some p, some w => [p.x, p.y, p.z, w]
      | _, _ => [])]
    · simp only [bind, Except.bind, pure, Except.pure, List.flatMap_def]
    · intro st hst
      obtain ⟨_, h2, h3⟩ := hall st hst
      unfold cells
      rw [List.getElem?_eq_getElem (by omega), List.getElem?_eq_getElem (by omega)]

/-- **The table of a comparison.** A comparison that ends has studied every scheme from the initial value of the definition,
and the table has one row per simulation: the step, and for every scheme in order its final position and wall time, below
their names. -/
theorem compare_spec (hk : ∀ e s f s1 e1, sim e s = .ok (f, s1, e1) → s1 = s) {folder : Str → Bool}
    {key first : Str} {n : Nat} {save : Bool} {cs : List Str} (hne : cs ≠ []) (hsuit : ∀ c ∈ cs, Suits key c) {s : Store} {e : E}
    (hparse : ∀ t h, (getValue s key).1 = .ok t → parse t = .ok h → parse (fmt h) = .ok h) {head : List Str} {body : List (List ℝ)} {res : Except PyErr Unit}
    (hc : compare sim fmt parse folder key first n save cs s e = .ok ((head, body), res)) :
    ∃ t h l, (getValue s key).1 = .ok t ∧ parse t = .ok h ∧ List.Forall₂ (Studied sim fmt key h n) cs l ∧
      head = first :: cs.flatMap (fun c => [c ++ "_FinalX(m)".toList, c ++ "_FinalY(m)".toList, c ++ "_FinalZ(m)".toList,
        c ++ "_WallTime(s)".toList]) ∧
      body = (List.range n).map (rowOf l h) := by
  unfold compare at hc
  cases h1 : (getValue s key).1 with
  | error err => rw [h1] at hc; cases hc
  | ok t =>
  rw [h1] at hc
  simp only at hc
  cases h2 : parse t with
  | error err => rw [h2] at hc; cases hc
  | ok h =>
  rw [h2] at hc
  simp only at hc
  cases h3 : schemes sim fmt parse key (fmt h) n cs s e with
  | error err => rw [h3] at hc; cases hc
  | ok l =>
  rw [h3] at hc
  simp only at hc
  have hs := schemes_spec hk (hparse t h h1 h2) hsuit h3
  rw [rows_spec hne hs] at hc
  simp only at hc
  obtain ⟨h4, _⟩ := Prod.mk.inj (Except.ok.inj hc)
  obtain ⟨h5, h6⟩ := Prod.mk.inj h4
  exact ⟨t, h, l, rfl, h2, hs, h5.symm, h6.symm⟩

/-- **When the figure is saved.** -/
theorem compare_figure {folder : Str → Bool} {key first : Str} {n : Nat} {save : Bool} {cs : List Str} {s : Store} {e : E}
    {table : List Str × List (List ℝ)} {res : Except PyErr Unit}
    (hc : compare sim fmt parse folder key first n save cs s e = .ok (table, res)) :
    res = .ok () ↔ (save = true → folder "/home/hhstoldt/Documents/flightSimPaper/Figures/Images".toList = true ∨
      folder "C:/Users/rando/Documents/flightSimPaper/Figures/Images".toList = true) := by
  unfold compare at hc
  generalize folder "/home/hhstoldt/Documents/flightSimPaper/Figures/Images".toList = a at *
  generalize folder "C:/Users/rando/Documents/flightSimPaper/Figures/Images".toList = b at *
  cases h1 : (getValue s key).1 with
  | error err => rw [h1] at hc; cases hc
  | ok t =>
  rw [h1] at hc
  simp only at hc
  cases h2 : parse t with
  | error err => rw [h2] at hc; cases hc
  | ok h =>
  rw [h2] at hc
  simp only at hc
  cases h3 : schemes sim fmt parse key (fmt h) n cs s e with
  | error err => rw [h3] at hc; cases hc
  | ok l =>
  rw [h3] at hc
  simp only at hc
  cases h4 : rows l with
  | error err => rw [h4] at hc; cases hc
  | ok r =>
  rw [h4] at hc
  obtain ⟨_, rfl⟩ := Prod.mk.inj (Except.ok.inj hc)
  cases save <;> cases a <;> cases b <;> simp

/-- **Violation.** Asking for the figure fails wherever neither of two hard-coded folders of the developers exists. -/
theorem figure_violated {key first : Str} {n : Nat} {cs : List Str} {s : Store} {e : E}
    {table : List Str × List (List ℝ)} {res : Except PyErr Unit}
    (hc : compare sim fmt parse (fun _ => false) key first n true cs s e = .ok (table, res)) : res ≠ .ok () := by
  rw [Ne, compare_figure hc]
  simp

/-- **Violation.** Adaptive schemes in the comparison of classical ones do not start afresh: the second begins with the last
target error of the first. -/
theorem mixed_violated (hk : ∀ e s f s1 e1, sim e s = .ok (f, s1, e1) → s1 = s)
    {t0 a b t : Str} {T : ℝ} {n : Nat} (hparse : parse (fmt (T / 2 ^ n)) = .ok (T / 2 ^ n)) {s : Store} {e : E} {u v : St E} (ha : isIn "Adaptive".toList a = true)
    (hb : isIn "Adaptive".toList b = true)
    (ht : (getValue s "SimControl.TimeStepAdaptation.targetError".toList).1 = .ok t) (hT : parse t = .ok T)
    (hl : schemes sim fmt parse "SimControl.timeStep".toList t0 (n + 1) [a, b] s e = .ok [u, v]) :
    u.steps = (List.range (n + 1)).map (fun k : ℕ => T / 2 ^ k) ∧
    v.steps = (List.range (n + 1)).map (fun k : ℕ => T / 2 ^ n / 2 ^ k) := by
  have one : ∀ {c t : Str} {T : ℝ} {s : Store} {e : E} {st : St E}, isIn "Adaptive".toList c = true →
      (getValue s "SimControl.TimeStepAdaptation.targetError".toList).1 = .ok t → parse t = .ok T →
      study sim fmt parse 2 false (n + 1) (setValue (setValue s "SimControl.timeDiscretization".toList c) "SimControl.timeStep".toList t0) e = .ok st →
      st.steps = (List.range (n + 1)).map (fun k : ℕ => T / 2 ^ k) ∧
      (getValue st.store "SimControl.TimeStepAdaptation.targetError".toList).1 = .ok (fmt (T / 2 ^ n)) := by
    intro c t T s e st hcA ht hT hst
    obtain ⟨s1, e1, key', h', fs, ⟨hu, c', t', hc, hk', ht', hp⟩, hend⟩ := study_ok (by norm_num) hst
    have g1 : (getValue s1 "SimControl.timeDiscretization".toList).1 = .ok c := by
      rw [setUp_keeps hk hu (by decide +kernel) (by decide +kernel) (by decide +kernel),
        getValue_setValue_ne _ _ (by decide +kernel) (by decide +kernel)]
      exact get_after_set _ _ _ _ rfl
    rw [g1] at hc
    obtain rfl := Except.ok.inj hc
    have ek : key' = "SimControl.TimeStepAdaptation.targetError".toList := by
      rcases hk' with h | h
      · exact h.2
      · rw [hcA] at h; exact absurd h.1 (by simp)
    subst ek
    have g2 : (getValue s1 "SimControl.TimeStepAdaptation.targetError".toList).1 = .ok t := by
      rw [setUp_keeps hk hu (by decide +kernel) (by decide +kernel) (by decide +kernel),
        getValue_setValue_ne _ _ (by decide +kernel) (by decide +kernel), getValue_setValue_ne _ _ (by decide +kernel) (by decide +kernel)]
      exact ht
    rw [g2] at ht'
    obtain rfl := Except.ok.inj ht'
    rw [hT] at hp
    obtain rfl := Except.ok.inj hp
    rcases hend.ending with ⟨_, hn, _⟩ | ⟨hf, _⟩
    · refine ⟨by rw [hend.recorded.1, hn], ?_⟩
      rw [getValue_ok_iff]
      left
      exact (run_definition hk hend.ran).2.2 n hn
    · cases hf
  unfold schemes at hl
  simp only at hl
  cases h1 : study sim fmt parse 2 false (n + 1) (setValue (setValue s "SimControl.timeDiscretization".toList a) "SimControl.timeStep".toList t0) e with
  | error err => rw [h1] at hl; cases hl
  | ok x =>
  rw [h1] at hl
  simp only at hl
  unfold schemes at hl
  simp only at hl
  cases h2 : study sim fmt parse 2 false (n + 1)
      (setValue (setValue x.store "SimControl.timeDiscretization".toList b) "SimControl.timeStep".toList t0) x.env with
  | error err => rw [h2] at hl; cases hl
  | ok y =>
  rw [h2] at hl
  simp only [schemes] at hl
  have hl := Except.ok.inj hl
  simp only [List.cons.injEq, and_true] at hl
  obtain ⟨rfl, rfl⟩ := hl
  obtain ⟨g1, g2⟩ := one ha ht hT h1
  exact ⟨g1, (one hb g2 hparse h2).1⟩

/-! ## The hypotheses can be met -/

/-- a simulation that leaves the definition as it is and ends at another point every time -/
noncomputable def demoSim (k : ℕ) (s : Store) : Except PyErr (Flight × Store × ℕ) :=
  .ok (⟨5, ⟨1, 2, 100 + 16 / 4 ^ k⟩, 1⟩, s, k + 1)

def demoStore : Store := newStore [("SimControl.EndCondition".toList, "Altitude".toList), ("SimControl.timeStep".toList, "4".toList)] []

example : ∀ e s f s1 e1, demoSim e s = .ok (f, s1, e1) → s1 = s := by
  intro e s f s1 e1 h
  exact (Prod.mk.inj (Prod.mk.inj (Except.ok.inj h)).2).1.symm

/-- a comparison of two schemes that ends, with the end time measured by an extra simulation -/
example : ∃ x, compare demoSim (fun _ => []) (fun _ => .ok 4) (fun _ => false) "SimControl.timeStep".toList "TimeStep(s)".toList 1 false
    ["Euler".toList, "RK4".toList] demoStore 0 = .ok x := by
  have h0 : (getValue demoStore "SimControl.timeStep".toList).1 = .ok "4".toList := by decide +kernel
  have hE : (getValue (setValue (setValue demoStore "SimControl.timeDiscretization".toList "Euler".toList) "SimControl.timeStep".toList [])
      "SimControl.EndCondition".toList).1 = .ok "Altitude".toList := by decide +kernel
  have step : ∀ (s : Store) (k : ℕ) (c d : Str), (getValue s "SimControl.EndCondition".toList).1 = .ok d →
      (getValue s "SimControl.timeDiscretization".toList).1 = .ok c → stepKey c = "SimControl.timeStep".toList →
      (getValue s "SimControl.timeStep".toList).1 = .ok [] →
      ∃ st, study demoSim (fun _ => []) (fun _ => .ok 4) 2 false 1 s k = .ok st ∧
        (getValue st.store "SimControl.EndCondition".toList).1 = .ok "Time".toList ∧ st.steps.length = 1 ∧
        st.positions.length = 1 ∧ st.walls.length = 1 := by
    intro s k c d hd hc hk ht
    have hkeep : ∀ e s f s1 e1, demoSim e s = .ok (f, s1, e1) → s1 = s := by
      intro e s f s1 e1 h
      exact (Prod.mk.inj (Prod.mk.inj (Except.ok.inj h)).2).1.symm
    obtain ⟨s1, k1, hu⟩ : ∃ s1 k1, setUp demoSim (fun _ => []) s k = .ok (s1, k1) := by
      by_cases hT : d = "Time".toList
      · exact ⟨_, _, setUp_time k (hT ▸ hd)⟩
      · exact ⟨_, _, (setUp_other hd hT _ _).2 ⟨_, _, rfl, rfl⟩⟩
    have g1 := setUp_keeps hkeep hu (k := "SimControl.timeDiscretization".toList) (by decide +kernel) (by decide +kernel) (by decide +kernel)
    have g2 := setUp_keeps hkeep hu (k := "SimControl.timeStep".toList) (by decide +kernel) (by decide +kernel) (by decide +kernel)
    have hst : ∃ st, study demoSim (fun _ => []) (fun _ => .ok 4) 2 false 1 s k = .ok st ∧ st.steps.length = 1 ∧
        st.positions.length = 1 ∧ st.walls.length = 1 := by
      unfold study
      rw [hu]
      simp only
      rw [g1, hc]
      simp only
      rw [hk, g2, ht]
      simp only [loop, demoSim, lastThree, List.nil_append, List.reverse_cons, List.reverse_nil]
      exact ⟨_, rfl, rfl, rfl, rfl⟩
    obtain ⟨st, hst, hl⟩ := hst
    exact ⟨st, hst, study_time hkeep hst, hl⟩
  obtain ⟨u, hu, hT, l1, l2, l3⟩ := step (setValue (setValue demoStore "SimControl.timeDiscretization".toList "Euler".toList) "SimControl.timeStep".toList []) 0
    "Euler".toList "Altitude".toList hE (by decide +kernel) (by decide +kernel) (get_after_set _ _ _ _ rfl)
  obtain ⟨v, hv, _, m1, m2, m3⟩ := step (setValue (setValue u.store "SimControl.timeDiscretization".toList "RK4".toList) "SimControl.timeStep".toList []) u.env
    "RK4".toList "Time".toList
    (by rw [getValue_setValue_ne _ _ (by decide +kernel) (by decide +kernel), getValue_setValue_ne _ _ (by decide +kernel) (by decide +kernel)]
        exact hT)
    (by rw [getValue_setValue_ne _ _ (by decide +kernel) (by decide +kernel)]; exact get_after_set _ _ _ _ rfl)
    (by decide +kernel) (get_after_set _ _ _ _ rfl)
  have hs : schemes demoSim (fun _ => []) (fun _ => .ok 4) "SimControl.timeStep".toList [] 1 ["Euler".toList, "RK4".toList] demoStore 0 = .ok [u, v] := by
    unfold schemes
    simp only
    rw [hu]
    simp only
    unfold schemes
    simp only
    rw [hv]
    simp only [schemes]
  obtain ⟨a, ha⟩ := List.length_eq_one_iff.1 m1
  obtain ⟨p, hp⟩ := List.length_eq_one_iff.1 l2
  obtain ⟨q, hq⟩ := List.length_eq_one_iff.1 m2
  obtain ⟨w, hw⟩ := List.length_eq_one_iff.1 l3
  obtain ⟨z, hz⟩ := List.length_eq_one_iff.1 m3
  have hr : ∃ r, rows [u, v] = .ok r := by
    unfold rows
    simp only [List.getLast?_cons_cons, List.getLast?_singleton, Option.map_some, Option.getD_some, ha]
    simp [row, cells, hp, hq, hw, hz, bind, Except.bind, pure, Except.pure, List.mapM_cons]
  obtain ⟨r, hr⟩ := hr
  unfold compare
  rw [h0]
  simp only
  rw [hs]
  simp only
  rw [hr]
  exact ⟨_, rfl⟩

end Mapleaf.Run.ConvRun
