import Verif.Run.FolderModel
import Mathlib.Data.Finset.Card
import Mathlib.Data.Fintype.Card
import Mathlib.Data.Fintype.BigOperators
import Mathlib.Tactic.Linarith

/-!
# Numbered names (C54) and results folders (C47)
-/

namespace Mapleaf.Run

/-! ## numbered file names -/

theorem numberedName_injective (base ext : Str) : Function.Injective (numberedName base ext) := by
  intro a b h
  unfold numberedName at h
  have h2 := List.append_cancel_right h
  have h3 := List.append_cancel_left h2
  have := congrArg (fun l => Nat.ofDigitChars 10 l 0) h3
  simpa [Nat.ofDigitChars_ten_toDigits] using this

/-- An injective numbering leaves one of any `m + 1` consecutive numbers free when there are `m` files -/
theorem exists_free {N : Type} [DecidableEq N] {name : Nat → N} (hinj : Function.Injective name)
    (files : List N) (k : Nat) : ∃ d ≤ files.length, name (k + d) ∉ files := by
  by_contra hcon
  push Not at hcon
  have hsub : (Finset.range (files.length + 1)).image (fun d => name (k + d)) ⊆ files.toFinset := by
    intro x hx
    simp only [Finset.mem_image, Finset.mem_range] at hx
    obtain ⟨d, hd, rfl⟩ := hx
    simpa using hcon d (by omega)
  have h1 := Finset.card_le_card hsub
  rw [Finset.card_image_of_injective _ (fun a b h => by have := hinj h; omega), Finset.card_range] at h1
  have h2 := List.toFinset_card_le files
  omega

theorem findFrom_spec (files : List Str) (base ext : Str) (d : Nat) :
    ∀ n fuel, numberedName base ext (n + d) ∉ files →
      (∀ e < d, numberedName base ext (n + e) ∈ files) → d < fuel →
      findFrom files base ext fuel n = .ok (numberedName base ext (n + d)) := by
  induction d with
  | zero =>
    intro n fuel h _ hf
    obtain ⟨f, rfl⟩ : ∃ f, fuel = f + 1 := ⟨fuel - 1, by omega⟩
    simp only [Nat.add_zero] at h ⊢
    simp [findFrom, h]
  | succ d ih =>
    intro n fuel h hall hf
    obtain ⟨f, rfl⟩ : ∃ f, fuel = f + 1 := ⟨fuel - 1, by omega⟩
    have h0 := hall 0 (by omega)
    simp only [Nat.add_zero] at h0
    rw [findFrom, if_pos h0]
    have := ih (n + 1) f (by rwa [show n + 1 + d = n + (d + 1) by omega])
      (fun e he => by rw [show n + 1 + e = n + (e + 1) by omega]; exact hall (e + 1) (by omega)) (by omega)
    rw [this, show n + 1 + d = n + (d + 1) by omega]

/-- **Numbered names.**  The search ends whatever files exist, after at most one look per existing file and
one more.  The name it returns is not that of an existing file, and its number is the smallest from 1 up
whose name is free. -/
theorem findNext_spec (files : List Str) (base ext : Str) :
    ∃ n, 1 ≤ n ∧ numberedName base ext n ∉ files ∧
      (∀ m, 1 ≤ m → m < n → numberedName base ext m ∈ files) ∧
      ∀ fuel, files.length < fuel → findNext files base ext fuel = .ok (numberedName base ext n) := by
  classical
  have hex : ∃ d, numberedName base ext (1 + d) ∉ files := by
    obtain ⟨d, _, h⟩ := exists_free (numberedName_injective base ext) files 1
    exact ⟨d, h⟩
  have hle : Nat.find hex ≤ files.length := by
    obtain ⟨d, hd, h⟩ := exists_free (numberedName_injective base ext) files 1
    exact le_trans (Nat.find_min' hex h) hd
  refine ⟨1 + Nat.find hex, by omega, Nat.find_spec hex, ?_, ?_⟩
  · intro m hm hlt
    have := Nat.find_min hex (m := m - 1) (by omega)
    rw [show 1 + (m - 1) = m by omega] at this
    exact not_not.1 this
  · intro fuel hf
    exact findFrom_spec files base ext _ 1 fuel (Nat.find_spec hex)
      (fun e he => not_not.1 (Nat.find_min hex he)) (by omega)

/-- Two successive searches with the first name created in between never give the same name -/
theorem findNext_fresh (files : List Str) (base ext : Str) {a b : Str} {f g : Nat}
    (ha : findNext files base ext f = .ok a) (hb : findNext (a :: files) base ext g = .ok b) : a ≠ b := by
  have key : ∀ (fs : List Str) fuel n x, findFrom fs base ext fuel n = .ok x → x ∉ fs := by
    intro fs fuel
    induction fuel with
    | zero => intro n x h; simp [findFrom] at h
    | succ fuel ih =>
      intro n x h
      simp only [findFrom] at h
      split_ifs at h with hm
      · exact ih _ _ h
      · obtain rfl : numberedName base ext n = x := by simpa using h
        exact hm
  have := key _ _ _ _ hb
  intro hab
  subst hab
  simp at this

example : findNext ["out1.csv".toList, "out2.csv".toList, "out4.csv".toList] "out".toList ".csv".toList 4
    = .ok "out3.csv".toList := by decide +kernel

/-! ## several processes -/

variable {ι N : Type} [DecidableEq ι] [DecidableEq N]

theorem files_grow (name : Nat → N) (c : Cfg ι N) (e : Event ι N) {f : N} (hf : f ∈ c.files) :
    f ∈ (c.event name e).files := by
  cases e with
  | foreign g => simp [Cfg.event, hf]
  | proc i =>
    simp only [Cfg.event, act, actFiles]
    split <;> (try split_ifs) <;> simp [hf]

/-- the safety invariant: folders held exist, did not exist at the start, and are held once -/
structure Safe (name : Nat → N) (files0 : List N) (c : Cfg ι N) : Prop where
  old : ∀ f ∈ files0, f ∈ c.files
  here : ∀ i k, (c.procs i).pc = .got k → name k ∈ c.files
  fresh : ∀ i k, (c.procs i).pc = .got k → name k ∉ files0
  alone : ∀ i j k, (c.procs i).pc = .got k → (c.procs j).pc = .got k → i = j

theorem safe_event {name : Nat → N} {files0 : List N} {c : Cfg ι N} (h : Safe name files0 c) (e : Event ι N) :
    Safe name files0 (c.event name e) := by
  cases e with
  | foreign g =>
    exact ⟨fun f hf => by simp [Cfg.event, h.old f hf], fun i k hk => by simp [Cfg.event, h.here i k hk],
      h.fresh, h.alone⟩
  | proc i =>
    -- what the acting process may newly hold
    have hgot : ∀ k, (actFiles name c.files (c.procs i)).2.pc = .got k →
        (c.procs i).pc = .got k ∨ name k ∉ c.files ∧ (actFiles name c.files (c.procs i)).1 = name k :: c.files := by
      intro k hk
      unfold actFiles at hk ⊢
      split at hk
      · split_ifs at hk <;> simp at hk
      · split_ifs at hk with hm
        · simp only [afterFail] at hk; split_ifs at hk
        · simp only [afterMake] at hk
          split_ifs at hk with h50
          · simp only [PC.got.injEq] at hk
            subst hk
            exact Or.inr ⟨hm, by simp [hm]⟩
      · rename_i k' heq
        simp only at hk ⊢
        exact Or.inl hk
      · rename_i heq
        simp only at hk
        rw [heq] at hk; simp at hk
    have hgrow : ∀ f, f ∈ c.files → f ∈ (c.event name (.proc i)).files := fun f hf => files_grow name c _ hf
    have hpi : (c.event name (.proc i)).procs i = (actFiles name c.files (c.procs i)).2 := by
      simp [Cfg.event, act]
    have hpj : ∀ j, j ≠ i → (c.event name (.proc i)).procs j = c.procs j := by
      intro j hj; simp [Cfg.event, act, hj]
    refine ⟨fun f hf => hgrow f (h.old f hf), ?_, ?_, ?_⟩
    · intro j k hk
      by_cases hji : j = i
      · subst hji
        rw [hpi] at hk
        rcases hgot k hk with h1 | ⟨_, h2⟩
        · exact hgrow _ (h.here j k h1)
        · show name k ∈ (actFiles name c.files (c.procs j)).1
          rw [h2]; simp
      · rw [hpj j hji] at hk
        exact hgrow _ (h.here j k hk)
    · intro j k hk
      by_cases hji : j = i
      · subst hji
        rw [hpi] at hk
        rcases hgot k hk with h1 | ⟨h2, _⟩
        · exact h.fresh j k h1
        · exact fun hc => h2 (h.old _ hc)
      · rw [hpj j hji] at hk
        exact h.fresh j k hk
    · intro j l k hj hl
      by_cases hji : j = i
      · by_cases hli : l = i
        · rw [hji, hli]
        · subst hji
          rw [hpi] at hj
          rw [hpj l hli] at hl
          rcases hgot k hj with h1 | ⟨h2, _⟩
          · exact h.alone j l k h1 hl
          · exact absurd (h.here l k hl) h2
      · by_cases hli : l = i
        · subst hli
          rw [hpi] at hl
          rw [hpj j hji] at hj
          rcases hgot k hl with h1 | ⟨h2, _⟩
          · exact h.alone j l k hj h1
          · exact absurd (h.here j k hj) h2
        · rw [hpj j hji] at hj
          rw [hpj l hli] at hl
          exact h.alone j l k hj hl

theorem safe_exec (name : Nat → N) (files0 : List N) (es : List (Event ι N)) :
    Safe name files0 (exec name files0 es) := by
  unfold exec
  have h0 : Safe name files0 (start files0 : Cfg ι N) :=
    ⟨fun f hf => hf, by simp [start], by simp [start], by simp [start]⟩
  generalize (start files0 : Cfg ι N) = c at h0
  induction es generalizing c with
  | nil => exact h0
  | cons e es ih => exact ih _ (safe_event h0 e)

/-- **No shared folder.**  In every interleaving of any number of processes, and of any other programs
creating files, two processes never end up with the same results folder, and no process gets a folder that
existed before it started. -/
theorem never_shared {name : Nat → N} (hinj : Function.Injective name) (files0 : List N)
    (es : List (Event ι N)) {i j : ι} {k l : Nat}
    (hi : ((exec name files0 es).procs i).pc = .got k) (hj : ((exec name files0 es).procs j).pc = .got l)
    (hij : i ≠ j) : name k ≠ name l ∧ name k ∉ files0 ∧ name k ∈ (exec name files0 es).files := by
  have h := safe_exec name files0 es
  refine ⟨fun hkl => hij ?_, h.fresh i k hi, h.here i k hi⟩
  have : k = l := hinj hkl
  subst this
  exact h.alone i j k hi hj

/-! ### nobody gives up -/

open Classical in
/-- number of processes that hold a folder -/
noncomputable def holders [Fintype ι] (c : Cfg ι N) : Nat :=
  (Finset.univ.filter (fun i : ι => ∃ k, (c.procs i).pc = PC.got k)).card

/-- the counting invariant: a process that has failed `a` times has been overtaken by `a` others -/
structure Paced [Fintype ι] (name : Nat → N) (c : Cfg ι N) : Prop where
  search : ∀ i k, (c.procs i).pc = .search k → (c.procs i).failed ≤ holders c
  make : ∀ i k, (c.procs i).pc = .make k → (c.procs i).failed ≤ holders c ∧
    (name k ∈ c.files → (c.procs i).failed < holders c)
  alive : ∀ i, (c.procs i).pc ≠ .gaveUp

theorem holders_lt [Fintype ι] {c : Cfg ι N} {i : ι} (h : ∀ k, (c.procs i).pc ≠ PC.got k) :
    holders c < Fintype.card ι := by
  unfold holders
  apply Finset.card_lt_univ_of_notMem (x := i)
  simp only [Finset.mem_filter, Finset.mem_univ, true_and, not_exists]
  exact h

theorem holders_mono [Fintype ι] {c c' : Cfg ι N}
    (h : ∀ i k, (c.procs i).pc = .got k → (c'.procs i).pc = .got k) : holders c ≤ holders c' := by
  unfold holders
  apply Finset.card_le_card
  intro i hi
  simp only [Finset.mem_filter, Finset.mem_univ, true_and] at hi ⊢
  obtain ⟨k, hk⟩ := hi
  exact ⟨k, h i k hk⟩

theorem holders_succ [Fintype ι] {c c' : Cfg ι N} {i : ι} (hi : ∀ k, (c.procs i).pc ≠ .got k)
    {k' : Nat} (hi' : (c'.procs i).pc = .got k')
    (h : ∀ i k, (c.procs i).pc = .got k → (c'.procs i).pc = .got k) : holders c + 1 ≤ holders c' := by
  unfold holders
  rw [Nat.succ_le_iff]
  apply Finset.card_lt_card
  rw [Finset.ssubset_iff_of_subset]
  · refine ⟨i, ?_, ?_⟩
    · simp only [Finset.mem_filter, Finset.mem_univ, true_and]; exact ⟨k', hi'⟩
    · simp only [Finset.mem_filter, Finset.mem_univ, true_and, not_exists]; exact hi
  · intro j hj
    simp only [Finset.mem_filter, Finset.mem_univ, true_and] at hj ⊢
    obtain ⟨k, hk⟩ := hj
    exact ⟨k, h j k hk⟩

theorem paced_act [Fintype ι] (hcard : Fintype.card ι ≤ 50) {name : Nat → N} {c : Cfg ι N}
    (h : Paced name c) (i : ι) : Paced name (act name c i) := by
  have hpj : ∀ j, j ≠ i → (act name c i).procs j = c.procs j := by
    intro j hj; simp [act, hj]
  cases hpc : (c.procs i).pc with
  | got k =>
    have : act name c i = c := by
      simp [act, actFiles, hpc]
    rw [this]; exact h
  | gaveUp => exact absurd hpc (h.alive i)
  | search k =>
    have hng : ∀ k, (c.procs i).pc ≠ .got k := by rw [hpc]; simp
    have hfiles : (act name c i).files = c.files := by
      simp only [act, actFiles, hpc]; split_ifs <;> rfl
    have hfail : ((act name c i).procs i).failed = (c.procs i).failed := by
      simp only [act, actFiles, hpc, Function.update_self]; split_ifs <;> rfl
    have hmono : holders c ≤ holders (act name c i) := by
      apply holders_mono
      intro j l hj
      by_cases hji : j = i
      · subst hji; exact absurd hj (hng l)
      · rw [hpj j hji]; exact hj
    have hself := h.search i k hpc
    refine ⟨?_, ?_, ?_⟩
    · intro j l hj
      by_cases hji : j = i
      · subst hji; rw [hfail]; omega
      · rw [hpj j hji] at hj ⊢
        exact le_trans (h.search j l hj) hmono
    · intro j l hj
      by_cases hji : j = i
      · subst hji
        rw [hfail, hfiles]
        refine ⟨by omega, fun hm => ?_⟩
        exfalso
        simp only [act, actFiles, hpc, Function.update_self] at hj
        split_ifs at hj with hk
        simp only [PC.make.injEq] at hj
        subst hj
        exact hk hm
      · rw [hpj j hji] at hj ⊢
        rw [hfiles]
        obtain ⟨h1, h2⟩ := h.make j l hj
        exact ⟨by omega, fun hm => by have := h2 hm; omega⟩
    · intro j
      by_cases hji : j = i
      · subst hji
        simp only [act, actFiles, hpc, Function.update_self]
        split_ifs <;> simp
      · rw [hpj j hji]; exact h.alive j
  | make k =>
    have hng : ∀ k, (c.procs i).pc ≠ .got k := by rw [hpc]; simp
    have hlt := holders_lt hng
    obtain ⟨hm1, hm2⟩ := h.make i k hpc
    have hkeep : ∀ j l, (c.procs j).pc = .got l → ((act name c i).procs j).pc = .got l := by
      intro j l hj
      by_cases hji : j = i
      · subst hji; exact absurd hj (hng l)
      · rw [hpj j hji]; exact hj
    have hmono := holders_mono hkeep
    by_cases hk : name k ∈ c.files
    · have hfiles : (act name c i).files = c.files := by simp [act, actFiles, hpc, hk]
      have hb := hm2 hk
      have hproc : (act name c i).procs i = { pc := .search 1, failed := (c.procs i).failed + 1 } := by
        simp only [act, actFiles, hpc, hk, if_true, Function.update_self, afterFail]
        rw [if_pos (by omega)]
      refine ⟨?_, ?_, ?_⟩
      · intro j l hj
        by_cases hji : j = i
        · subst hji; rw [hproc]; simp only; omega
        · rw [hpj j hji] at hj ⊢
          exact le_trans (h.search j l hj) hmono
      · intro j l hj
        by_cases hji : j = i
        · subst hji; rw [hproc] at hj; simp at hj
        · rw [hpj j hji] at hj ⊢
          rw [hfiles]
          obtain ⟨h1, h2⟩ := h.make j l hj
          exact ⟨by omega, fun hm => by have := h2 hm; omega⟩
      · intro j
        by_cases hji : j = i
        · subst hji; rw [hproc]; simp
        · rw [hpj j hji]; exact h.alive j
    · have hproc : (act name c i).procs i = { pc := .got k, failed := (c.procs i).failed } := by
        simp only [act, actFiles, hpc, hk, if_false, Function.update_self, afterMake]
        rw [if_neg (by omega)]
      have hsucc := holders_succ hng (by rw [hproc]) hkeep
      refine ⟨?_, ?_, ?_⟩
      · intro j l hj
        by_cases hji : j = i
        · subst hji; rw [hproc] at hj; simp at hj
        · rw [hpj j hji] at hj ⊢
          exact le_trans (h.search j l hj) hmono
      · intro j l hj
        by_cases hji : j = i
        · subst hji; rw [hproc] at hj; simp at hj
        · rw [hpj j hji] at hj ⊢
          have := (h.make j l hj).1
          exact ⟨by omega, fun _ => by omega⟩
      · intro j
        by_cases hji : j = i
        · subst hji; rw [hproc]; simp
        · rw [hpj j hji]; exact h.alive j

theorem paced_exec [Fintype ι] (hcard : Fintype.card ι ≤ 50) (name : Nat → N) (files0 : List N)
    (is : List ι) : Paced name (exec name files0 (is.map Event.proc)) := by
  unfold exec
  have h0 : Paced name (start files0 : Cfg ι N) := ⟨by simp [start], by simp [start], by simp [start]⟩
  generalize (start files0 : Cfg ι N) = c at h0
  induction is generalizing c with
  | nil => exact h0
  | cons i is ih => exact ih _ (paced_act hcard h0 i)

/-- **Nobody gives up.**  With at most 50 processes, none of them ever stops with "unable to create a
results folder", in any interleaving: each failed attempt is caused by another process getting its folder. -/
theorem never_gives_up [Fintype ι] (hcard : Fintype.card ι ≤ 50) (name : Nat → N) (files0 : List N)
    (is : List ι) (i : ι) : ((exec name files0 (is.map Event.proc)).procs i).pc ≠ .gaveUp :=
  (paced_exec hcard name files0 is).alive i

/-- `n` actions of process `i` alone -/
def solo (name : Nat → N) (i : ι) : Nat → Cfg ι N → Cfg ι N
  | 0, c => c
  | n + 1, c => solo name i n (act name c i)

theorem solo_add (name : Nat → N) (i : ι) (m n : Nat) (c : Cfg ι N) :
    solo name i (m + n) c = solo name i n (solo name i m c) := by
  induction m generalizing c with
  | zero => simp [solo]
  | succ m ih => rw [Nat.succ_add]; exact ih _

theorem solo_free {name : Nat → N} {c : Cfg ι N} {i : ι} {k : Nat} (hpc : (c.procs i).pc = .search k)
    (hfree : name k ∉ c.files) (hf : (c.procs i).failed ≠ 50) :
    ((solo name i 2 c).procs i).pc = .got k := by
  have e1 : act name c i =
      { files := c.files, procs := Function.update c.procs i { c.procs i with pc := .make k } } := by
    simp [act, actFiles, hpc, hfree]
  show ((act name (act name c i) i).procs i).pc = _
  rw [e1]
  simp [act, actFiles, hfree, afterMake, hf]

theorem solo_search {name : Nat → N} (hinj : Function.Injective name) {c : Cfg ι N} {i : ι} {k : Nat}
    (hpc : (c.procs i).pc = .search k) (hf : (c.procs i).failed < 50) :
    ∃ n k', ((solo name i n c).procs i).pc = .got k' := by
  have key : ∀ d k (c : Cfg ι N), (c.procs i).pc = .search k → (c.procs i).failed < 50 →
      name (k + d) ∉ c.files → ∃ n k', ((solo name i n c).procs i).pc = .got k' := by
    intro d
    induction d with
    | zero =>
      intro k c hpc hf hfree
      simp only [Nat.add_zero] at hfree
      exact ⟨2, k, solo_free hpc hfree (by omega)⟩
    | succ d ih =>
      intro k c hpc hf hfree
      by_cases hk : name k ∈ c.files
      · have e1 : act name c i = { files := c.files, procs := Function.update c.procs i { c.procs i with pc := .search (k + 1) } } := by
          simp [act, actFiles, hpc, hk]
        obtain ⟨n, k', h⟩ := ih (k + 1) (act name c i) (by rw [e1]; simp) (by rw [e1]; simpa using hf)
          (by rw [e1]; simpa [show k + 1 + d = k + (d + 1) by omega] using hfree)
        exact ⟨n + 1, k', h⟩
      · exact ⟨2, k, solo_free hpc hk (by omega)⟩
  obtain ⟨d, -, hd⟩ := exists_free hinj c.files k
  exact key d k c hpc hf hd

/-- **Progress.**  At any point of any interleaving of at most 50 processes, a process that is left to run
alone gets a results folder. -/
theorem gets_folder [Fintype ι] (hcard : Fintype.card ι ≤ 50) {name : Nat → N}
    (hinj : Function.Injective name) (files0 : List N) (is : List ι) (i : ι) :
    ∃ n k, ((solo name i n (exec name files0 (is.map Event.proc))).procs i).pc = .got k := by
  have hP := paced_exec hcard name files0 is
  generalize exec name files0 (is.map Event.proc) = c at hP
  cases hpc : (c.procs i).pc with
  | got k => exact ⟨0, k, hpc⟩
  | gaveUp => exact absurd hpc (hP.alive i)
  | search k =>
    have := holders_lt (c := c) (i := i) (by rw [hpc]; simp)
    have := hP.search i k hpc
    exact solo_search hinj hpc (by omega)
  | make k =>
    have h1 := holders_lt (c := c) (i := i) (by rw [hpc]; simp)
    obtain ⟨h2, h3⟩ := hP.make i k hpc
    by_cases hk : name k ∈ c.files
    · have h4 := h3 hk
      have e1 : (act name c i).procs i = { pc := .search 1, failed := (c.procs i).failed + 1 } := by
        simp only [act, actFiles, hpc, hk, if_true, Function.update_self, afterFail]
        rw [if_pos (by omega)]
      obtain ⟨n, k', h⟩ := solo_search hinj (c := act name c i) (i := i) (k := 1) (by rw [e1])
        (by rw [e1]; simp only; omega)
      exact ⟨n + 1, k', h⟩
    · refine ⟨1, k, ?_⟩
      simp only [solo, act, actFiles, hpc, hk, if_false, Function.update_self, afterMake]
      rw [if_neg (by omega)]

/-- The results folders of the program: names `<definition file>_Run<n>` are different for different
numbers, so the theorems above apply to them -/
theorem results_folders (base : Str) (files0 : List Str) (es : List (Event ι Str)) {i j : ι} {k l : Nat}
    (hi : ((exec (numberedName base []) files0 es).procs i).pc = .got k)
    (hj : ((exec (numberedName base []) files0 es).procs j).pc = .got l) (hij : i ≠ j) :
    numberedName base [] k ≠ numberedName base [] l ∧ numberedName base [] k ∉ files0 :=
  ⟨(never_shared (numberedName_injective base []) files0 es hi hj hij).1,
   (never_shared (numberedName_injective base []) files0 es hi hj hij).2.1⟩

/-- two processes racing for the first folder: the slower one takes the second -/
example : ((exec (ι := Fin 2) (N := Nat) id [] ([0, 1, 0, 1, 1, 1, 1].map Event.proc)).procs 0).pc = .got 1 ∧
    ((exec (ι := Fin 2) (N := Nat) id [] ([0, 1, 0, 1, 1, 1, 1].map Event.proc)).procs 1).pc = .got 2 := by
  decide +kernel

theorem exec_solo (name : Nat → N) (files0 : List N) (is : List ι) (i : ι) (n : Nat) :
    exec name files0 ((is ++ List.replicate n i).map Event.proc)
      = solo name i n (exec name files0 (is.map Event.proc)) := by
  unfold exec
  rw [List.map_append, List.foldl_append]
  generalize List.foldl (Cfg.event name) (start files0) (is.map Event.proc) = c
  induction n generalizing c with
  | zero => rfl
  | succ n ih => rw [List.replicate_succ]; exact ih _

/-- a process walks past the existing numbers and gets ready to create the first free one -/
theorem solo_walk {name : Nat → N} (d : Nat) : ∀ {c : Cfg ι N} {i : ι} {k f : Nat},
    c.procs i = { pc := .search k, failed := f } → (∀ e < d, name (k + e) ∈ c.files) →
    name (k + d) ∉ c.files → solo name i (d + 1) c =
      { files := c.files, procs := Function.update c.procs i { pc := .make (k + d), failed := f } } := by
  induction d with
  | zero =>
    intro c i k f hp _ hfree
    simp only [Nat.add_zero] at hfree
    simp [solo, act, actFiles, hp, hfree]
  | succ d ih =>
    intro c i k f hp hall hfree
    have h0 : name k ∈ c.files := by simpa using hall 0 (by omega)
    have e1 : act name c i =
        { files := c.files, procs := Function.update c.procs i { pc := .search (k + 1), failed := f } } := by
      simp [act, actFiles, hp, h0]
    rw [solo, ih (c := act name c i) (i := i) (k := k + 1) (f := f) (by rw [e1]; simp)
      (fun e he => by rw [e1, show k + 1 + e = k + (e + 1) by omega]; exact hall (e + 1) (by omega))
      (by rw [e1, show k + 1 + d = k + (d + 1) by omega]; exact hfree)]
    rw [e1, show k + 1 + d = k + (d + 1) by omega]
    simp

/-- One round of bad luck for process 0: having failed `r` times, with folders 1…r existing, it looks for
a free number, process `r + 1` creates that folder first, and process 0 fails again -/
theorem losing_round {r : Nat} (hr : r < 50) {c : Cfg (Fin 51) Nat}
    (hf : ∀ n, n ∈ c.files ↔ 1 ≤ n ∧ n ≤ r) (h0 : c.procs 0 = { pc := .search 1, failed := r })
    (hw : ∀ i : Fin 51, r < i.val → c.procs i = { pc := .search 1, failed := 0 })
    (hg : ∀ i k, (c.procs i).pc = .got k → k ≤ r) :
    let c' := solo id 0 1 (solo id ⟨r + 1, by omega⟩ (r + 2) (solo id 0 (r + 1) c))
    (∀ n, n ∈ c'.files ↔ 1 ≤ n ∧ n ≤ r + 1) ∧ c'.procs 0 = { pc := .search 1, failed := r + 1 } ∧
      (∀ i : Fin 51, r + 1 < i.val → c'.procs i = { pc := .search 1, failed := 0 }) ∧
      (∀ i k, (c'.procs i).pc = .got k → k ≤ r + 1) := by
  have hne : (⟨r + 1, by omega⟩ : Fin 51) ≠ 0 := by
    intro h; have := congrArg Fin.val h; simp at this
  have s1 := solo_walk (name := id) r (c := c) (i := 0) (k := 1) (f := r) h0
    (fun e he => (hf _).2 ⟨by simp, by simp; omega⟩) (fun h => by have := ((hf _).1 h).2; simp at this)
  have s2 : solo id (⟨r + 1, by omega⟩ : Fin 51) (r + 2) (solo id 0 (r + 1) c) =
      { files := (r + 1) :: c.files
        procs := Function.update (Function.update c.procs 0 { pc := .make (1 + r), failed := r })
          ⟨r + 1, by omega⟩ { pc := .got (1 + r), failed := 0 } } := by
    rw [solo_add id _ (r + 1) 1, s1]
    have hp : c.procs ⟨r + 1, by omega⟩ = { pc := .search 1, failed := 0 } := hw _ (by simp)
    have s4 := solo_walk (name := id) r
      (c := { files := c.files, procs := Function.update c.procs 0 { pc := PC.make (1 + r), failed := r } })
      (i := (⟨r + 1, by omega⟩ : Fin 51)) (k := 1) (f := 0) (by simp [hne, hp])
      (fun e he => (hf _).2 ⟨by simp, by simp; omega⟩) (fun h => by have := ((hf _).1 h).2; simp at this)
    rw [s4]
    have : (r + 1) ∉ c.files := fun h => by have := (hf _).1 h; omega
    simp [solo, act, actFiles, this, afterMake, Nat.add_comm]
  intro c'
  have s3 : c' = { files := (r + 1) :: c.files
                   procs := Function.update (Function.update (Function.update c.procs 0
                       { pc := .make (1 + r), failed := r })
                     ⟨r + 1, by omega⟩ { pc := .got (1 + r), failed := 0 }) 0 { pc := .search 1, failed := r + 1 } } := by
    show solo id 0 1 _ = _
    rw [s2]
    have : (0 : Fin 51) ≠ ⟨r + 1, by omega⟩ := fun h => hne h.symm
    simp [solo, act, actFiles, this, afterFail, hr, Nat.add_comm]
  rw [s3]
  refine ⟨?_, by simp, ?_, ?_⟩
  · intro n
    simp only [List.mem_cons, hf]
    omega
  · intro i hi
    have h1 : i ≠ 0 := by rintro rfl; simp at hi
    have h2 : i ≠ ⟨r + 1, by omega⟩ := by intro h; have := congrArg Fin.val h; simp at this; omega
    simp [h1, h2, hw i (by omega)]
  · intro i k hk
    by_cases h1 : i = 0
    · subst h1; simp at hk
    · by_cases h2 : i = ⟨r + 1, by omega⟩
      · subst h2; simp [h1] at hk; omega
      · simp [h1, h2] at hk
        have := hg i k hk
        omega

/-- **Violation.**  With 51 processes one can stop with the error although its last attempt *did* create a
folder: after 50 lost races, process 0 creates folder 51 and then raises the error, leaving the folder
empty. -/
theorem gave_up_violated : ∃ is : List (Fin 51),
    let c := exec (N := Nat) id [] (is.map Event.proc)
    (c.procs 0).pc = .gaveUp ∧ 51 ∈ c.files ∧ ∀ i, (c.procs i).pc ≠ .got 51 := by
  have key : ∀ r ≤ 50, ∃ is : List (Fin 51),
      let c := exec (N := Nat) id [] (is.map Event.proc)
      (∀ n, n ∈ c.files ↔ 1 ≤ n ∧ n ≤ r) ∧ c.procs 0 = { pc := .search 1, failed := r } ∧
      (∀ i : Fin 51, r < i.val → c.procs i = { pc := .search 1, failed := 0 }) ∧
      (∀ i k, (c.procs i).pc = .got k → k ≤ r) := by
    intro r
    induction r with
    | zero => intro _; exact ⟨[], by simp [exec, start]; omega⟩
    | succ r ih =>
      intro hr
      obtain ⟨is, h1, h2, h3, h4⟩ := ih (by omega)
      refine ⟨((is ++ List.replicate (r + 1) 0) ++ List.replicate (r + 2) ⟨r + 1, by omega⟩) ++ List.replicate 1 0, ?_⟩
      rw [exec_solo, exec_solo, exec_solo]
      exact losing_round (by omega) h1 h2 h3 h4
  obtain ⟨is, h1, h2, h3, h4⟩ := key 50 (le_refl _)
  refine ⟨is ++ List.replicate 52 0, ?_⟩
  rw [exec_solo]
  generalize exec (N := Nat) id [] (is.map Event.proc) = c at h1 h2 h3 h4
  have hfree : 51 ∉ c.files := fun h => by have := (h1 _).1 h; omega
  have e : solo id 0 52 c = { files := 51 :: c.files, procs := Function.update c.procs 0 { pc := .gaveUp, failed := 50 } } := by
    rw [solo_add id _ 51 1, solo_walk (name := id) 50 (c := c) (i := 0) (k := 1) (f := 50) h2
      (fun e he => (h1 _).2 ⟨by simp, by simp; omega⟩) (by simpa using hfree)]
    simp [solo, act, actFiles, hfree, afterMake]
  rw [e]
  refine ⟨by simp, by simp, fun i => ?_⟩
  by_cases hi : i = 0
  · subst hi; simp
  · simp only [Function.update_of_ne hi]
    intro hk
    have := h4 i 51 hk
    omega

end Mapleaf.Run
