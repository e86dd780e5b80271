import Verif.Log.ForceLogHistProps

/-!
# C90: the force logs of a whole simulation, continued
-/

namespace Mapleaf.FLog
open Mapleaf.Motion Mapleaf.LogM

section
variable {A K : Type} [Field K] [LinearOrder K] {G : Prop}

/-! ## rockets without a log -/

theorem parts_fold_none (a : A) (cg : V3 K) : ∀ (ps : List (Part A K)) (mem : Mem A K) (acc : FMS K),
    (∀ p ∈ ps, p.ref = none) → ps.foldlM (partStep a cg) (mem, acc) = .ok (mem, sumParts a cg acc ps) := by
  intro ps
  induction ps with
  | nil => intro mem acc _; rfl
  | cons p ps ih =>
    intro mem acc h
    rw [List.foldlM_cons, partStep, logPart, h p (by simp)]
    simp only [bind, Except.bind]
    rw [ih _ _ (fun q hq => h q (by simp [hq]))]
    rfl

theorem stages_fold_none (eqv : A → A → Bool) (a : A) (cg : V3 K) : ∀ (ss : List (StageC A K)) (mem : Mem A K) (acc : FMS K),
    (∀ p ∈ allParts ss, p.ref = none) → ∃ c F, ss.foldlM (stageStep eqv a cg) (mem, acc) = .ok (⟨mem.logs, c⟩, F) := by
  intro ss
  induction ss with
  | nil => intro mem acc _; exact ⟨mem.cell, acc, rfl⟩
  | cons s ss ih =>
    intro mem acc h
    have hs : ∀ p ∈ s.parts, p.ref = none := fun p hp => h p (by simp [allParts]; exact Or.inl hp)
    have hss : ∀ p ∈ allParts ss, p.ref = none := fun p hp => h p (by simp [allParts] at hp ⊢; exact Or.inr hp)
    rw [List.foldlM_cons, stageStep, stageForce]
    dsimp only
    cases hc : cached eqv mem s.id a with
    | some r => exact ih mem _ hss
    | none =>
      dsimp only
      rw [parts_fold_none a cg s.parts _ _ hs]
      exact ih ⟨mem.logs, _⟩ _ hss

variable (P : Physics A K)

theorem evaluate_unlogged {eqv : A → A → Bool} {a : A} {mem : Mem A K} {R : RocketC A K} (hl : R.log = none)
    (ho : ∀ p ∈ allParts R.stages, p.ref = none) (hr : ∀ p, R.recovery = some p → p.ref = none) {r : Mem A K × FMS K}
    (h : evaluate P eqv R a mem = .ok r) :
    r.1.logs = mem.logs ∧ (R.underChute = true → r.1.cell = mem.cell) ∧
      (R.underChute = false → cached eqv mem R.id a = none → ∃ F, r.1.cell = some ((R.id, a), F)) ∧
      (R.underChute = false → cached eqv mem R.id a ≠ none → r.1.cell = mem.cell) := by
  simp only [evaluate, onRocketLog, hl, componentForces] at h
  cases hu : R.underChute with
  | true =>
    rw [hu] at h
    simp only [if_true] at h
    cases hrec : R.recovery with
    | none => rw [hrec] at h; cases h
    | some p =>
      rw [hrec] at h
      simp only [logPart, hr p hrec] at h
      cases h
      simp
  | false =>
    rw [hu] at h
    simp only [Bool.false_eq_true, if_false, rocketForces] at h
    cases hc : cached eqv mem R.id a with
    | some F =>
      rw [hc] at h
      cases h
      simp
    | none =>
      rw [hc] at h
      dsimp only at h
      obtain ⟨c, F, hf⟩ := stages_fold_none eqv a (P.inertia a).cg R.stages mem (FMS.make ⟨0, 0, 0⟩ (some (P.inertia a).cg) none) ho
      rw [hf] at h
      cases h
      simp

/-! ## the invariant -/

/-- How the components of a rocket are connected to the logs; `ts` are the times of the rows of its log. -/
def WiredR (logs : List (Log K (Val K))) (R : RocketC A K) (ts : List K) : Prop :=
  match R.log with
  | none => (∀ p ∈ allParts R.stages, p.ref = none) ∧ ∀ p, R.recovery = some p → p.ref = none
  | some i => ∃ L, logs[i]? = some L ∧ Wired i L (allParts R.stages) ∧ (∀ p, R.recovery = some p → Wired i L [p]) ∧ L.times = ts

structure SimInv (G : Prop) (S : Sim A K) (last : Nat → Option A) (rows : List (List K)) : Prop where
  len : rows.length = S.rockets.length
  idLt : ∀ R ∈ S.rockets, R.id < S.next
  idInj : ∀ (j k : Nat) R R', S.rockets[j]? = some R → S.rockets[k]? = some R' → R.id = R'.id → j = k
  stage : ∀ R ∈ S.rockets, (R.stages.map StageC.id).Nodup ∧ ∀ n ∈ R.stages.map StageC.id, n < S.next ∧ ∀ R' ∈ S.rockets, R'.id ≠ n
  cell : ∀ id a F, S.mem.cell = some ((id, a), F) →
    ∃ (k : Nat) (R : RocketC A K), S.rockets[k]? = some R ∧ R.id = id ∧ (G → R.underChute = false → last k = some a)
  logs : ∀ (i : Nat) L, S.mem.logs[i]? = some L → ∃ T, LogOk G L T
  wired : ∀ (k : Nat) R ts, S.rockets[k]? = some R → rows[k]? = some ts → WiredR S.mem.logs R ts
  logInj : ∀ (j k : Nat) R R' (i : Nat), S.rockets[j]? = some R → S.rockets[k]? = some R' → R.log = some i → R'.log = some i → j = k

theorem getElem?_set_some {α : Type} {l : List α} {k j : Nat} {x y : α} (h : (l.set k x)[j]? = some y) :
    (j = k ∧ y = x ∧ k < l.length) ∨ (j ≠ k ∧ l[j]? = some y) := by
  rw [List.getElem?_set] at h
  split at h
  · rename_i e
    split at h
    · cases h; rename_i h1; exact Or.inl ⟨e.symm, rfl, h1⟩
    · cases h
  · rename_i e; exact Or.inr ⟨fun e' => e e'.symm, h⟩

theorem getElem?_set_here {α : Type} {l : List α} {k : Nat} {y : α} (h : l[k]? = some y) (x : α) : (l.set k x)[k]? = some x := by
  have : k < l.length := by rw [List.getElem?_eq_some_iff] at h; exact h.1
  simp [this]

/-- One rocket and its log change. -/
theorem SimInv.update {S : Sim A K} {last last' : Nat → Option A} {rows : List (List K)} (h : SimInv G S last rows) {k : Nat}
    {R R' : RocketC A K} (hk : S.rockets[k]? = some R) (hid : R'.id = R.id) (hlog : R'.log = R.log)
    (hst : List.Sublist (R'.stages.map StageC.id) (R.stages.map StageC.id)) {logs' : List (Log K (Val K))}
    {cell' : Option ((Nat × A) × FMS K)} {ts' : List K}
    (hlogs : ∀ (i : Nat) L, logs'[i]? = some L → ∃ T, LogOk G L T)
    (hother : ∀ i : Nat, R.log ≠ some i → logs'[i]? = S.mem.logs[i]?) (hw : WiredR logs' R' ts')
    (hcell : ∀ id a F, cell' = some ((id, a), F) → ∃ (j : Nat) (Q : RocketC A K), (S.rockets.set k R')[j]? = some Q ∧ Q.id = id ∧
      (G → Q.underChute = false → last' j = some a)) :
    SimInv G ⟨S.rockets.set k R', ⟨logs', cell'⟩, S.next⟩ last' (rows.set k ts') := by
  have hmem : R ∈ S.rockets := List.mem_of_getElem? hk
  have old : ∀ (j : Nat) Q, (S.rockets.set k R')[j]? = some Q → ∃ Q0, S.rockets[j]? = some Q0 ∧ Q.id = Q0.id ∧ Q.log = Q0.log ∧
      List.Sublist (Q.stages.map StageC.id) (Q0.stages.map StageC.id) := by
    intro j Q hQ
    rcases getElem?_set_some hQ with ⟨rfl, rfl, _⟩ | ⟨_, hQ⟩
    · exact ⟨R, hk, hid, hlog, hst⟩
    · exact ⟨Q, hQ, rfl, rfl, List.Sublist.refl _⟩
  have oldm : ∀ Q ∈ S.rockets.set k R', ∃ Q0 ∈ S.rockets, Q.id = Q0.id ∧
      List.Sublist (Q.stages.map StageC.id) (Q0.stages.map StageC.id) := by
    intro Q hQ
    obtain ⟨j, hj⟩ := List.getElem?_of_mem hQ
    obtain ⟨Q0, h1, h2, _, h3⟩ := old j Q hj
    exact ⟨Q0, List.mem_of_getElem? h1, h2, h3⟩
  refine ⟨by simp [h.len], ?_, ?_, ?_, hcell, hlogs, ?_, ?_⟩
  · intro Q hQ
    obtain ⟨Q0, h1, h2, _⟩ := oldm Q hQ
    dsimp only
    rw [h2]; exact h.idLt Q0 h1
  · intro i j Q Q' hQ hQ' he
    obtain ⟨Q0, h1, h2, _⟩ := old i Q hQ
    obtain ⟨Q0', h1', h2', _⟩ := old j Q' hQ'
    exact h.idInj i j Q0 Q0' h1 h1' (by rw [← h2, ← h2', he])
  · intro Q hQ
    obtain ⟨Q0, h1, h2, h3⟩ := oldm Q hQ
    refine ⟨(h.stage Q0 h1).1.sublist h3, ?_⟩
    intro n hn
    obtain ⟨g1, g2⟩ := (h.stage Q0 h1).2 n (h3.subset hn)
    refine ⟨g1, ?_⟩
    intro Q' hQ'
    obtain ⟨Q1, i1, i2, _⟩ := oldm Q' hQ'
    rw [i2]; exact g2 Q1 i1
  · intro j Q ts hQ hts
    rcases getElem?_set_some hQ with ⟨rfl, rfl, _⟩ | ⟨hj, hQ⟩
    · rcases getElem?_set_some hts with ⟨_, rfl, _⟩ | ⟨hj, _⟩
      · exact hw
      · exact absurd rfl hj
    · rcases getElem?_set_some hts with ⟨hj', _, _⟩ | ⟨_, hts⟩
      · exact absurd hj' hj
      · have := h.wired j Q ts hQ hts
        unfold WiredR at this ⊢
        cases hl : Q.log with
        | none => rw [hl] at this; exact this
        | some i =>
          rw [hl] at this
          obtain ⟨L, g1, g2⟩ := this
          refine ⟨L, ?_, g2⟩
          rw [← g1]
          exact hother i (fun hR => hj (h.logInj j k Q R i hQ hk hl hR))
  · intro i j Q Q' n hQ hQ' hl hl'
    obtain ⟨Q0, h1, _, h2, _⟩ := old i Q hQ
    obtain ⟨Q0', h1', _, h2', _⟩ := old j Q' hQ'
    exact h.logInj i j Q0 Q0' n h1 h1' (by rw [← h2, hl]) (by rw [← h2', hl'])

/-- The cell stays and so do the last arguments. -/
theorem SimInv.cell_keep {S : Sim A K} {last : Nat → Option A} {rows : List (List K)} (h : SimInv G S last rows) {k : Nat}
    {R R' : RocketC A K} (hk : S.rockets[k]? = some R) (hid : R'.id = R.id) (hu : R'.underChute = false → R.underChute = false) :
    ∀ id a F, S.mem.cell = some ((id, a), F) → ∃ (j : Nat) (Q : RocketC A K), (S.rockets.set k R')[j]? = some Q ∧ Q.id = id ∧
      (G → Q.underChute = false → last j = some a) := by
  intro id a F hc
  obtain ⟨j, Q, h1, h2, h3⟩ := h.cell id a F hc
  by_cases hj : j = k
  · subst hj
    rw [hk] at h1; cases h1
    exact ⟨j, R', getElem?_set_here hk R', by rw [hid]; exact h2, fun hG hu' => h3 hG (hu hu')⟩
  · exact ⟨j, Q, by rw [List.getElem?_set_ne (fun e => hj e.symm)]; exact h1, h2, h3⟩

theorem set_same {α : Type} {l : List α} {k : Nat} {x : α} (h : l[k]? = some x) : l.set k x = l := by
  rw [List.getElem?_eq_some_iff] at h
  obtain ⟨h1, h2⟩ := h
  rw [← h2, List.set_getElem_self]

/-! ## the events -/

theorem fillLast_times (f : Name → Val K) (T : Table K (Val K)) : (T.fillLast f).map Row.time = T.map Row.time := by
  rcases table_cases T with rfl | ⟨B, q, rfl⟩
  · rfl
  · rw [fillLast_concat]; simp [Row.fill]

theorem sumZero_force (a : A) (cg : V3 K) (ss : List (StageC A K)) :
    (sumStages a cg (zeroAt cg) ss).force = ((allParts ss).map fun p => (p.force a cg).force).sum := by
  rw [sumStages_force]
  have : (zeroAt cg).force = (0 : V3 K) := rfl
  rw [this, zero_add]

theorem wired_nil (i : Nat) (L : Log K (Val K)) : Wired i L ([] : List (Part A K)) :=
  ⟨fun p hp => (nomatch hp), fun c hc => (nomatch hc), fun c hc => (nomatch hc), List.nodup_nil, List.nodup_nil⟩

theorem names_apart (a : A) (F : FMS K) :
    ((startVals P a ++ flowVals P a).map Prod.fst ++ (endVals P a F).map Prod.fst).Nodup ∧
    ((startVals P a).map Prod.fst ++ (endVals P a F).map Prod.fst).Nodup ∧
    (∀ p ∈ startVals P a ++ flowVals P a, p.1 ∈ rocketNames) ∧ ∀ p ∈ startVals P a, p.1 ∈ rocketNames := by
  have e1 : (startVals P a ++ flowVals P a).map Prod.fst ⊆ rocketNames := by
    simp only [startVals, flowVals, List.map_cons, List.map_nil, List.cons_append, List.nil_append]
    decide +kernel
  have e2 : ∀ p ∈ startVals P a ++ flowVals P a, p.1 ∈ rocketNames := fun p hp => e1 (List.mem_map.2 ⟨p, hp, rfl⟩)
  refine ⟨?_, ?_, e2, fun p hp => e2 p (List.mem_append_left _ hp)⟩
  · simp only [startVals, flowVals, endVals, List.map_cons, List.map_nil, List.cons_append, List.nil_append]
    decide +kernel
  · simp only [startVals, endVals, List.map_cons, List.map_nil, List.cons_append, List.nil_append]
    decide +kernel

theorem SimInv.fresh {S : Sim A K} {last : Nat → Option A} {rows : List (List K)} (h : SimInv G S last rows) {eqv : A → A → Bool}
    {k : Nat} {R : RocketC A K} (hk : S.rockets[k]? = some R) (hu : R.underChute = false) {a : A} {F : FMS K}
    (hc : cached eqv S.mem R.id a = some F) (hG : G) : ∃ a', last k = some a' ∧ eqv a' a = true := by
  unfold cached at hc
  cases hm : S.mem.cell with
  | none => rw [hm] at hc; cases hc
  | some c =>
    obtain ⟨⟨id, a'⟩, F'⟩ := c
    rw [hm] at hc
    dsimp only at hc
    split at hc
    · rename_i he
      obtain ⟨j, Q, h1, h2, h3⟩ := h.cell id a' F' hm
      have := h.idInj j k Q R h1 hk (by rw [h2]; exact he.1)
      subst this
      rw [hk] at h1; cases h1
      exact ⟨a', h3 hG hu, he.2⟩
    · cases hc

theorem SimInv.cell_stage {S : Sim A K} {last : Nat → Option A} {rows : List (List K)} (h : SimInv G S last rows)
    {R : RocketC A K} (hR : R ∈ S.rockets) : ∀ s ∈ R.stages, cellId S.mem ≠ some s.id := by
  intro s hs he
  unfold cellId at he
  cases hm : S.mem.cell with
  | none => rw [hm] at he; cases he
  | some c =>
    obtain ⟨⟨id, a'⟩, F'⟩ := c
    rw [hm] at he
    simp only [Option.map_some, Option.some.injEq] at he
    obtain ⟨j, Q, h1, h2, _⟩ := h.cell id a' F' hm
    exact ((h.stage R hR).2 s.id (List.mem_map.2 ⟨s, hs, rfl⟩)).2 Q (List.mem_of_getElem? h1) (by rw [h2, he])

theorem SimInv.eval {S S' : Sim A K} {last : Nat → Option A} {rows : List (List K)} (h : SimInv G S last rows) {eqv : A → A → Bool}
    {k : Nat} {a : A} (hs : step P eqv S (.eval k a) = .ok S') (hf : G → ∀ a', last k = some a' → eqv a' a = false) :
    SimInv G S' (Function.update last k (some a)) (rows.set k (rows.getD k [] ++ [P.time a])) := by
  simp only [step] at hs
  cases hk : S.rockets[k]? with
  | none => rw [hk] at hs; cases hs
  | some R =>
    rw [hk] at hs
    dsimp only at hs
    cases he : evaluate P eqv R a S.mem with
    | error e => rw [he] at hs; cases hs
    | ok r =>
      rw [he] at hs
      cases hs
      have hR : R ∈ S.rockets := List.mem_of_getElem? hk
      have hkl : k < rows.length := by
        rw [h.len]; rw [List.getElem?_eq_some_iff] at hk; exact hk.1
      have hts : rows[k]? = some (rows.getD k []) := by
        rw [List.getD_eq_getElem?_getD, List.getElem?_eq_getElem hkl]; rfl
      have hw := h.wired k R _ hk hts
      have hset : S.rockets.set k R = S.rockets := set_same hk
      have other : ∀ id a' F, S.mem.cell = some ((id, a'), F) → (G → R.underChute = true ∨ ¬ R.id = id) →
          ∃ (j : Nat) (Q : RocketC A K), (S.rockets.set k R)[j]? = some Q ∧ Q.id = id ∧
            (G → Q.underChute = false → Function.update last k (some a) j = some a') := by
        intro id a' F hc hn
        obtain ⟨j, Q, h1, h2, h3⟩ := h.cell id a' F hc
        refine ⟨j, Q, by rw [hset]; exact h1, h2, fun hG hu => ?_⟩
        by_cases hj : j = k
        · subst hj
          rw [hk] at h1; cases h1
          rcases hn hG with hn | hn
          · rw [hn] at hu; cases hu
          · exact absurd h2 hn
        · rw [Function.update_of_ne hj]; exact h3 hG hu
      have mine : ∀ (F0 : FMS K) (id : Nat) (a' : A) (F : FMS K), some ((R.id, a), F0) = some ((id, a'), F) →
          ∃ (j : Nat) (Q : RocketC A K), (S.rockets.set k R)[j]? = some Q ∧ Q.id = id ∧
            (G → Q.underChute = false → Function.update last k (some a) j = some a') := by
        intro F0 id a' F hc
        cases hc
        exact ⟨k, R, by rw [hset]; exact hk, rfl, fun _ _ => by simp⟩
      have hit : ∀ F0, R.underChute = false → cached eqv S.mem R.id a = some F0 → ¬ G := by
        intro F0 hu hc hG
        obtain ⟨a', g1, g2⟩ := h.fresh hk hu hc hG
        rw [hf hG a' g1] at g2; cases g2
      have fin : ∀ (m : Mem A K), m.logs = r.1.logs → m.cell = r.1.cell → SimInv G ⟨S.rockets.set k R, ⟨m.logs, m.cell⟩, S.next⟩
          (Function.update last k (some a)) (rows.set k (rows.getD k [] ++ [P.time a])) →
          SimInv G { S with mem := r.1 } (Function.update last k (some a)) (rows.set k (rows.getD k [] ++ [P.time a])) := by
        intro m e1 e2 hm
        rw [hset, e1, e2] at hm
        exact hm
      cases hl : R.log with
      | none =>
        unfold WiredR at hw
        rw [hl] at hw
        obtain ⟨g1, g2, g3, g4⟩ := evaluate_unlogged P hl hw.1 hw.2 he
        refine fin r.1 rfl rfl (h.update hk rfl rfl (List.Sublist.refl _) (by rw [g1]; exact h.logs) (by rw [g1]; intros; rfl) ?_ ?_)
        · unfold WiredR; rw [hl]; exact hw
        · cases hu : R.underChute with
          | true => rw [g2 hu]; exact fun id a' F hc => other id a' F hc (fun _ => Or.inl hu)
          | false =>
            cases hc : cached eqv S.mem R.id a with
            | none =>
              obtain ⟨F0, e⟩ := g3 hu hc
              rw [e]; exact mine F0
            | some F0 =>
              rw [g4 hu (by rw [hc]; simp)]
              exact fun id a' F hc' => other id a' F hc' (fun hG => absurd hG (hit F0 hu hc))
      | some i =>
        unfold WiredR at hw
        rw [hl] at hw
        obtain ⟨L, hL, hwp, hwr, ht⟩ := hw
        obtain ⟨T, hT⟩ := h.logs i L hL
        obtain ⟨n1, n2, n3, n4⟩ := names_apart P a (zeroAt 0)
        -- what follows from the new log
        have post : ∀ (L' : Log K (Val K)) (T' : Table K (Val K)) (r' : Row K (Val K)), LogOk G L' (T.fillLast (fillOf L) ++ [r']) →
            r'.time = P.time a → Dict.keys L'.cols = Dict.keys L.cols → ∀ c : Option ((Nat × A) × FMS K),
            (∀ id a' F, c = some ((id, a'), F) → ∃ (j : Nat) (Q : RocketC A K), (S.rockets.set k R)[j]? = some Q ∧ Q.id = id ∧
              (G → Q.underChute = false → Function.update last k (some a) j = some a')) →
            SimInv G ⟨S.rockets.set k R, ⟨(putLog S.mem i L').logs, c⟩, S.next⟩ (Function.update last k (some a))
              (rows.set k (rows.getD k [] ++ [P.time a])) := by
          intro L' _ r' q1 q2 q3 c hc
          refine h.update hk rfl rfl (List.Sublist.refl _) ?_ ?_ ?_ hc
          · intro j M hM
            rcases getElem?_set_some hM with ⟨rfl, rfl, _⟩ | ⟨_, hM⟩
            · exact ⟨_, q1⟩
            · exact h.logs j M hM
          · intro j hj
            have : i ≠ j := fun e => hj (by rw [hl, e])
            simp [putLog, List.getElem?_set_ne this]
          · unfold WiredR
            rw [hl]
            have sub : Dict.keys L.cols ⊆ Dict.keys L'.cols := by rw [q3]; exact fun _ h => h
            refine ⟨L', putLog_get hL L', hwp.mono sub, fun p hp => (hwr p hp).mono sub, ?_⟩
            rw [q1.rep.times, List.map_append, fillLast_times, ← hT.rep.times, ht]
            simp [q2]
        cases hu : R.underChute with
        | true =>
          cases hrec : R.recovery with
          | none =>
            exfalso
            simp only [evaluate, componentForces, hu, if_true, hrec] at he
            split at he <;> cases he
          | some p =>
            rw [evaluate_chute P hl hu hL hrec (hwr p hrec).own] at he
            cases hrun : LogM.run (evalOps (P.time a) (startVals P a ++ partVals a ⟨0, 0, -1⟩ [p] ++
                endVals P a (p.force a ⟨0, 0, -1⟩))) L with
            | error e => rw [hrun] at he; cases he
            | ok L' =>
              rw [hrun] at he
              cases he
              obtain ⟨r', q1, q2, q3, _⟩ := logOk_eval P hT (hwr p hrec) a ⟨0, 0, -1⟩ (p.force a ⟨0, 0, -1⟩) (by simp) (startVals P a) n4
                (names_apart P a _).2.1 hrun
              exact fin _ rfl rfl (post L' T r' q1 q2 q3 S.mem.cell fun id a' F hc => other id a' F hc (fun _ => Or.inl hu))
        | false =>
          cases hc : cached eqv S.mem R.id a with
          | none =>
            rw [evaluate_fresh P hl hu hL hwp.own (h.stage R hR).1 (h.cell_stage hR) hc] at he
            cases hrun : LogM.run (evalOps (P.time a) (startVals P a ++ flowVals P a ++ partVals a (P.inertia a).cg (allParts R.stages) ++
                endVals P a (sumStages a (P.inertia a).cg (zeroAt (P.inertia a).cg) R.stages))) L with
            | error e => rw [hrun] at he; cases he
            | ok L' =>
              rw [hrun] at he
              cases he
              obtain ⟨r', q1, q2, q3, _⟩ := logOk_eval P hT hwp a (P.inertia a).cg _ (fun _ => sumZero_force a _ R.stages) _ n3
                (names_apart P a _).1 hrun
              exact fin _ rfl rfl (post L' T r' q1 q2 q3 _ (mine _))
          | some F0 =>
            rw [evaluate_again P hl hu hL hc] at he
            cases hrun : LogM.run (evalOps (P.time a) (startVals P a ++ flowVals P a ++ endVals P a F0)) L with
            | error e => rw [hrun] at he; cases he
            | ok L' =>
              rw [hrun] at he
              cases he
              obtain ⟨r', q1, q2, q3, _⟩ := logOk_eval P hT (wired_nil (A := A) i L) a (P.inertia a).cg F0 (fun hG => absurd hG (hit F0 hu hc))
                _ n3 (names_apart P a _).1 (by simpa [partVals] using hrun)
              exact fin _ rfl rfl (post L' T r' q1 q2 q3 S.mem.cell fun id a' F hc' =>
                other id a' F hc' (fun hG => absurd hG (hit F0 hu hc)))

end
end Mapleaf.FLog
