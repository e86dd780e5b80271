import Verif.Log.ForceLogSimProps

/-!
# C90: the force logs of a whole simulation, all events
-/

namespace Mapleaf.FLog
open Mapleaf.Motion Mapleaf.LogM

section
variable {A K : Type} [Field K] [LinearOrder K] {G : Prop}

/-! ## separation and deployment -/

theorem SimInv.rows_same {S : Sim A K} {last : Nat → Option A} {rows : List (List K)} (h : SimInv G S last rows) {k : Nat}
    {R : RocketC A K} (hk : S.rockets[k]? = some R) : rows[k]? = some (rows.getD k []) ∧ rows.set k (rows.getD k []) = rows := by
  have hkl : k < rows.length := by
    rw [h.len]; rw [List.getElem?_eq_some_iff] at hk; exact hk.1
  have hts : rows[k]? = some (rows.getD k []) := by
    rw [List.getD_eq_getElem?_getD, List.getElem?_eq_getElem hkl]; rfl
  exact ⟨hts, set_same hts⟩

theorem allParts_append (ss tt : List (StageC A K)) : allParts (ss ++ tt) = allParts ss ++ allParts tt := by simp [allParts]

theorem allParts_dropLast (ss : List (StageC A K)) : List.Sublist (allParts ss.dropLast) (allParts ss) :=
  (List.dropLast_sublist ss).flatMap _

theorem WiredR.drop {logs : List (Log K (Val K))} {R : RocketC A K} {ts : List K} (h : WiredR logs R ts) :
    WiredR logs (dropStage R) ts := by
  unfold WiredR at h ⊢
  have : (dropStage R).log = R.log := rfl
  rw [this]
  cases hl : R.log with
  | none =>
    rw [hl] at h
    exact ⟨fun p hp => h.1 p ((allParts_dropLast R.stages).subset hp), h.2⟩
  | some i =>
    rw [hl] at h
    obtain ⟨L, h1, h2, h3, h4⟩ := h
    exact ⟨L, h1, h2.sub (allParts_dropLast R.stages), h3, h4⟩

theorem SimInv.deploy {S : Sim A K} {last : Nat → Option A} {rows : List (List K)} (h : SimInv G S last rows) {k : Nat}
    {R : RocketC A K} (hk : S.rockets[k]? = some R) :
    SimInv G { S with rockets := S.rockets.set k (FLog.deploy R) } last rows := by
  obtain ⟨h1, h2⟩ := h.rows_same hk
  have := h.update (R' := FLog.deploy R) hk rfl rfl (List.Sublist.refl _) h.logs (fun _ _ => rfl) (h.wired k R _ hk h1)
    (h.cell_keep (R' := FLog.deploy R) hk rfl (fun hu => by cases hu))
  rw [h2] at this
  exact this

theorem SimInv.drop {S : Sim A K} {last : Nat → Option A} {rows : List (List K)} (h : SimInv G S last rows) {k : Nat}
    {R : RocketC A K} (hk : S.rockets[k]? = some R) :
    SimInv G { S with rockets := S.rockets.set k (dropStage R) } last rows := by
  obtain ⟨h1, h2⟩ := h.rows_same hk
  have := h.update (R' := dropStage R) hk rfl rfl ((List.dropLast_sublist _).map _) h.logs (fun _ _ => rfl) (h.wired k R _ hk h1).drop
    (h.cell_keep (R' := dropStage R) hk rfl (fun hu => hu))
  rw [h2] at this
  exact this

theorem SimInv.tail {S : Sim A K} {last : Nat → Option A} {rows : List (List K)} (h : SimInv G S last rows) {k : Nat}
    {R R' : RocketC A K} {f : A → V3 K → FMS K} {m : Mem A K} (hk : S.rockets[k]? = some R)
    (ht : addTail R f S.mem = .ok (m, R')) :
    SimInv G { S with mem := m, rockets := S.rockets.set k R' } last rows := by
  obtain ⟨h1, h2⟩ := h.rows_same hk
  have hw := h.wired k R _ hk h1
  unfold addTail at ht
  cases hg : R.stages.getLast? with
  | none => rw [hg] at ht; cases ht
  | some s =>
    rw [hg] at ht
    dsimp only at ht
    have hss : R.stages = R.stages.dropLast ++ [s] := (List.dropLast_append_getLast? s hg).symm
    have hids : ∀ q, List.Sublist ((R.stages.dropLast ++ [{ s with parts := s.parts ++ [q] }]).map StageC.id) (R.stages.map StageC.id) := by
      intro q
      have : (R.stages.dropLast ++ [{ s with parts := s.parts ++ [q] }]).map StageC.id = R.stages.map StageC.id := by
        conv_rhs => rw [hss]
        simp
      rw [this]
    have hparts : ∀ q, allParts (R.stages.dropLast ++ [{ s with parts := s.parts ++ [q] }]) = allParts R.stages ++ [q] := by
      intro q
      conv_rhs => rw [hss]
      simp [allParts]
    unfold WiredR at hw
    cases hl : R.log with
    | none =>
      rw [hl] at ht hw
      cases ht
      have := h.update (R' := { R with stages := R.stages.dropLast ++ [{ s with parts := s.parts ++ [⟨f, none⟩] }] }) hk rfl rfl (hids _)
        (logs' := S.mem.logs) (cell' := S.mem.cell) (ts' := rows.getD k []) h.logs (fun _ _ => rfl) (by
          unfold WiredR
          dsimp only
          rw [hl]
          refine ⟨?_, hw.2⟩
          rw [hparts]
          intro p hp
          rcases List.mem_append.1 hp with hp | hp
          · exact hw.1 p hp
          · rw [List.mem_singleton] at hp; subst hp; rfl)
        (h.cell_keep hk rfl (fun hu => hu))
      rw [h2] at this
      simp only [hl] at this
      exact this
    | some i =>
      rw [hl] at ht hw
      obtain ⟨L, hL, hwp, hwr, hts⟩ := hw
      dsimp only at ht
      rw [hL] at ht
      dsimp only at ht
      cases hi : initLogging (some (i, L)) "FakeRocketName.Auto-AddedZeroLengthBoatTail".toList with
      | error e => rw [hi] at ht; cases ht
      | ok x =>
        obtain ⟨o, r⟩ := x
        rw [hi] at ht
        obtain ⟨T, hT⟩ := h.logs i L hL
        obtain ⟨L', n, T', rfl, -, hr, g1, g2, g3, g4, g5⟩ := initLogging_ok (A := A) hT hi
        cases ht
        have sub : Dict.keys L.cols ⊆ Dict.keys L'.cols := by rw [g3]; exact List.subset_append_left _ _
        have := h.update (R' := { R with stages := R.stages.dropLast ++ [{ s with parts := s.parts ++ [⟨f, r⟩] }] }) hk rfl rfl (hids _)
          (logs' := S.mem.logs.set i L') (cell' := S.mem.cell) (ts' := rows.getD k []) (by
            intro j M hM
            rcases getElem?_set_some hM with ⟨rfl, rfl, _⟩ | ⟨_, hM⟩
            · exact ⟨_, g1⟩
            · exact h.logs j M hM) (by
            intro j hj
            have : i ≠ j := fun e => hj (by rw [hl, e])
            rw [List.getElem?_set_ne this]) (by
            unfold WiredR
            dsimp only
            rw [hl]
            refine ⟨L', getElem?_set_here hL L', ?_, fun p hp => (hwr p hp).mono sub, by rw [g2, hts]⟩
            rw [hparts]
            refine hwp.append (g4 f) sub ?_
            intro c hc
            rw [hr] at hc
            refine g5 c ?_
            simpa [fNames, mNames] using hc)
          (h.cell_keep hk rfl (fun hu => hu))
        rw [h2] at this
        simp only [hl] at this
        exact this

/-! ## creation -/

theorem withIds_ids : ∀ (pss : List (List (Part A K))) (n : Nat), (withIds n pss).map StageC.id = List.range' n pss.length
  | [], n => rfl
  | ps :: pss, n => by
    rw [withIds, List.map_cons, withIds_ids pss (n + 1), List.length_cons, List.range'_succ]

theorem withIds_parts : ∀ (pss : List (List (Part A K))) (n : Nat), allParts (withIds n pss) = pss.flatten
  | [], n => rfl
  | ps :: pss, n => by
    have := withIds_parts pss (n + 1)
    simp only [allParts] at this
    simp [withIds, allParts, this]

theorem getElem?_concat_some {α : Type} {l : List α} {j : Nat} {x y : α} (h : (l ++ [x])[j]? = some y) :
    l[j]? = some y ∨ (j = l.length ∧ y = x) := by
  rw [List.getElem?_append] at h
  split at h
  · exact Or.inl h
  · rename_i hj
    right
    rw [List.getElem?_singleton] at h
    split at h
    · cases h; exact ⟨by omega, rfl⟩
    · cases h

theorem SimInv.add {S : Sim A K} {last : Nat → Option A} {rows : List (List K)} (h : SimInv G S last rows) {level : Int}
    {stages : List (List (Str × (A → V3 K → FMS K)))} {rec : Option Nat} {S' : Sim A K} (hc : create level stages rec S = .ok S') :
    SimInv G S' last (rows ++ [[]]) := by
  -- the outcome
  have key : ∃ (pss : List (List (Part A K))) (log : Option Nat) (logs : List (Log K (Val K))),
      S' = ⟨S.rockets ++ [⟨S.next, withIds (S.next + 1) pss, log, rec.bind fun k => pss.flatten[k]?, false⟩],
        { S.mem with logs := logs }, S.next + 1 + pss.length⟩ ∧
      (∀ (i : Nat) L, S.mem.logs[i]? = some L → logs[i]? = some L) ∧ (∀ (i : Nat) L, logs[i]? = some L → ∃ T, LogOk G L T) ∧
      (∀ i : Nat, log = some i → i = S.mem.logs.length) ∧
      WiredR logs (⟨S.next, withIds (S.next + 1) pss, log, rec.bind fun k => pss.flatten[k]?, false⟩ : RocketC A K) [] := by
    unfold create at hc
    rw [newForceLog_spec] at hc
    dsimp only at hc
    by_cases hlv : level > 1
    · rw [if_pos hlv] at hc
      simp only [Option.map_some] at hc
      cases hb : buildAll (some (S.mem.logs.length, startLog)) stages with
      | error e => rw [hb] at hc; cases hc
      | ok x =>
        obtain ⟨o, pss⟩ := x
        rw [hb] at hc
        obtain ⟨L', T', rfl, g1, g2, -, g4, -⟩ := buildAll_ok stages (startLog_ok (G := G)) hb
        simp only [Option.map_some] at hc
        refine ⟨pss, some S.mem.logs.length, S.mem.logs ++ [L'], (Except.ok.inj hc).symm, ?_, ?_, ?_, ?_⟩
        · intro i L hL
          rw [List.getElem?_append_left (List.getElem?_eq_some_iff.1 hL).1]; exact hL
        · intro i L hL
          rcases getElem?_concat_some hL with hL | ⟨_, rfl⟩
          · exact h.logs i L hL
          · exact ⟨T', g1⟩
        · intro i hi; cases hi; rfl
        · unfold WiredR
          dsimp only
          refine ⟨L', by simp, ?_, ?_, g2⟩
          · rw [withIds_parts]; exact g4
          · intro p hp
            cases rec with
            | none => cases hp
            | some k =>
              simp only [Option.bind_some] at hp
              exact g4.sub (List.singleton_sublist.2 (List.mem_of_getElem? hp))
    · rw [if_neg hlv] at hc
      simp only [Option.map_none] at hc
      obtain ⟨pss, hb, hn⟩ := buildAll_none (A := A) (K := K) stages
      rw [hb] at hc
      simp only [Option.map_none] at hc
      refine ⟨pss, none, S.mem.logs, (Except.ok.inj hc).symm, fun _ _ hL => hL, h.logs, fun i hi => (nomatch hi), ?_⟩
      unfold WiredR
      dsimp only
      rw [withIds_parts]
      refine ⟨hn, ?_⟩
      intro p hp
      cases rec with
      | none => cases hp
      | some k =>
        simp only [Option.bind_some] at hp
        exact hn p (List.mem_of_getElem? hp)
  obtain ⟨pss, log, logs, rfl, k1, k2, k3, k4⟩ := key
  have hids := withIds_ids pss (S.next + 1)
  refine ⟨by simp [h.len], ?_, ?_, ?_, ?_, k2, ?_, ?_⟩
  · intro R hR
    dsimp only at hR ⊢
    rcases List.mem_append.1 hR with hR | hR
    · have := h.idLt R hR; omega
    · rw [List.mem_singleton] at hR; subst hR; dsimp only; omega
  · intro i j R R' hR hR' he
    rcases getElem?_concat_some hR with hR | ⟨rfl, rfl⟩
    · rcases getElem?_concat_some hR' with hR' | ⟨rfl, rfl⟩
      · exact h.idInj i j R R' hR hR' he
      · have := h.idLt R (List.mem_of_getElem? hR)
        dsimp only at he; omega
    · rcases getElem?_concat_some hR' with hR' | ⟨rfl, rfl⟩
      · have := h.idLt R' (List.mem_of_getElem? hR')
        dsimp only at he; omega
      · rfl
  · intro R hR
    dsimp only at hR ⊢
    rcases List.mem_append.1 hR with hR | hR
    · refine ⟨(h.stage R hR).1, ?_⟩
      intro n hn
      obtain ⟨g1, g2⟩ := (h.stage R hR).2 n hn
      refine ⟨by omega, ?_⟩
      intro R' hR'
      rcases List.mem_append.1 hR' with hR' | hR'
      · exact g2 R' hR'
      · rw [List.mem_singleton] at hR'; subst hR'; dsimp only; omega
    · rw [List.mem_singleton] at hR
      subst hR
      dsimp only
      rw [hids]
      refine ⟨List.nodup_range', ?_⟩
      intro n hn
      rw [List.mem_range'_1] at hn
      refine ⟨by omega, ?_⟩
      intro R' hR'
      rcases List.mem_append.1 hR' with hR' | hR'
      · have := h.idLt R' hR'; omega
      · rw [List.mem_singleton] at hR'; subst hR'; dsimp only; omega
  · intro id a F hcell
    obtain ⟨j, Q, g1, g2, g3⟩ := h.cell id a F hcell
    refine ⟨j, Q, ?_, g2, g3⟩
    dsimp only
    rw [List.getElem?_append_left (List.getElem?_eq_some_iff.1 g1).1]; exact g1
  · intro j R ts hR hts
    rcases getElem?_concat_some hR with hR | ⟨rfl, rfl⟩
    · rcases getElem?_concat_some hts with hts | ⟨hj, rfl⟩
      · have := h.wired j R ts hR hts
        unfold WiredR at this ⊢
        cases hl : R.log with
        | none => rw [hl] at this; exact this
        | some i =>
          rw [hl] at this
          obtain ⟨L, g1, g2⟩ := this
          exact ⟨L, k1 i L g1, g2⟩
      · have := (List.getElem?_eq_some_iff.1 hR).1
        have := h.len; omega
    · rcases getElem?_concat_some hts with hts | ⟨hj, rfl⟩
      · have := (List.getElem?_eq_some_iff.1 hts).1
        have := h.len; omega
      · exact k4
  · intro i j R R' n hR hR' hl hl'
    have old : ∀ (j : Nat) R, S.rockets[j]? = some R → R.log = some n → n < S.mem.logs.length := by
      intro j R hR hl
      have hj := (List.getElem?_eq_some_iff.1 hR).1
      have := h.wired j R _ hR (List.getElem?_eq_getElem (by rw [h.len]; exact hj))
      unfold WiredR at this
      rw [hl] at this
      obtain ⟨L, g1, _⟩ := this
      exact (List.getElem?_eq_some_iff.1 g1).1
    rcases getElem?_concat_some hR with hR | ⟨rfl, rfl⟩
    · rcases getElem?_concat_some hR' with hR' | ⟨rfl, rfl⟩
      · exact h.logInj i j R R' n hR hR' hl hl'
      · have := old i R hR hl
        have := k3 n hl'; omega
    · rcases getElem?_concat_some hR' with hR' | ⟨rfl, rfl⟩
      · have := old j R' hR' hl'
        have := k3 n hl; omega
      · rfl

/-! ## discarding evaluations -/

/-- One row is deleted from the log of each of the rockets. -/
def deleteRound (rockets : List (RocketC A K)) (mem : Mem A K) : Except PyErr (Mem A K) :=
  rockets.foldlM (fun m (R : RocketC A K) =>
    match R.log with
    | none => .error .attributeError
    | some i => onLog m i (fun L => .ok (deleteLastRow L))) mem

theorem discard_zero (rockets : List (RocketC A K)) (mem : Mem A K) : discard 0 rockets mem = .ok mem := rfl

theorem discard_succ (n : Nat) (rockets : List (RocketC A K)) (mem : Mem A K) :
    discard (n + 1) rockets mem = (deleteRound rockets mem).bind (discard n rockets) := by
  unfold discard deleteRound
  rw [List.replicate_succ, List.flatten_cons, List.foldlM_append]
  rfl

theorem deleteRound_spec : ∀ (rockets : List (RocketC A K)) (mem m : Mem A K), (rockets.filterMap RocketC.log).Nodup →
    deleteRound rockets mem = .ok m → m.cell = mem.cell ∧ (∀ R ∈ rockets, R.log ≠ none) ∧
      (∀ i : Nat, i ∈ rockets.filterMap RocketC.log → m.logs[i]? = (mem.logs[i]?).map deleteLastRow) ∧
      ∀ i : Nat, i ∉ rockets.filterMap RocketC.log → m.logs[i]? = mem.logs[i]? := by
  intro rockets
  induction rockets with
  | nil =>
    intro mem m _ h
    cases h
    exact ⟨rfl, fun R hR => (nomatch hR), fun i hi => (nomatch hi), fun _ _ => rfl⟩
  | cons R Rs ih =>
    intro mem m hn h
    unfold deleteRound at h
    rw [List.foldlM_cons] at h
    cases hl : R.log with
    | none => rw [hl] at h; cases h
    | some i =>
      rw [hl] at h
      rw [List.filterMap_cons_some hl, List.nodup_cons] at hn
      dsimp only at h
      cases hL : mem.logs[i]? with
      | none => simp [onLog, hL, bind, Except.bind] at h
      | some L =>
        rw [onLog_some hL] at h
        simp only [Except.map, bind, Except.bind] at h
        obtain ⟨g1, g2, g3, g4⟩ := ih _ m hn.2 h
        refine ⟨g1, ?_, ?_, ?_⟩
        · intro Q hQ
          rcases List.mem_cons.1 hQ with rfl | hQ
          · rw [hl]; simp
          · exact g2 Q hQ
        · intro j hj
          rw [List.filterMap_cons_some hl, List.mem_cons] at hj
          by_cases hji : j = i
          · subst hji
            rw [g4 j hn.1, putLog_get hL, hL]; rfl
          · have hj' := hj.resolve_left hji
            rw [g3 j hj', putLog, List.getElem?_set_ne (fun e => hji e.symm)]
        · intro j hj
          rw [List.filterMap_cons_some hl, List.mem_cons, not_or] at hj
          rw [g4 j hj.2, putLog, List.getElem?_set_ne (fun e => hj.1 e.symm)]

theorem SimInv.logNodup {S : Sim A K} {last : Nat → Option A} {rows : List (List K)} (h : SimInv G S last rows) :
    (S.rockets.filterMap RocketC.log).Nodup := by
  have gen : ∀ l : List (RocketC A K), (∀ (j k : Nat) R R' (i : Nat), l[j]? = some R → l[k]? = some R' → R.log = some i →
      R'.log = some i → j = k) → (l.filterMap RocketC.log).Nodup := by
    intro l
    induction l with
    | nil => intro _; exact List.nodup_nil
    | cons R l ih =>
      intro hi
      have ih' := ih (by
        intro j k Q Q' i hQ hQ' hl hl'
        have := hi (j + 1) (k + 1) Q Q' i (by simpa using hQ) (by simpa using hQ') hl hl'
        omega)
      cases hl : R.log with
      | none => rw [List.filterMap_cons_none hl]; exact ih'
      | some i =>
        rw [List.filterMap_cons_some hl, List.nodup_cons]
        refine ⟨?_, ih'⟩
        intro hm
        obtain ⟨Q, hQ, hlQ⟩ := List.mem_filterMap.1 hm
        obtain ⟨j, hj⟩ := List.getElem?_of_mem hQ
        have := hi 0 (j + 1) R Q i (by simp) (by simpa using hj) hl hlQ
        omega
  exact gen _ h.logInj

theorem Wired.keys {i : Nat} {L L' : Log K (Val K)} {ps : List (Part A K)} (h : Wired i L ps)
    (hs : Dict.keys L'.cols = Dict.keys L.cols) : Wired i L' ps := h.mono (by rw [hs]; exact fun _ h => h)

theorem SimInv.round {S : Sim A K} {last : Nat → Option A} {rows : List (List K)} (h : SimInv G S last rows) {m : Mem A K}
    (hd : deleteRound S.rockets S.mem = .ok m) : SimInv G { S with mem := m } last (rows.map List.dropLast) := by
  obtain ⟨g1, g2, g3, g4⟩ := deleteRound_spec S.rockets S.mem m h.logNodup hd
  refine ⟨by simp [h.len], h.idLt, h.idInj, h.stage, ?_, ?_, ?_, h.logInj⟩
  · dsimp only; rw [g1]; exact h.cell
  · intro i L hL
    dsimp only at hL
    by_cases hi : i ∈ S.rockets.filterMap RocketC.log
    · rw [g3 i hi] at hL
      cases hL' : S.mem.logs[i]? with
      | none => rw [hL'] at hL; cases hL
      | some L0 =>
        rw [hL'] at hL
        cases hL
        obtain ⟨T, hT⟩ := h.logs i L0 hL'
        exact ⟨_, logOk_delete hT⟩
    · rw [g4 i hi] at hL; exact h.logs i L hL
  · intro k R ts hR hts
    rw [List.getElem?_map] at hts
    cases hts0 : rows[k]? with
    | none => rw [hts0] at hts; cases hts
    | some ts0 =>
      rw [hts0] at hts
      cases hts
      have := h.wired k R ts0 hR hts0
      have hmem : R ∈ S.rockets := List.mem_of_getElem? hR
      unfold WiredR at this ⊢
      cases hl : R.log with
      | none => exact absurd hl (g2 R hmem)
      | some i =>
        rw [hl] at this
        obtain ⟨L, q1, q2, q3, q4⟩ := this
        dsimp only
        refine ⟨deleteLastRow L, ?_, q2.keys (deleteLastRow_keys L), fun p hp => (q3 p hp).keys (deleteLastRow_keys L), ?_⟩
        · rw [g3 i (List.mem_filterMap.2 ⟨R, hmem, hl⟩), q1]; rfl
        · rw [deleteLastRow_times, q4]

/-- Taking `n` elements off the end. -/
def dropEnd {α : Type} : Nat → List α → List α
  | 0, l => l
  | n + 1, l => dropEnd n l.dropLast

theorem dropEnd_spec {α : Type} : ∀ (n : Nat) (l : List α), dropEnd n l = l.take (l.length - n)
  | 0, l => by simp [dropEnd]
  | n + 1, l => by
    rw [dropEnd, dropEnd_spec n, List.dropLast_eq_take, List.take_take, List.length_take]
    congr 1
    omega

theorem SimInv.discard {last : Nat → Option A} : ∀ (n : Nat) {S : Sim A K} {rows : List (List K)} (_ : SimInv G S last rows) {m : Mem A K}
    (_ : discard n S.rockets S.mem = .ok m), SimInv G { S with mem := m } last (rows.map fun ts => ts.take (ts.length - n)) := by
  intro n
  induction n with
  | zero =>
    intro S rows h m hd
    cases hd
    simpa using h
  | succ n ih =>
    intro S rows h m hd
    rw [discard_succ] at hd
    cases hr : deleteRound S.rockets S.mem with
    | error e => rw [hr] at hd; cases hd
    | ok m1 =>
      rw [hr] at hd
      have h1 := ih (h.round hr) hd
      rw [List.map_map] at h1
      have e : ((fun ts : List K => ts.take (ts.length - n)) ∘ List.dropLast) = fun ts : List K => ts.take (ts.length - (n + 1)) := by
        funext ts
        rw [← dropEnd_spec (n + 1) ts, dropEnd, dropEnd_spec]
        rfl
      rw [e] at h1
      exact h1

/-! ## a whole simulation -/

variable (P : Physics A K)

/-- The arguments of the evaluations of rocket `k`, in order. -/
def evalsOf (k : Nat) (evs : List (Ev A K)) : List A := evs.filterMap fun e => match e with
  | .eval j a => if j = k then some a else none
  | _ => none

/-- The times of the rows of the log of each rocket, after an event: an evaluation adds one, discarding takes the last ones from ALL
logs, a new rocket has none. -/
def timesStep (rows : List (List K)) : Ev A K → List (List K)
  | .eval k a => rows.set k (rows.getD k [] ++ [P.time a])
  | .discard n => rows.map fun ts => ts.take (ts.length - n)
  | .create _ _ _ => rows ++ [[]]
  | _ => rows

theorem SimInv.start : SimInv G (Sim.start : Sim A K) (fun _ => none) [] := by
  refine ⟨rfl, ?_, ?_, ?_, ?_, ?_, ?_, ?_⟩
  · intro R hR; cases hR
  · intro j k R R' hR; simp [Sim.start] at hR
  · intro R hR; cases hR
  · intro id a F hc; cases hc
  · intro i L hL; simp [Sim.start] at hL
  · intro j R ts hR; simp [Sim.start] at hR
  · intro j k R R' n hR; simp [Sim.start] at hR

theorem run_inv_of {eqv : A → A → Bool} : ∀ (evs : List (Ev A K)) {S S' : Sim A K} {last : Nat → Option A} {rows : List (List K)},
    SimInv G S last rows → run P eqv S evs = .ok S' →
    (G → ∀ k, ((last k).toList ++ evalsOf k evs).IsChain fun a b => eqv a b = false) →
    ∃ last', SimInv G S' last' (evs.foldl (timesStep P) rows) := by
  intro evs
  induction evs with
  | nil => intro S S' last rows h hr _; cases hr; exact ⟨last, h⟩
  | cons e evs ih =>
    intro S S' last rows h hr hch
    unfold run at hr
    rw [List.foldlM_cons] at hr
    cases hs : step P eqv S e with
    | error x => rw [hs] at hr; cases hr
    | ok S1 =>
      rw [hs] at hr
      rw [List.foldl_cons]
      cases e with
      | eval k a =>
        have hk : evalsOf k (Ev.eval k a :: evs) = a :: evalsOf k evs := by simp [evalsOf]
        have h1 := h.eval P hs (by
          intro hG a' ha'
          have := hch hG k
          rw [hk, ha'] at this
          simp only [Option.toList_some, List.cons_append, List.nil_append] at this
          exact (List.isChain_cons_cons.1 this).1)
        refine ih h1 hr ?_
        intro hG j
        by_cases hj : j = k
        · subst hj
          have := hch hG j
          rw [hk] at this
          rw [Function.update_self]
          exact (List.isChain_append.1 this).2.1
        · rw [Function.update_of_ne hj]
          have := hch hG j
          have e : evalsOf j (Ev.eval k a :: evs) = evalsOf j evs := by
            unfold evalsOf
            rw [List.filterMap_cons_none]
            exact if_neg fun e : k = j => hj e.symm
          rw [e] at this
          exact this
      | discard n =>
        simp only [step] at hs
        cases hd : FLog.discard n S.rockets S.mem with
        | error x => rw [hd] at hs; cases hs
        | ok m =>
          rw [hd] at hs
          cases hs
          exact ih (SimInv.discard n h hd) hr hch
      | drop k tail =>
        simp only [step] at hs
        cases hk : S.rockets[k]? with
        | none => rw [hk] at hs; cases hs
        | some R =>
          rw [hk] at hs
          dsimp only at hs
          cases tail with
          | none =>
            simp only [separation] at hs
            cases hs
            exact ih (h.drop hk) hr hch
          | some f =>
            simp only [separation] at hs
            cases ht : addTail (dropStage R) f S.mem with
            | error x => rw [ht] at hs; cases hs
            | ok x =>
              obtain ⟨m, R'⟩ := x
              rw [ht] at hs
              cases hs
              have h1 := (h.drop hk).tail (k := k) (R := dropStage R) (R' := R') (f := f) (m := m) (getElem?_set_here hk _) ht
              dsimp only at h1
              rw [List.set_set] at h1
              exact ih h1 hr hch
      | deploy k =>
        simp only [step] at hs
        cases hk : S.rockets[k]? with
        | none => rw [hk] at hs; cases hs
        | some R =>
          rw [hk] at hs
          cases hs
          exact ih (h.deploy hk) hr hch
      | create level stages rec =>
        exact ih (h.add hs) hr hch

/-- **C90: one row for every evaluation.** In any simulation, the rows of the force log of a rocket are those of its force evaluations, in
order, except that discarding takes as many rows from the logs of all rockets. -/
theorem log_rows {eqv : A → A → Bool} {evs : List (Ev A K)} {S : Sim A K} (h : run P eqv Sim.start evs = .ok S) :
    ∀ (k : Nat) R (i : Nat), S.rockets[k]? = some R → R.log = some i → ∃ L, S.mem.logs[i]? = some L ∧
      (evs.foldl (timesStep P) [])[k]? = some L.times := by
  obtain ⟨last, hi⟩ := run_inv_of (G := False) P evs SimInv.start h (fun hG => hG.elim)
  intro k R i hR hl
  have hk := (List.getElem?_eq_some_iff.1 hR).1
  have hts := List.getElem?_eq_getElem (l := evs.foldl (timesStep P) []) (i := k) (by rw [hi.len]; exact hk)
  have := hi.wired k R _ hR hts
  unfold WiredR at this
  rw [hl] at this
  obtain ⟨L, h1, _, _, h2⟩ := this
  exact ⟨L, h1, by rw [hts, h2]⟩

/-- **C90: the forces of the components add up (partial).** In any simulation in which no rocket is evaluated twice in a row with the same
arguments, every force log can be written, and in every row the columns of the components add up to the aerodynamic force. -/
theorem rows_add_up_partial {eqv : A → A → Bool} {evs : List (Ev A K)} {S : Sim A K} (h : run P eqv Sim.start evs = .ok S)
    (hd : ∀ k, (evalsOf k evs).IsChain fun a b => eqv a b = false) :
    ∀ (i : Nat) L, S.mem.logs[i]? = some L → ∃ rows, writeRows L = .ok rows ∧ rows.length = L.times.length ∧
      ∀ row ∈ rows, ∃ F : Name → V3 K, (∀ c ∈ "AeroF(N)".toList :: forceColumns L, ∀ v, (c, v) ∈ row.2 ↔ v = .vec (F c)) ∧
        F "AeroF(N)".toList = ((forceColumns L).map F).sum := by
  obtain ⟨last, hi⟩ := run_inv_of (G := True) P evs SimInv.start h (fun _ k => by simpa using hd k)
  intro i L hL
  obtain ⟨T, hT⟩ := hi.logs i L hL
  obtain ⟨rows, h1, h2, h3⟩ := written_cells hT.inv hT.rep
  refine ⟨rows, h1, by rw [h2, hT.rep.times, List.length_map], ?_⟩
  intro row hrow
  obtain ⟨n, hn, rfl⟩ := List.mem_iff_getElem.1 hrow
  have hn2 : n < T.length := by omega
  obtain ⟨_, h4⟩ := h3 n hn hn2
  have hadd := addsUp_fill (hT.fill _ List.mem_cons_self) (fun c hc => hT.fill c (List.mem_cons_of_mem _ hc))
    (hT.rows trivial _ (List.getElem_mem hn2))
  refine ⟨fun c => vecOf ((T[n].fill (fillOf L)).cell c), ?_, hadd.sum⟩
  intro c hc v
  have hk : c ∈ Dict.keys L.cols := by
    rcases List.mem_cons.1 hc with rfl | hc
    · exact hT.base (by decide +kernel)
    · exact (mem_forceColumns.1 hc).1
  rw [h4 c hk v]
  have hcell : (T[n].fill (fillOf L)).cell c = some ((T[n].cell c).getD (fillOf L c)) := rfl
  obtain ⟨w, hw⟩ := hadd.vec c hc _ hcell
  dsimp only
  rw [hcell, hw]
  rfl

end
end Mapleaf.FLog
