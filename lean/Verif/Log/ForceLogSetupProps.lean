import Verif.Log.ForceLogClaims

/-!
# C90: the columns of the force log, and parameter sweeps
-/

namespace Mapleaf.FLog
open Mapleaf.Motion Mapleaf.LogM

section
variable {A K : Type} [Field K] [LinearOrder K] {G : Prop}

/-! ## the columns -/

/-- What follows the first point of a path. -/
def stemOf (path : Str) : Str := (path.dropWhile (· ≠ '.')).drop 1

theorem stemOf_spec (u v : Str) (h : '.' ∉ u) : stemOf (u ++ '.' :: v) = v := by
  unfold stemOf
  induction u with
  | nil => simp
  | cons c u ih =>
    simp only [List.mem_cons, not_or] at h
    rw [List.cons_append, List.dropWhile_cons_of_pos (by simpa using fun e => h.1 e.symm)]
    exact ih h.2

/-- The columns of a component. -/
def twoColumns (path : Str) : List Name := [stemOf path ++ "F(N)".toList, stemOf path ++ "M(Nm)".toList]

theorem addColumn_ok_iff {L : Log K (Val K)} {c : Name} {v : Val K} :
    (∃ L', addColumn L c (some v) = .ok L') ↔ c ∉ Dict.keys L.cols ∧ c ≠ timeName := by
  unfold addColumn
  by_cases h : (Dict.has L.cols c || c == timeName) = true
  · rw [if_pos h]
    rw [Bool.or_eq_true, Dict.has_iff] at h
    simp only [reduceCtorEq, exists_false, false_iff]
    rintro ⟨h1, h2⟩
    rcases h with h | h
    · exact h1 h
    · exact h2 (by simpa using h)
  · rw [if_neg h]
    rw [Bool.or_eq_true, Dict.has_iff, not_or] at h
    exact ⟨fun _ => ⟨h.1, by simpa using h.2⟩, fun _ => ⟨_, rfl⟩⟩

theorem notTime {n s : Name} (h : s = "F(N)".toList ∨ s = "M(Nm)".toList) : n ++ s ≠ timeName := by
  rcases h with rfl | rfl
  · exact suffix_ne (List.suffix_append _ _) (by decide +kernel)
  · exact suffix_ne (List.suffix_append _ _) (by decide +kernel)

theorem initLogging_ok_iff {i : Nat} {L : Log K (Val K)} {T : Table K (Val K)} (h : LogOk G L T) (path : Str) :
    (∃ x, initLogging (some (i, L)) path = .ok x) ↔ '.' ∈ path ∧ (Dict.keys L.cols ++ twoColumns path).Nodup := by
  have hwf : (Dict.keys L.cols).Nodup := h.inv.wf
  have hne : stemOf path ++ "F(N)".toList ≠ stemOf path ++ "M(Nm)".toList := by
    intro e
    have := List.append_cancel_left e
    revert this
    decide +kernel
  have hnd : (Dict.keys L.cols ++ twoColumns path).Nodup ↔
      stemOf path ++ "F(N)".toList ∉ Dict.keys L.cols ∧ stemOf path ++ "M(Nm)".toList ∉ Dict.keys L.cols := by
    rw [List.nodup_append]
    simp only [hwf, true_and, twoColumns, List.nodup_cons, List.mem_singleton, hne, not_false_eq_true, List.not_mem_nil,
      List.nodup_nil, and_true, List.mem_cons, or_false]
    constructor
    · intro hh
      exact ⟨fun hc => hh _ hc _ (Or.inl rfl) rfl, fun hc => hh _ hc _ (Or.inr rfl) rfl⟩
    · rintro ⟨h1, h2⟩ c hc d hd rfl
      rcases hd with rfl | rfl
      · exact h1 hc
      · exact h2 hc
  rw [hnd]
  constructor
  · rintro ⟨⟨o, r⟩, hx⟩
    obtain ⟨L', n, T', _, hn, _, _, _, _, _, hnew⟩ := initLogging_ok (A := Unit) h hx
    unfold columnStem at hn
    split at hn
    · rename_i hp
      cases hn
      exact ⟨hp, hnew _ (by simp [stemOf]), hnew _ (by simp [stemOf])⟩
    · cases hn
  · rintro ⟨hp, h1, h2⟩
    unfold initLogging columnStem
    rw [if_pos hp]
    dsimp only
    obtain ⟨L1, e1⟩ := (addColumn_ok_iff (L := L) (c := stemOf path ++ "F(N)".toList) (v := .vec ⟨0, 0, 0⟩)).2
      ⟨h1, notTime (Or.inl rfl)⟩
    obtain ⟨_, k1, _, _⟩ := logOk_add h (Or.inl (List.suffix_append _ _)) e1
    obtain ⟨L2, e2⟩ := (addColumn_ok_iff (L := L1) (c := stemOf path ++ "M(Nm)".toList) (v := .vec ⟨0, 0, 0⟩)).2
      ⟨by rw [k1, List.mem_append, List.mem_singleton, not_or]; exact ⟨h2, fun e => hne e.symm⟩, notTime (Or.inr rfl)⟩
    rw [stemOf] at e1 e2
    rw [e1]
    dsimp only
    rw [e2]
    exact ⟨_, rfl⟩

/-- Building the components succeeds exactly if every path has a point and no column name is used twice; then every component has its own
force and its own two columns. -/
theorem buildParts_spec {i : Nat} : ∀ (cs : List (Str × (A → V3 K → FMS K))) {L : Log K (Val K)} {T : Table K (Val K)},
    LogOk G L T → ((∃ x, buildParts (some (i, L)) cs = .ok x) ↔
      (∀ c ∈ cs, '.' ∈ c.1) ∧ (Dict.keys L.cols ++ cs.flatMap fun c => twoColumns c.1).Nodup) ∧
    ∀ o ps, buildParts (some (i, L)) cs = .ok (o, ps) → (∃ L', o = some (i, L') ∧ Dict.keys L'.cols = Dict.keys L.cols ++
      cs.flatMap fun c => twoColumns c.1) ∧
      ps = cs.map fun c => ⟨c.2, some ⟨i, stemOf c.1 ++ "F(N)".toList, stemOf c.1 ++ "M(Nm)".toList⟩⟩ := by
  intro cs
  induction cs with
  | nil =>
    intro L T h
    have hwf : (Dict.keys L.cols).Nodup := h.inv.wf
    refine ⟨⟨fun _ => ⟨fun c hc => (nomatch hc), by simpa using hwf⟩, fun _ => ⟨_, rfl⟩⟩, ?_⟩
    intro o ps hb
    cases hb
    exact ⟨⟨L, rfl, by simp⟩, rfl⟩
  | cons c cs ih =>
    intro L T h
    have hi := initLogging_ok_iff (i := i) h c.1
    cases hx : initLogging (some (i, L)) c.1 with
    | error e =>
      constructor
      · constructor
        · rintro ⟨x, hb⟩
          rw [buildParts, hx] at hb; cases hb
        · rintro ⟨h1, h2⟩
          exfalso
          have := hi.2 ⟨h1 c (by simp), by
            rw [List.flatMap_cons, ← List.append_assoc] at h2
            exact (List.nodup_append.1 h2).1⟩
          rw [hx] at this
          obtain ⟨x, hx'⟩ := this
          cases hx'
      · intro o ps hb
        rw [buildParts, hx] at hb; cases hb
    | ok x =>
      obtain ⟨o1, r⟩ := x
      obtain ⟨hpt, hnd⟩ := hi.1 ⟨_, hx⟩
      obtain ⟨L1, n, T1, rfl, hn, hr, h1, _, hk1, _, _⟩ := initLogging_ok (A := A) h hx
      have hns : n = stemOf c.1 := by
        unfold columnStem at hn
        rw [if_pos hpt] at hn
        cases hn; rfl
      subst hns
      obtain ⟨ih1, ih2⟩ := ih h1
      have hkk : Dict.keys L1.cols ++ cs.flatMap (fun c => twoColumns c.1) =
          Dict.keys L.cols ++ (c :: cs).flatMap fun c => twoColumns c.1 := by
        rw [hk1, List.flatMap_cons, List.append_assoc]; rfl
      constructor
      · rw [← hkk]
        constructor
        · rintro ⟨x, hb⟩
          rw [buildParts, hx] at hb
          dsimp only at hb
          cases hb2 : buildParts (some (i, L1)) cs with
          | error e => rw [hb2] at hb; cases hb
          | ok y =>
            obtain ⟨g1, g2⟩ := ih1.1 ⟨y, hb2⟩
            refine ⟨?_, g2⟩
            intro d hd
            rcases List.mem_cons.1 hd with rfl | hd
            · exact hpt
            · exact g1 d hd
        · rintro ⟨g1, g2⟩
          obtain ⟨y, hy⟩ := ih1.2 ⟨fun d hd => g1 d (List.mem_cons_of_mem _ hd), g2⟩
          rw [buildParts, hx]
          dsimp only
          rw [hy]
          exact ⟨_, rfl⟩
      · intro o ps hb
        rw [buildParts, hx] at hb
        dsimp only at hb
        cases hb2 : buildParts (some (i, L1)) cs with
        | error e => rw [hb2] at hb; cases hb
        | ok y =>
          obtain ⟨o2, qs⟩ := y
          rw [hb2] at hb
          cases hb
          obtain ⟨⟨L', e1, e2⟩, e3⟩ := ih2 _ qs hb2
          refine ⟨⟨L', e1, by rw [e2, hkk]⟩, ?_⟩
          rw [List.map_cons, e3, hr]

theorem buildParts_append (log : Option (Nat × Log K (Val K))) (cs ds : List (Str × (A → V3 K → FMS K))) :
    buildParts log (cs ++ ds) = (buildParts log cs).bind fun x => (buildParts x.1 ds).map fun y => (y.1, x.2 ++ y.2) := by
  induction cs generalizing log with
  | nil =>
    simp only [List.nil_append, buildParts, Except.bind]
    cases buildParts log ds <;> rfl
  | cons c cs ih =>
    rw [List.cons_append, buildParts, buildParts]
    cases initLogging log c.1 with
    | error e => rfl
    | ok x =>
      dsimp only
      rw [ih]
      cases buildParts x.1 cs with
      | error e => rfl
      | ok y =>
        simp only [Except.bind]
        cases buildParts y.1 ds <;> rfl

theorem buildAll_flat : ∀ (ss : List (List (Str × (A → V3 K → FMS K)))) (log : Option (Nat × Log K (Val K))),
    (buildAll log ss).map (fun x => (x.1, x.2.flatten)) = buildParts log ss.flatten := by
  intro ss
  induction ss with
  | nil => intro log; rfl
  | cons s ss ih =>
    intro log
    rw [buildAll, List.flatten_cons, buildParts_append]
    cases buildParts log s with
    | error e => rfl
    | ok x =>
      simp only [Except.bind]
      rw [← ih]
      cases buildAll x.1 ss <;> rfl

/-- **C90: the columns.** A rocket can be created with a force log exactly if the path of every component has a point and the names of the
columns, those of the rocket included, are all different. It then has a new log with these columns and no rows, and each component, with the
force it was given, refers to its own two columns. -/
theorem create_spec {level : Int} (hlv : level > 1) (stages : List (List (Str × (A → V3 K → FMS K)))) (rec : Option Nat) (S : Sim A K) :
    ((∃ S', create level stages rec S = .ok S') ↔ (∀ c ∈ stages.flatten, '.' ∈ c.1) ∧
      (rocketNames ++ stages.flatten.flatMap fun c => twoColumns c.1).Nodup) ∧
    ∀ S', create level stages rec S = .ok S' → ∃ R L, S'.rockets = S.rockets ++ [R] ∧ S'.mem.logs = S.mem.logs ++ [L] ∧
      S'.mem.cell = S.mem.cell ∧ L.times = [] ∧ Dict.keys L.cols = rocketNames ++ (stages.flatten.flatMap fun c => twoColumns c.1) ∧
      R.id = S.next ∧ R.log = some S.mem.logs.length ∧ R.underChute = false ∧ R.stages.length = stages.length ∧
      R.stages.map StageC.id = List.range' (S.next + 1) stages.length ∧ S'.next = S.next + 1 + stages.length ∧
      allParts R.stages = (stages.flatten.map fun c =>
        ⟨c.2, some ⟨S.mem.logs.length, stemOf c.1 ++ "F(N)".toList, stemOf c.1 ++ "M(Nm)".toList⟩⟩) ∧
      R.recovery = rec.bind (fun k => (allParts R.stages)[k]?) ∧ LogOk G L [] := by
  have hks : Dict.keys (startLog : Log K (Val K)).cols = rocketNames := by
    simp [startLog, Dict.keys, Function.comp_def]
  obtain ⟨b1, b2⟩ := buildParts_spec (A := A) (i := S.mem.logs.length) stages.flatten (startLog_ok (G := G) (K := K))
  rw [hks] at b1 b2
  have hflat := buildAll_flat (A := A) (K := K) stages (some (S.mem.logs.length, startLog))
  unfold create
  rw [newForceLog_spec, if_pos hlv]
  simp only [Option.map_some]
  cases hb : buildAll (some (S.mem.logs.length, startLog)) stages with
  | error e =>
    rw [hb] at hflat
    constructor
    · rw [← b1]
      constructor
      · rintro ⟨x, hx⟩; cases hx
      · rintro ⟨x, hx⟩; rw [← hflat] at hx; cases hx
    · intro S' h; cases h
  | ok x =>
    obtain ⟨o, pss⟩ := x
    rw [hb] at hflat
    have hflat' : buildParts (some (S.mem.logs.length, startLog)) stages.flatten = .ok (o, pss.flatten) := hflat.symm
    obtain ⟨⟨L', rfl, hk⟩, hps⟩ := b2 o pss.flatten hflat'
    obtain ⟨L'', T'', e1, e2, e3, -, -, -⟩ := buildAll_ok stages (startLog_ok (G := G)) hb
    cases e1
    have hT : T'' = [] := by
      have := e2.rep.times
      rw [e3] at this
      simp only [startLog] at this
      exact (List.map_eq_nil_iff.1 this.symm)
    subst hT
    have hlen : pss.length = stages.length := by
      have gen : ∀ (ss : List (List (Str × (A → V3 K → FMS K)))) (l o : Option (Nat × Log K (Val K))) (pss : List (List (Part A K))),
          buildAll l ss = .ok (o, pss) → pss.length = ss.length := by
        intro ss
        induction ss with
        | nil => intro l o pss h; cases h; rfl
        | cons s ss ih =>
          intro l o pss h
          rw [buildAll] at h
          cases h1 : buildParts l s with
          | error e => rw [h1] at h; cases h
          | ok y =>
            rw [h1] at h
            dsimp only at h
            cases h2 : buildAll y.1 ss with
            | error e => rw [h2] at h; cases h
            | ok z => rw [h2] at h; cases h; simp [ih _ _ _ h2]
      exact gen _ _ _ _ hb
    constructor
    · rw [← b1]
      exact ⟨fun _ => ⟨_, hflat'⟩, fun _ => ⟨_, rfl⟩⟩
    · intro S' h
      cases h
      refine ⟨_, L', rfl, rfl, rfl, e3, hk, rfl, rfl, rfl, ?_, ?_, ?_, ?_, ?_, e2⟩
      · dsimp only
        have := congrArg List.length (withIds_ids pss (S.next + 1))
        rw [List.length_map, List.length_range'] at this
        rw [this, hlen]
      · dsimp only; rw [withIds_ids, hlen]
      · dsimp only; rw [hlen]
      · dsimp only; rw [withIds_parts, hps]
      · dsimp only; rw [withIds_parts]

/-- Without force logging the rocket has no log and its components have no columns; nothing can go wrong. -/
theorem create_unlogged {level : Int} (hlv : level ≤ 1) (stages : List (List (Str × (A → V3 K → FMS K)))) (rec : Option Nat) (S : Sim A K) :
    ∃ S' R, create level stages rec S = .ok S' ∧ S'.rockets = S.rockets ++ [R] ∧ S'.mem = S.mem ∧ R.log = none ∧
      ∀ p ∈ allParts R.stages, p.ref = none := by
  obtain ⟨pss, hb, hn⟩ := buildAll_none (A := A) (K := K) stages
  unfold create
  rw [newForceLog_spec, if_neg (by omega)]
  simp only [Option.map_none, hb]
  refine ⟨_, _, rfl, rfl, rfl, rfl, ?_⟩
  dsimp only
  rw [withIds_parts]
  exact hn

end
end Mapleaf.FLog
