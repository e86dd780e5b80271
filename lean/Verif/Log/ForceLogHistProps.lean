import Verif.Log.ForceLogRowProps

/-!
# C90: the force logs of a whole simulation
-/

namespace Mapleaf.FLog
open Mapleaf.Motion Mapleaf.LogM

section
variable {A K : Type} [Field K] [LinearOrder K] {G : Prop}

/-! ## a log in order -/

/-- The log represents the table `T`; under the condition `G`, the rows add up. -/
structure LogOk (G : Prop) (L : Log K (Val K)) (T : Table K (Val K)) : Prop where
  inv : Inv L
  rep : Rep L T
  base : rocketNames ⊆ Dict.keys L.cols
  fill : ∀ c ∈ "AeroF(N)".toList :: forceColumns L, fillOf L c = .vec 0
  fillBase : ∀ p ∈ (baseColumns : List (Name × Val K)), fillOf L p.1 = p.2
  rows : G → ∀ r ∈ T, AddsUp (forceColumns L) r

theorem aero_not_force : ¬ IsForce "AeroF(N)".toList := fun h => h.2 (by decide +kernel)

theorem mem_forceColumns {L : Log K (Val K)} {c : Name} : c ∈ forceColumns L ↔ c ∈ Dict.keys L.cols ∧ IsForce c := by
  simp [forceColumns]

theorem suffix_ne {s c d : Name} (h : s <:+ c) (hd : ¬ s <:+ d) : c ≠ d := fun e => hd (e ▸ h)

/-- Adding a column for the force or the moment of a component. -/
theorem logOk_add {L L' : Log K (Val K)} {T : Table K (Val K)} (h : LogOk G L T) {c : Name}
    (hs : "F(N)".toList <:+ c ∨ "M(Nm)".toList <:+ c) (ha : addColumn L c (some (.vec ⟨0, 0, 0⟩)) = .ok L') :
    c ∉ Dict.keys L.cols ∧ Dict.keys L'.cols = Dict.keys L.cols ++ [c] ∧ L'.times = L.times ∧ ∃ T', LogOk G L' T' := by
  have hnew : c ∉ Dict.keys L.cols ∧ c ≠ timeName := by
    constructor
    · intro hc
      have := (illegal_detected h.inv h.rep).1 c (some (.vec ⟨0, 0, 0⟩)) (Or.inl hc)
      rw [LogM.step, ha] at this; cases this
    · intro hc
      have := (illegal_detected h.inv h.rep).1 c (some (.vec ⟨0, 0, 0⟩)) (Or.inr hc)
      rw [LogM.step, ha] at this; cases this
  have hdef : c ≠ defaultName := by
    rcases hs with hs | hs
    · exact suffix_ne hs (by decide +kernel)
    · exact suffix_ne hs (by decide +kernel)
  obtain ⟨L1, hst, i1, r1⟩ := step_refines h.inv h.rep (.addColumn c (some (.vec ⟨0, 0, 0⟩))) hnew
  rw [LogM.step, ha] at hst
  cases hst
  have hexp : L' = { L with fills := Dict.set L.fills c (.vec ⟨0, 0, 0⟩),
                            cols := Dict.set L.cols c (List.replicate L.times.length (.vec ⟨0, 0, 0⟩)) } := by
    unfold addColumn at ha
    rw [if_neg (by
      rw [Bool.or_eq_true, not_or]
      exact ⟨by rw [Dict.has_iff]; exact hnew.1, by simpa using hnew.2⟩)] at ha
    simp only [if_neg hdef] at ha
    cases ha; rfl
  have hk : Dict.keys L'.cols = Dict.keys L.cols ++ [c] := by
    rw [hexp]; exact Dict.keys_set_of_not_mem _ _ hnew.1
  have hfillc : fillOf L' c = .vec 0 := by
    rw [hexp]; simp only [fillOf, if_neg hdef, Dict.get?_set_self]; rfl
  have hfill : ∀ x, x ≠ c → fillOf L' x = fillOf L x := by
    intro x hx
    rw [hexp]; simp only [fillOf, Dict.get?_set_ne _ _ (Ne.symm hx)]
  have hcA : c ≠ "AeroF(N)".toList := fun e => hnew.1 (e ▸ h.base (by decide +kernel))
  have hcr : c ∉ rocketNames := fun e => hnew.1 (h.base e)
  refine ⟨hnew.1, hk, by rw [hexp], _, i1, r1, ?_, ?_, ?_, ?_⟩
  · intro x hx; rw [hk]; exact List.mem_append_left _ (h.base hx)
  · intro x hx
    by_cases hxc : x = c
    · subst hxc; exact hfillc
    · rw [hfill x hxc]
      refine h.fill x ?_
      rcases List.mem_cons.1 hx with rfl | hx
      · exact List.mem_cons_self
      · refine List.mem_cons_of_mem _ ?_
        rw [mem_forceColumns, hk] at hx
        rw [mem_forceColumns]
        refine ⟨?_, hx.2⟩
        simpa [hxc] using hx.1
  · intro p hp
    have hpn : p.1 ∈ rocketNames := by
      have : p.1 ∈ (baseColumns : List (Name × Val K)).map Prod.fst := List.mem_map.2 ⟨p, hp, rfl⟩
      exact this
    rw [hfill p.1 (fun e => hcr (e ▸ hpn))]
    exact h.fillBase p hp
  · intro hG r hr
    simp only [astep, List.mem_map] at hr
    obtain ⟨q, hq, rfl⟩ := hr
    have hq' := h.rows hG q hq
    have hold : ∀ x ∈ forceColumns L, x ≠ c := fun x hx e => hnew.1 (e ▸ (mem_forceColumns.1 hx).1)
    by_cases hF : IsForce c
    · have hfc : forceColumns L' = forceColumns L ++ [c] := by simp [forceColumns, hk, hF]
      rw [hfc]
      refine ⟨?_, ?_⟩
      · dsimp only
        rw [if_neg (Ne.symm hcA), hq'.sum, List.map_append, List.sum_append]
        simp only [List.map_cons, List.map_nil, if_true, List.sum_cons, List.sum_nil, Option.getD_some]
        have : vecOf (some (Val.vec (⟨0, 0, 0⟩ : V3 K))) = 0 := rfl
        rw [this, add_zero, add_zero]
        congr 1
        exact List.map_congr_left fun x hx => by rw [if_neg (hold x hx)]
      · intro x hx v hv
        dsimp only at hv
        by_cases hxc : x = c
        · rw [if_pos hxc] at hv; cases hv; exact ⟨_, rfl⟩
        · rw [if_neg hxc] at hv
          refine hq'.vec x ?_ v hv
          simpa [hxc] using hx
    · have hfc : forceColumns L' = forceColumns L := by simp [forceColumns, hk, hF]
      rw [hfc]
      refine ⟨?_, ?_⟩
      · dsimp only
        rw [if_neg (Ne.symm hcA), hq'.sum]
        congr 1
        exact List.map_congr_left fun x hx => by rw [if_neg (hold x hx)]
      · intro x hx v hv
        dsimp only at hv
        have hxc : x ≠ c := by
          rcases List.mem_cons.1 hx with rfl | hx
          · exact Ne.symm hcA
          · exact hold x hx
        rw [if_neg hxc] at hv
        exact hq'.vec x hx v hv

theorem deleteLastRow_keys (L : Log K (Val K)) : Dict.keys (deleteLastRow L).cols = Dict.keys L.cols := by
  unfold deleteLastRow
  dsimp only
  split
  · simp [Dict.keys, Function.comp_def]
  · rfl

theorem deleteLastRow_fill (L : Log K (Val K)) : fillOf (deleteLastRow L) = fillOf L := by
  unfold deleteLastRow
  dsimp only
  split
  · exact fillOf_congr rfl rfl
  · rfl

theorem deleteLastRow_times (L : Log K (Val K)) : (deleteLastRow L).times = L.times.dropLast := by
  unfold deleteLastRow
  dsimp only
  split
  · rfl
  · rename_i h
    have : L.times = [] := by
      rw [← List.length_eq_zero_iff]; omega
    rw [this]; rfl

theorem logOk_delete {L : Log K (Val K)} {T : Table K (Val K)} (h : LogOk G L T) : LogOk G (deleteLastRow L) T.dropLast := by
  obtain ⟨L1, hst, i1, r1⟩ := step_refines h.inv h.rep .deleteRow trivial
  rw [LogM.step] at hst
  cases hst
  have hfc : forceColumns (deleteLastRow L) = forceColumns L := by simp only [forceColumns, deleteLastRow_keys]
  refine ⟨i1, r1, ?_, ?_, ?_, ?_⟩
  · rw [deleteLastRow_keys]; exact h.base
  · rw [hfc, deleteLastRow_fill]; exact h.fill
  · rw [deleteLastRow_fill]; exact h.fillBase
  · rw [hfc]; intro hG r hr; exact h.rows hG r (List.dropLast_subset _ hr)

/-! ## an evaluation keeps the log in order -/

variable (P : Physics A K)

theorem logOk_eval {i : Nat} {L L' : Log K (Val K)} {T : Table K (Val K)} (h : LogOk G L T) {ps : List (Part A K)} (hw : Wired i L ps)
    (a : A) (cg : V3 K) (F : FMS K) (hF : G → F.force = (ps.map fun p => (p.force a cg).force).sum) (pre : List (Name × Val K))
    (hpre : ∀ p ∈ pre, p.1 ∈ rocketNames)
    (hnd : (pre.map Prod.fst ++ (endVals P a F).map Prod.fst).Nodup)
    (hr : LogM.run (evalOps (P.time a) (pre ++ partVals a cg ps ++ endVals P a F)) L = .ok L') :
    ∃ r, LogOk G L' (T.fillLast (fillOf L) ++ [r]) ∧ r.time = P.time a ∧ Dict.keys L'.cols = Dict.keys L.cols ∧
      (∀ p ∈ pre ++ partVals a cg ps ++ endVals P a F, r.cell p.1 = some p.2) ∧
      ∀ c, c ∉ (pre ++ partVals a cg ps ++ endVals P a F).map Prod.fst → r.cell c = none := by
  have hend : ∀ p ∈ endVals P a F, p.1 ∈ rocketNames := by
    intro p hp
    have : p.1 ∈ (endVals P a F).map Prod.fst := List.mem_map.2 ⟨p, hp, rfl⟩
    have hsub : (endVals P a F).map Prod.fst ⊆ rocketNames := by
      simp only [endVals, List.map_cons, List.map_nil]
      decide +kernel
    exact hsub this
  have hmine : ∀ c ∈ (partVals a cg ps).map Prod.fst, c ∉ rocketNames ∧ c ∈ Dict.keys L.cols := by
    intro c hc
    rcases mem_partNames.1 hc with hc | hc
    · exact ⟨(hw.force c hc).2.2, (hw.force c hc).1⟩
    · exact ⟨(hw.moment c hc).2.2, (hw.moment c hc).1⟩
  obtain ⟨h1, h2, h3⟩ := List.nodup_append.1 hnd
  have hnd' : ((pre ++ partVals a cg ps ++ endVals P a F).map Prod.fst).Nodup := by
    simp only [List.map_append]
    refine List.nodup_append.2 ⟨List.nodup_append.2 ⟨h1, partNames_nodup hw a cg, ?_⟩, h2, ?_⟩
    · rintro c hc d hd rfl
      obtain ⟨p, hp, rfl⟩ := List.mem_map.1 hc
      exact (hmine _ hd).1 (hpre p hp)
    · rintro c hc d hd rfl
      rcases List.mem_append.1 hc with hc | hc
      · exact h3 c hc c hd rfl
      · obtain ⟨p, hp, rfl⟩ := List.mem_map.1 hd
        exact (hmine _ hc).1 (hend p hp)
  obtain ⟨r, e1, e2, e3, e4, e5, e6, e7⟩ := run_row h.inv h.rep (P.time a) _ hnd' (by
    intro p hp
    rcases List.mem_append.1 hp with hp | hp
    · rcases List.mem_append.1 hp with hp | hp
      · exact h.base (hpre p hp)
      · exact (hmine p.1 (List.mem_map.2 ⟨p, hp, rfl⟩)).2
    · exact h.base (hend p hp)) hr
  have hfc : forceColumns L' = forceColumns L := by simp only [forceColumns, e4]
  refine ⟨r, ⟨e1, e2, by rw [e4]; exact h.base, by rw [hfc, e5]; exact h.fill, by rw [e5]; exact h.fillBase, ?_⟩, e3, e4, e6, e7⟩
  rw [hfc]
  intro hG q hq
  rcases List.mem_append.1 hq with hq | hq
  · rcases mem_fillLast hq with hq | ⟨s, hs, rfl⟩
    · exact h.rows hG q hq
    · exact addsUp_fill (h.fill _ List.mem_cons_self) (fun c hc => h.fill c (List.mem_cons_of_mem _ hc)) (h.rows hG s hs)
  · rw [List.mem_singleton] at hq
    subst hq
    exact row_addsUp P hw h.inv.wf a cg F (hF hG) pre hpre q e6 e7

/-! ## building the components -/

theorem Wired.mono {i : Nat} {L L' : Log K (Val K)} {ps : List (Part A K)} (h : Wired i L ps)
    (hs : Dict.keys L.cols ⊆ Dict.keys L'.cols) : Wired i L' ps :=
  ⟨h.own, fun c hc => ⟨hs (h.force c hc).1, (h.force c hc).2⟩, fun c hc => ⟨hs (h.moment c hc).1, (h.moment c hc).2⟩,
    h.fNodup, h.mNodup⟩

theorem fNames_append (ps qs : List (Part A K)) : fNames (ps ++ qs) = fNames ps ++ fNames qs := by simp [fNames]
theorem mNames_append (ps qs : List (Part A K)) : mNames (ps ++ qs) = mNames ps ++ mNames qs := by simp [mNames]

/-- Later components have columns that did not exist before. -/
theorem Wired.append {i : Nat} {L0 L : Log K (Val K)} {ps qs : List (Part A K)} (h1 : Wired i L0 ps) (h2 : Wired i L qs)
    (hs : Dict.keys L0.cols ⊆ Dict.keys L.cols) (hn : ∀ c ∈ fNames qs ++ mNames qs, c ∉ Dict.keys L0.cols) :
    Wired i L (ps ++ qs) := by
  have h1' := h1.mono hs
  refine ⟨?_, ?_, ?_, ?_, ?_⟩
  · intro p hp
    rcases List.mem_append.1 hp with hp | hp
    · exact h1.own p hp
    · exact h2.own p hp
  · intro c hc
    rw [fNames_append] at hc
    rcases List.mem_append.1 hc with hc | hc
    · exact h1'.force c hc
    · exact h2.force c hc
  · intro c hc
    rw [mNames_append] at hc
    rcases List.mem_append.1 hc with hc | hc
    · exact h1'.moment c hc
    · exact h2.moment c hc
  · rw [fNames_append]
    refine List.nodup_append.2 ⟨h1.fNodup, h2.fNodup, ?_⟩
    rintro c hc d hd rfl
    exact hn c (List.mem_append_left _ hd) (h1.force c hc).1
  · rw [mNames_append]
    refine List.nodup_append.2 ⟨h1.mNodup, h2.mNodup, ?_⟩
    rintro c hc d hd rfl
    exact hn c (List.mem_append_right _ hd) (h1.moment c hc).1

theorem Wired.sub {i : Nat} {L : Log K (Val K)} {ps qs : List (Part A K)} (h : Wired i L ps) (hs : List.Sublist qs ps) :
    Wired i L qs := by
  have hf : List.Sublist (fNames qs) (fNames ps) := hs.flatMap _
  have hm : List.Sublist (mNames qs) (mNames ps) := hs.flatMap _
  exact ⟨fun p hp => h.own p (hs.subset hp), fun c hc => h.force c (hf.subset hc), fun c hc => h.moment c (hm.subset hc),
    h.fNodup.sublist hf, h.mNodup.sublist hm⟩

theorem initLogging_ok {i : Nat} {L : Log K (Val K)} {T : Table K (Val K)} (h : LogOk G L T) {path : Str}
    {o : Option (Nat × Log K (Val K))} {r : Option Ref} (hi : initLogging (some (i, L)) path = .ok (o, r)) :
    ∃ L' n T', o = some (i, L') ∧ columnStem path = .ok n ∧ r = some ⟨i, n ++ "F(N)".toList, n ++ "M(Nm)".toList⟩ ∧ LogOk G L' T' ∧
      L'.times = L.times ∧ Dict.keys L'.cols = Dict.keys L.cols ++ [n ++ "F(N)".toList, n ++ "M(Nm)".toList] ∧
      (∀ f : A → V3 K → FMS K, Wired i L' [⟨f, r⟩]) ∧
      ∀ c ∈ [n ++ "F(N)".toList, n ++ "M(Nm)".toList], c ∉ Dict.keys L.cols := by
  unfold initLogging at hi
  dsimp only at hi
  cases hn : columnStem path with
  | error e => rw [hn] at hi; cases hi
  | ok n =>
    rw [hn] at hi
    dsimp only at hi
    cases h1 : addColumn L (n ++ "F(N)".toList) (some (.vec ⟨0, 0, 0⟩)) with
    | error e => rw [h1] at hi; cases hi
    | ok L1 =>
      rw [h1] at hi
      dsimp only at hi
      cases h2 : addColumn L1 (n ++ "M(Nm)".toList) (some (.vec ⟨0, 0, 0⟩)) with
      | error e => rw [h2] at hi; cases hi
      | ok L2 =>
        rw [h2] at hi
        cases hi
        obtain ⟨a1, a2, a3, T1, a4⟩ := logOk_add h (Or.inl (List.suffix_append _ _)) h1
        obtain ⟨b1, b2, b3, T2, b4⟩ := logOk_add a4 (Or.inr (List.suffix_append _ _)) h2
        rw [a2] at b1 b2
        have hm : n ++ "M(Nm)".toList ∉ Dict.keys L.cols := fun hc => b1 (List.mem_append_left _ hc)
        refine ⟨L2, n, T2, rfl, rfl, rfl, b4, by rw [b3, a3], by rw [b2]; simp, ?_, ?_⟩
        · intro f
          refine ⟨?_, ?_, ?_, ?_, ?_⟩
          · intro p hp; rw [List.mem_singleton] at hp; subst hp; exact ⟨_, _, rfl⟩
          · intro c hc
            simp only [fNames, List.flatMap_cons, List.flatMap_nil, List.append_nil, List.mem_singleton] at hc
            subst hc
            refine ⟨?_, List.suffix_append _ _, fun hc => a1 (h.base hc)⟩
            rw [b2, List.mem_append, List.mem_append, List.mem_singleton]
            exact Or.inl (Or.inr rfl)
          · intro c hc
            simp only [mNames, List.flatMap_cons, List.flatMap_nil, List.append_nil, List.mem_singleton] at hc
            subst hc
            refine ⟨?_, List.suffix_append _ _, fun hc => hm (h.base hc)⟩
            rw [b2, List.mem_append, List.mem_singleton]
            exact Or.inr rfl
          · simp [fNames]
          · simp [mNames]
        · intro c hc
          rcases List.mem_cons.1 hc with rfl | hc
          · exact a1
          · rw [List.mem_singleton] at hc
            subst hc; exact hm

theorem buildParts_ok {i : Nat} : ∀ (cs : List (Str × (A → V3 K → FMS K))) {L : Log K (Val K)} {T : Table K (Val K)},
    LogOk G L T → ∀ {o : Option (Nat × Log K (Val K))} {ps : List (Part A K)}, buildParts (some (i, L)) cs = .ok (o, ps) →
    ∃ L' T', o = some (i, L') ∧ LogOk G L' T' ∧ L'.times = L.times ∧ Dict.keys L.cols ⊆ Dict.keys L'.cols ∧ Wired i L' ps ∧
      ∀ c ∈ fNames ps ++ mNames ps, c ∉ Dict.keys L.cols := by
  intro cs
  induction cs with
  | nil =>
    intro L T h o ps hb
    cases hb
    exact ⟨L, T, rfl, h, rfl, fun _ hc => hc, ⟨fun p hp => (nomatch hp), fun c hc => (nomatch hc), fun c hc => (nomatch hc),
      List.nodup_nil, List.nodup_nil⟩, fun c hc => (nomatch hc)⟩
  | cons c cs ih =>
    intro L T h o ps hb
    rw [buildParts] at hb
    cases hi : initLogging (some (i, L)) c.1 with
    | error e => rw [hi] at hb; cases hb
    | ok x =>
      obtain ⟨o1, r⟩ := x
      rw [hi] at hb
      dsimp only at hb
      obtain ⟨L1, n, T1, rfl, -, hr, h1, ht1, hk1, hw1, hn1⟩ := initLogging_ok (A := A) h hi
      cases hb2 : buildParts (some (i, L1)) cs with
      | error e => rw [hb2] at hb; cases hb
      | ok y =>
        obtain ⟨o2, qs⟩ := y
        rw [hb2] at hb
        cases hb
        obtain ⟨L2, T2, rfl, h2, ht2, hk2, hw2, hn2⟩ := ih h1 hb2
        have hsub : Dict.keys L.cols ⊆ Dict.keys L1.cols := by rw [hk1]; exact List.subset_append_left _ _
        refine ⟨L2, T2, rfl, h2, by rw [ht2, ht1], fun x hx => hk2 (hsub hx), ?_, ?_⟩
        · exact (hw1 c.2).append hw2 hk2 hn2
        · intro x hx
          have : x ∈ (fNames [(⟨c.2, r⟩ : Part A K)] ++ mNames [(⟨c.2, r⟩ : Part A K)]) ∨ x ∈ fNames qs ++ mNames qs := by
            have e1 : (⟨c.2, r⟩ : Part A K) :: qs = [⟨c.2, r⟩] ++ qs := rfl
            rw [e1, fNames_append, mNames_append] at hx
            simp only [List.mem_append] at hx ⊢
            tauto
          rcases this with hx | hx
          · refine hn1 x ?_
            rw [hr] at hx
            simpa [fNames, mNames] using hx
          · exact fun hc => hn2 x hx (hsub hc)

theorem buildAll_ok {i : Nat} : ∀ (ss : List (List (Str × (A → V3 K → FMS K)))) {L : Log K (Val K)} {T : Table K (Val K)},
    LogOk G L T → ∀ {o : Option (Nat × Log K (Val K))} {pss : List (List (Part A K))}, buildAll (some (i, L)) ss = .ok (o, pss) →
    ∃ L' T', o = some (i, L') ∧ LogOk G L' T' ∧ L'.times = L.times ∧ Dict.keys L.cols ⊆ Dict.keys L'.cols ∧
      Wired i L' pss.flatten ∧ ∀ c ∈ fNames pss.flatten ++ mNames pss.flatten, c ∉ Dict.keys L.cols := by
  intro ss
  induction ss with
  | nil =>
    intro L T h o ps hb
    cases hb
    exact ⟨L, T, rfl, h, rfl, fun _ hc => hc, ⟨fun p hp => (nomatch hp), fun c hc => (nomatch hc), fun c hc => (nomatch hc),
      List.nodup_nil, List.nodup_nil⟩, fun c hc => (nomatch hc)⟩
  | cons s ss ih =>
    intro L T h o pss hb
    rw [buildAll] at hb
    cases hi : buildParts (some (i, L)) s with
    | error e => rw [hi] at hb; cases hb
    | ok x =>
      obtain ⟨o1, ps⟩ := x
      rw [hi] at hb
      dsimp only at hb
      obtain ⟨L1, T1, rfl, h1, ht1, hk1, hw1, hn1⟩ := buildParts_ok s h hi
      cases hb2 : buildAll (some (i, L1)) ss with
      | error e => rw [hb2] at hb; cases hb
      | ok y =>
        obtain ⟨o2, qss⟩ := y
        rw [hb2] at hb
        cases hb
        obtain ⟨L2, T2, rfl, h2, ht2, hk2, hw2, hn2⟩ := ih h1 hb2
        refine ⟨L2, T2, rfl, h2, by rw [ht2, ht1], fun x hx => hk2 (hk1 hx), ?_, ?_⟩
        · rw [List.flatten_cons]
          exact hw1.append hw2 hk2 hn2
        · intro x hx
          rw [List.flatten_cons, fNames_append, mNames_append] at hx
          have : x ∈ fNames ps ++ mNames ps ∨ x ∈ fNames qss.flatten ++ mNames qss.flatten := by
            simp only [List.mem_append] at hx ⊢
            tauto
          rcases this with hx | hx
          · exact hn1 x hx
          · exact fun hc => hn2 x hx (hk1 hc)

theorem buildParts_none : ∀ (cs : List (Str × (A → V3 K → FMS K))), ∃ ps : List (Part A K), buildParts none cs = .ok (none, ps) ∧
    ∀ p ∈ ps, p.ref = none := by
  intro cs
  induction cs with
  | nil => exact ⟨[], rfl, fun p hp => (nomatch hp)⟩
  | cons c cs ih =>
    obtain ⟨ps, h1, h2⟩ := ih
    refine ⟨⟨c.2, none⟩ :: ps, by simp [buildParts, initLogging, h1], ?_⟩
    intro p hp
    rcases List.mem_cons.1 hp with rfl | hp
    · rfl
    · exact h2 p hp

theorem buildAll_none : ∀ (ss : List (List (Str × (A → V3 K → FMS K)))), ∃ pss : List (List (Part A K)),
    buildAll none ss = .ok (none, pss) ∧ ∀ p ∈ pss.flatten, p.ref = none := by
  intro ss
  induction ss with
  | nil => exact ⟨[], rfl, fun p hp => (nomatch hp)⟩
  | cons s ss ih =>
    obtain ⟨pss, h1, h2⟩ := ih
    obtain ⟨ps, h3, h4⟩ := buildParts_none s
    refine ⟨ps :: pss, by simp [buildAll, h3, h1], ?_⟩
    intro p hp
    rw [List.flatten_cons, List.mem_append] at hp
    rcases hp with hp | hp
    · exact h4 p hp
    · exact h2 p hp

/-! ## the columns of the rocket -/

/-- What a cell of the rocket's columns shows when nothing was logged. -/
def startFills : List (Name × Val K) :=
  [("Position(m)".toList, .vec ⟨0, 0, 0⟩), ("Velocity(m/s)".toList, .vec ⟨0, 0, 0⟩), ("OrientationQuaternion".toList, .quat ⟨0, 0, 0, 0⟩),
   ("AngularVelocity(rad/s)".toList, .vec ⟨0, 0, 0⟩), ("CG(m)".toList, .vec ⟨0, 0, 0⟩), ("MOI(kg*m^2)".toList, .vec ⟨0, 0, 0⟩),
   ("Mass(kg)".toList, .num 0), ("Wind(m/s)".toList, .vec ⟨0, 0, 0⟩), ("AirDensity(kg/m^3)".toList, .num 0),
   ("Mach".toList, .num 0), ("UnitRe".toList, .num 0), ("AOA(deg)".toList, .num 0),
   ("RollAngle(deg)".toList, .num 0), ("CPZ(m)".toList, .num 0), ("AeroF(N)".toList, .vec ⟨0, 0, 0⟩),
   ("AeroM(Nm)".toList, .vec ⟨0, 0, 0⟩), ("GravityF(N)".toList, .vec ⟨0, 0, 0⟩), ("TotalF(N)".toList, .vec ⟨0, 0, 0⟩)]

theorem baseColumns_fills : (baseColumns : List (Name × Val K)) = startFills := rfl

/-- The log starts with the rocket's columns and no rows. -/
def startLog : Log K (Val K) :=
  ⟨[], rocketNames.map fun c => (c, []), startFills, .num 0⟩

theorem addColumns (cs : List (Name × Val K)) : ∀ (d : Dict Name (List (Val K))) (f : Dict Name (Val K)) (z : Val K),
    (∀ c ∈ cs.map Prod.fst, c ∉ Dict.keys d ∧ c ∉ Dict.keys f ∧ c ≠ timeName ∧ c ≠ defaultName) → (cs.map Prod.fst).Nodup →
    cs.foldlM (fun L c => addColumn L c.1 (some c.2)) (⟨[], d, f, z⟩ : Log K (Val K)) =
      .ok ⟨[], d ++ cs.map (fun c => (c.1, [])), f ++ cs, z⟩ := by
  induction cs with
  | nil => intro d f z _ _; simp [pure, Except.pure]
  | cons c cs ih =>
    intro d f z h hn
    rw [List.map_cons, List.nodup_cons] at hn
    obtain ⟨h1, h2, h3, h4⟩ := h c.1 (by simp)
    have e : addColumn (⟨[], d, f, z⟩ : Log K (Val K)) c.1 (some c.2) = .ok ⟨[], d ++ [(c.1, [])], f ++ [(c.1, c.2)], z⟩ := by
      unfold addColumn
      rw [if_neg (by
        rw [Bool.or_eq_true, not_or]
        exact ⟨by rw [Dict.has_iff]; exact h1, by simpa using h3⟩)]
      simp only [if_neg h4]
      rw [Dict.set_of_not_mem _ _ h1, Dict.set_of_not_mem _ _ h2]
      rfl
    rw [List.foldlM_cons, e]
    simp only [bind, Except.bind]
    rw [ih _ _ _ (by
      intro x hx
      obtain ⟨g1, g2, g3, g4⟩ := h x (by simp only [List.map_cons, List.mem_cons]; exact Or.inr hx)
      have hne : x ≠ c.1 := fun e => hn.1 (e ▸ hx)
      refine ⟨?_, ?_, g3, g4⟩
      · simp only [Dict.keys, List.map_append, List.map_cons, List.map_nil, List.mem_append, List.mem_singleton, not_or] at g1 ⊢
        exact ⟨g1, hne⟩
      · simp only [Dict.keys, List.map_append, List.map_cons, List.map_nil, List.mem_append, List.mem_singleton, not_or] at g2 ⊢
        exact ⟨g2, hne⟩) hn.2]
    simp

theorem baseColumns_names : (baseColumns : List (Name × Val K)).map Prod.fst = rocketNames := rfl

theorem newForceLog_spec (level : Int) : (newForceLog level : Except PyErr (Option (Log K (Val K)))) =
    .ok (if level > 1 then some startLog else none) := by
  unfold newForceLog
  split
  · have e : (LogM.new [] (.num 0) : Except PyErr (Log K (Val K))) = .ok ⟨[], [], [], .num 0⟩ := rfl
    rw [e]
    dsimp only
    rw [addColumns baseColumns [] [] (.num 0) (by
      rw [baseColumns_names]
      have : ∀ c ∈ rocketNames, c ≠ timeName ∧ c ≠ defaultName := by decide +kernel
      intro c hc
      exact ⟨by simp [Dict.keys], by simp [Dict.keys], this c hc⟩) (by rw [baseColumns_names]; decide +kernel)]
    have : (baseColumns : List (Name × Val K)).map (fun c => (c.1, ([] : List (Val K)))) = rocketNames.map fun c => (c, []) := by
      rw [← baseColumns_names (K := K), List.map_map]; rfl
    simp only [List.nil_append, this]
    rfl
  · rfl

theorem startLog_ok : LogOk G (startLog : Log K (Val K)) [] := by
  have hk : Dict.keys (startLog : Log K (Val K)).cols = rocketNames := by
    simp [startLog, Dict.keys, Function.comp_def]
  have hfc : forceColumns (startLog : Log K (Val K)) = [] := by
    rw [forceColumns, hk, List.filter_eq_nil_iff]
    intro c hc hf
    simp only [decide_eq_true_eq] at hf
    exact hf.2 hc
  have hvals : ∀ c vals, (c, vals) ∈ (startLog : Log K (Val K)).cols → vals = [] := by
    intro c vals h
    simp only [startLog, List.mem_map] at h
    obtain ⟨_, _, e⟩ := h
    cases e; rfl
  refine ⟨⟨?_, ?_, ?_⟩, ⟨rfl, ?_, fun c _ r hr => (nomatch hr)⟩, ?_, ?_, ?_, fun _ r hr => (nomatch hr)⟩
  · unfold Dict.WF; rw [hk]; decide +kernel
  · rw [hk]; decide +kernel
  · intro c vals _; simp [startLog]
  · intro c vals h
    exact hvals c vals (Dict.mem_of_get? h)
  · rw [hk]; exact fun _ h => h
  · rw [hfc]
    intro c hc
    rw [List.mem_singleton] at hc
    subst hc
    rfl
  · intro p hp
    have hne : p.1 ≠ defaultName := by
      have h1 : p.1 ∈ (baseColumns : List (Name × Val K)).map Prod.fst := List.mem_map.2 ⟨p, hp, rfl⟩
      have h2 : ∀ c ∈ rocketNames, c ≠ defaultName := by decide +kernel
      exact h2 _ h1
    have hg : Dict.get? (baseColumns : List (Name × Val K)) p.1 = some p.2 := by
      refine Dict.get?_of_mem ?_ hp
      have : (Dict.keys (baseColumns : List (Name × Val K))).Nodup := by
        rw [show Dict.keys (baseColumns : List (Name × Val K)) = rocketNames from baseColumns_names]; decide +kernel
      exact this
    have hg' : Dict.get? (startLog : Log K (Val K)).fills p.1 = some p.2 := hg
    simp only [fillOf, if_neg hne, hg']

end
end Mapleaf.FLog
