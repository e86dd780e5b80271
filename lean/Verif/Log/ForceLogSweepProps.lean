import Verif.Log.ForceLogSetupProps
import Mathlib.Data.Rat.Defs
import Mathlib.Algebra.Order.Field.Rat

/-!
# C90: parameter sweeps, examples
-/

namespace Mapleaf.FLog
open Mapleaf.Motion Mapleaf.LogM

section
variable {A K : Type} [Field K] [LinearOrder K] (P : Physics A K)

/-- An evaluation of a rocket whose components still refer to another log: the row of the rocket's own log has no entry of a component. -/
theorem evaluate_foreign {i j : Nat} {eqv : A → A → Bool} {a : A} {mem : Mem A K} {R : RocketC A K} {L M : Log K (Val K)}
    (hij : i ≠ j) (hl : R.log = some i) (hu : R.underChute = false) (h : mem.logs[i]? = some L) (hM : mem.logs[j]? = some M)
    (ho : Own j (allParts R.stages)) (hn : (R.stages.map StageC.id).Nodup) (hc : ∀ s ∈ R.stages, cellId mem ≠ some s.id)
    (hf : cached eqv mem R.id a = none) {r : Mem A K × FMS K} (he : evaluate P eqv R a mem = .ok r) :
    ∃ L', LogM.run (evalOps (P.time a) (startVals P a ++ flowVals P a ++
        endVals P a (sumStages a (P.inertia a).cg (zeroAt (P.inertia a).cg) R.stages))) L = .ok L' ∧
      r.1.logs[i]? = some L' ∧ r.1.logs.length = mem.logs.length ∧
      r.1.cell = some ((R.id, a), sumStages a (P.inertia a).cg (zeroAt (P.inertia a).cg) R.stages) := by
  rw [List.append_assoc, ← startRow_run]
  rw [evaluate, onRocketLog, hl] at he
  dsimp only at he
  rw [onLog_some h] at he
  cases h1 : startRow P a L with
  | error e => rw [h1] at he; cases he
  | ok L1 =>
    rw [h1] at he
    simp only [Except.map, Except.bind] at he ⊢
    rw [logAll_append]
    rw [componentForces, hu, onRocketLog, hl] at he
    simp only [Bool.false_eq_true, if_false] at he
    rw [onLog_some (putLog_get h L1)] at he
    cases h2 : logAll (flowVals P a) L1 with
    | error e => rw [h2] at he; cases he
    | ok L2 =>
      rw [h2] at he
      simp only [Except.map, Except.bind, putLog_put] at he ⊢
      have hM2 : (putLog mem i L2).logs[j]? = some M := by
        simp only [putLog]; rw [List.getElem?_set_ne hij]; exact hM
      rw [rocketForces_fresh hM2 ho hn (fun s hs => hc s hs) hf] at he
      cases h3 : logAll (partVals a (P.inertia a).cg (allParts R.stages)) M with
      | error e => rw [h3] at he; cases he
      | ok M3 =>
        rw [h3] at he
        simp only [Except.map] at he
        rw [onRocketLog, hl] at he
        dsimp only at he
        have hL3 : (putLog (putLog mem i L2) j M3).logs[i]? = some L2 := by
          have := putLog_get h L2
          simp only [putLog] at this ⊢
          rw [List.getElem?_set_ne (Ne.symm hij)]; exact this
        rw [onLog_some (L := L2) (mem := ⟨(putLog (putLog mem i L2) j M3).logs, some ((R.id, a),
          sumStages a (P.inertia a).cg (zeroAt (P.inertia a).cg) R.stages)⟩) hL3] at he
        cases h4 : logAll (endVals P a (sumStages a (P.inertia a).cg (zeroAt (P.inertia a).cg) R.stages)) L2 with
        | error e => rw [h4] at he; cases he
        | ok L4 =>
          rw [h4] at he
          simp only [Except.map] at he
          cases he
          exact ⟨L4, rfl, getElem?_set_here hL3 L4, by simp [putLog], rfl⟩

/-- A row of a sweep after the first: the aerodynamic force is that of the point, the columns of the components hold nothing. -/
def SweepRow (L : Log K (Val K)) (pt : List (List (Str × (A → V3 K → FMS K))) × A) (r : Row K (Val K)) : Prop :=
  r.time = P.time pt.2 ∧ (∀ c ∈ forceColumns L, r.cell c = none ∨ r.cell c = some (.vec 0)) ∧
    r.cell "AeroF(N)".toList = some (.vec (pt.1.flatten.map fun c => (c.2 pt.2 (P.inertia pt.2).cg).force).sum)

theorem sweepRow_fill {L : Log K (Val K)} {pt : List (List (Str × (A → V3 K → FMS K))) × A} {r : Row K (Val K)}
    (h : SweepRow P L pt r) {f : Name → Val K} (hf : ∀ c ∈ forceColumns L, f c = .vec 0) : SweepRow P L pt (r.fill f) := by
  refine ⟨h.1, ?_, ?_⟩
  · intro c hc
    right
    simp only [Row.fill, Option.some.injEq]
    rcases h.2.1 c hc with e | e
    · rw [e]; exact hf c hc
    · rw [e]; rfl
  · simp only [Row.fill, h.2.2, Option.getD_some]

/-- The state of a sweep: `done` are the points after the first. -/
structure SweepInv (C : List Name) (S : Sim A K) (done : List (List (List (Str × (A → V3 K → FMS K))) × A)) : Prop where
  cell : ∀ c, S.mem.cell = some c → c.1.1 < S.next
  log : ∃ L T r0 rs, S.mem.logs[0]? = some L ∧ LogOk False L T ∧ T = r0 :: rs ∧ forceColumns L = C ∧
    List.Forall₂ (SweepRow P L) done rs

theorem forall₂_fillLast {L : Log K (Val K)} {f : Name → Val K} (hf : ∀ c ∈ forceColumns L, f c = .vec 0) :
    ∀ (done : List (List (List (Str × (A → V3 K → FMS K))) × A)) (rs : Table K (Val K)) (r0 : Row K (Val K)),
      List.Forall₂ (SweepRow P L) done rs → ∃ r0' rs', Table.fillLast f (r0 :: rs) = r0' :: rs' ∧ List.Forall₂ (SweepRow P L) done rs' := by
  intro done
  induction done with
  | nil =>
    intro rs r0 h
    cases h
    exact ⟨_, [], rfl, List.Forall₂.nil⟩
  | cons d done ih =>
    intro rs r0 h
    cases h with
    | cons h1 h2 =>
      rename_i r rs
      obtain ⟨r1, rs1, e1, e2⟩ := ih rs r h2
      have hhead : SweepRow P L d r1 := by
        cases rs with
        | nil =>
          simp only [Table.fillLast, List.cons.injEq] at e1
          rw [← e1.1]; exact sweepRow_fill P h1 hf
        | cons q rs =>
          simp only [Table.fillLast, List.cons.injEq] at e1
          rw [← e1.1]; exact h1
      exact ⟨r0, r1 :: rs1, by rw [Table.fillLast]; rw [e1]; simp, List.Forall₂.cons hhead e2⟩

theorem SweepInv.point {C : List Name} {S S' : Sim A K} {done : List (List (List (Str × (A → V3 K → FMS K))) × A)} (h : SweepInv P C S done)
    {eqv : A → A → Bool} {pt : List (List (Str × (A → V3 K → FMS K))) × A} (hs : sweepPoint P eqv false S pt = .ok S') :
    SweepInv P C S' (done ++ [pt]) := by
  unfold sweepPoint at hs
  cases hcr : create 3 pt.1 none S with
  | error e => rw [hcr] at hs; cases hs
  | ok S1 =>
    rw [hcr] at hs
    dsimp only at hs
    obtain ⟨R, M, e1, e2, e3, -, -, e6, e7, e8, -, e10, e11, e12, -, -⟩ := (create_spec (G := False) (by decide) pt.1 none S).2 S1 hcr
    obtain ⟨L, T, r0, rs, hL, hT, rfl, hC, hrs⟩ := h.log
    rw [e1, List.getLast?_concat] at hs
    simp only [Bool.false_eq_true, if_false] at hs
    cases he : evaluate P eqv { R with log := some 0 } pt.2 S1.mem with
    | error e => rw [he] at hs; cases hs
    | ok r =>
      rw [he] at hs
      cases hs
      have hlen : 0 < S.mem.logs.length := (List.getElem?_eq_some_iff.1 hL).1
      have hL1 : S1.mem.logs[0]? = some L := by rw [e2, List.getElem?_append_left hlen]; exact hL
      have hM1 : S1.mem.logs[S.mem.logs.length]? = some M := by rw [e2]; simp
      have hcell : ∀ n, S.next ≤ n → cellId S1.mem ≠ some n := by
        intro n hn hc
        unfold cellId at hc
        rw [e3] at hc
        cases hm : S.mem.cell with
        | none => rw [hm] at hc; cases hc
        | some c =>
          rw [hm] at hc
          have := h.cell c hm
          simp only [Option.map_some, Option.some.injEq] at hc
          omega
      obtain ⟨L', q1, q2, q3, q4⟩ := evaluate_foreign P (i := 0) (j := S.mem.logs.length) (R := { R with log := some 0 }) (by omega) rfl e8
        hL1 hM1 (by
          intro p hp
          dsimp only at hp
          rw [e12] at hp
          obtain ⟨c, _, rfl⟩ := List.mem_map.1 hp
          exact ⟨_, _, rfl⟩) (by dsimp only; rw [e10]; exact List.nodup_range') (by
          intro s hs
          dsimp only at hs
          have : s.id ∈ R.stages.map StageC.id := List.mem_map.2 ⟨s, hs, rfl⟩
          rw [e10, List.mem_range'_1] at this
          exact hcell _ (by omega)) (cached_other (by dsimp only; rw [e6]; exact hcell _ (le_refl _)) _) he
      obtain ⟨r', g1, g2, g3, g4, g5⟩ := logOk_eval P hT (wired_nil (A := A) 0 L) pt.2 (P.inertia pt.2).cg _ (fun hG => hG.elim)
        _ (names_apart P pt.2 (zeroAt 0)).2.2.1 (names_apart P pt.2 _).1 (by simpa [partVals] using q1)
      have hfc : forceColumns L' = forceColumns L := by simp only [forceColumns, g3]
      refine ⟨?_, L', ?_⟩
      · intro c hc
        dsimp only at hc ⊢
        rw [q4] at hc
        cases hc
        dsimp only
        rw [e6, e11]; omega
      · obtain ⟨r0', rs', f1, f2⟩ := forall₂_fillLast P (L := L) (f := fillOf L) (fun c hc => hT.fill c (List.mem_cons_of_mem _ hc)) done rs r0 hrs
        refine ⟨Table.fillLast (fillOf L) (r0 :: rs) ++ [r'], r0', rs' ++ [r'], q2, g1, by rw [f1]; rfl, by rw [hfc]; exact hC, ?_⟩
        have hconv : ∀ p r, SweepRow P L p r → SweepRow P L' p r := by
          intro p r hr
          unfold SweepRow at hr ⊢
          rw [hfc]; exact hr
        have hr' : SweepRow P L' pt r' := by
          refine ⟨g2, ?_, ?_⟩
          · intro c hc
            left
            refine g5 c ?_
            intro hm
            have hsub : (startVals P pt.2 ++ flowVals P pt.2 ++ partVals pt.2 (P.inertia pt.2).cg ([] : List (Part A K)) ++
                endVals P pt.2 (sumStages pt.2 (P.inertia pt.2).cg (zeroAt (P.inertia pt.2).cg) R.stages)).map Prod.fst ⊆ rocketNames := by
              simp only [partVals, List.flatMap_nil, List.append_nil, startVals, flowVals, endVals, List.map_append, List.map_cons,
                List.map_nil, List.cons_append, List.nil_append]
              decide +kernel
            exact (mem_forceColumns.1 hc).2.2 (hsub hm)
          · have := g4 ("AeroF(N)".toList, .vec (sumStages pt.2 (P.inertia pt.2).cg (zeroAt (P.inertia pt.2).cg) R.stages).force)
              (List.mem_append_right _ (List.mem_of_getElem? (i := 6) rfl))
            dsimp only at this
            rw [this, sumZero_force, e12, List.map_map]
            rfl
        refine List.rel_append (R := SweepRow P L') ?_ (List.Forall₂.cons hr' List.Forall₂.nil)
        exact f2.imp hconv

theorem SweepInv.points {C : List Name} {eqv : A → A → Bool} : ∀ (pts : List (List (List (Str × (A → V3 K → FMS K))) × A)) {S S' : Sim A K}
    {done : List (List (List (Str × (A → V3 K → FMS K))) × A)}, SweepInv P C S done →
    pts.foldlM (sweepPoint P eqv false) S = .ok S' → SweepInv P C S' (done ++ pts) := by
  intro pts
  induction pts with
  | nil => intro S S' done h hr; cases hr; simpa using h
  | cons pt pts ih =>
    intro S S' done h hr
    rw [List.foldlM_cons] at hr
    cases hs : sweepPoint P eqv false S pt with
    | error e => rw [hs] at hr; cases hr
    | ok S1 =>
      rw [hs] at hr
      have := ih (h.point P hs) hr
      simpa using this

theorem SweepInv.first {eqv : A → A → Bool} {pt : List (List (Str × (A → V3 K → FMS K))) × A} {S : Sim A K}
    (hs : sweepPoint P eqv true Sim.start pt = .ok S) : 
      SweepInv P (pt.1.flatten.map fun c => stemOf c.1 ++ "F(N)".toList) S [] := by
  have hrun : run P eqv Sim.start [.create 3 pt.1 none, .eval 0 pt.2] = .ok S ∧ ∃ S1 : Sim A K, create 3 pt.1 none Sim.start = .ok S1 ∧
      step P eqv S1 (.eval 0 pt.2) = .ok S := by
    unfold sweepPoint at hs
    cases hcr : create 3 pt.1 none Sim.start with
    | error e => rw [hcr] at hs; cases hs
    | ok S1 =>
      rw [hcr] at hs
      dsimp only at hs
      obtain ⟨R, M, e1, -⟩ := (create_spec (G := False) (by decide) pt.1 none Sim.start).2 S1 hcr
      have e1' : S1.rockets = [R] := e1
      rw [e1'] at hs
      simp only [List.getLast?_singleton, if_true] at hs
      have hst : step P eqv S1 (.eval 0 pt.2) = .ok S := by
        simp only [step, e1', List.getElem?_cons_zero]
        exact hs
      refine ⟨?_, S1, rfl, hst⟩
      unfold run
      rw [List.foldlM_cons]
      simp only [step, hcr, bind, Except.bind, List.foldlM_cons, List.foldlM_nil]
      simp only [step] at hst
      rw [hst]; rfl
  obtain ⟨hrun, S1, hcr, hst⟩ := hrun
  obtain ⟨last, hi⟩ := reachable P hrun
  obtain ⟨R, M, e1, e2, -, -, e5, -, e7, -, -, -, -, -, -, e14⟩ := (create_spec (G := False) (by decide) pt.1 none Sim.start).2 S1 hcr
  have hS : S.rockets = [R] := by
    simp only [step] at hst
    split at hst
    · cases hst
    · split at hst
      · cases hst
      · cases hst; exact e1
  have hk : S.rockets[0]? = some R := by rw [hS]; rfl
  obtain ⟨L, hL, ht⟩ := log_rows P hrun 0 R 0 hk e7
  simp [timesStep] at ht
  obtain ⟨T, hT⟩ := hi.logs 0 L hL
  have hT1 : ∃ r0, T = [r0] := by
    have h1 := hT.rep.times
    rw [← ht] at h1
    have h2 := congrArg List.length h1
    rw [List.length_map] at h2
    exact List.length_eq_one_iff.1 h2.symm
  obtain ⟨r0, rfl⟩ := hT1
  refine ⟨?_, L, [r0], r0, [], hL, hT, rfl, ?_, List.Forall₂.nil⟩
  · intro c hc
    obtain ⟨⟨id, a⟩, F⟩ := c
    obtain ⟨k, Q, g1, g2, _⟩ := hi.cell id a F hc
    dsimp only
    rw [← g2]
    exact hi.idLt Q (List.mem_of_getElem? g1)
  · -- the columns are those the rocket was created with
    have hkeys : Dict.keys L.cols = rocketNames ++ (pt.1.flatten.flatMap fun c => twoColumns c.1) := by
      have hM : S1.mem.logs = [M] := e2
      have hR1 : S1.rockets = [R] := e1
      have hr1 : run P eqv Sim.start [.create 3 pt.1 none] = .ok S1 := by
        unfold run
        simp only [List.foldlM_cons, List.foldlM_nil, step, hcr, bind, Except.bind]; rfl
      obtain ⟨last1, hi1⟩ := reachable P hr1
      have hk1 : S1.rockets[0]? = some R := by rw [hR1]; rfl
      rw [← e5]
      -- the evaluation keeps the columns
      obtain ⟨L1, T1, hL1, hT1, hwp, hwr⟩ := hi1.logged hk1 e7
      have hLM : L1 = M := by
        rw [hM] at hL1
        rw [show (Sim.start : Sim A K).mem.logs.length = 0 from rfl] at hL1
        exact (Option.some.inj hL1).symm
      subst hLM
      have hu : R.underChute = false := by
        obtain ⟨R', M', x1, -, -, -, -, -, -, x8, -⟩ := (create_spec (G := False) (by decide) pt.1 none Sim.start).2 S1 hcr
        have : R' = R := by
          have : S1.rockets = [R'] := x1
          rw [hR1] at this
          simpa using this.symm
        rw [← this]; exact x8
      have hcell0 : S1.mem.cell = none := by
        obtain ⟨R', M', -, -, x3, -⟩ := (create_spec (G := False) (by decide) pt.1 none Sim.start).2 S1 hcr
        rw [x3]; rfl
      simp only [step, hk1] at hst
      rw [evaluate_fresh P e7 hu hL1 hwp.own (hi1.stage R (List.mem_of_getElem? hk1)).1 (hi1.cell_stage (List.mem_of_getElem? hk1))
        (by unfold cached; rw [hcell0])] at hst
      cases hrn : LogM.run (evalOps (P.time pt.2) (startVals P pt.2 ++ flowVals P pt.2 ++ partVals pt.2 (P.inertia pt.2).cg (allParts R.stages) ++
          endVals P pt.2 (sumStages pt.2 (P.inertia pt.2).cg (zeroAt (P.inertia pt.2).cg) R.stages))) L1 with
      | error e => rw [hrn] at hst; cases hst
      | ok L' =>
        rw [hrn] at hst
        cases hst
        obtain ⟨r', -, -, q3, -⟩ := logOk_eval P hT1 hwp pt.2 (P.inertia pt.2).cg _ (fun hG => hG.elim) _ (names_apart P pt.2 (zeroAt 0)).2.2.1
          (names_apart P pt.2 _).1 hrn
        have hLL : L = L' := by
          have := putLog_get (A := A) hL1 L'
          have h2 : (putLog S1.mem 0 L').logs[0]? = some L := hL
          rw [show (Sim.start : Sim A K).mem.logs.length = 0 from rfl] at this
          rw [this] at h2
          exact (Option.some.inj h2).symm
        rw [hLL]; exact q3
    have hnd : (rocketNames ++ pt.1.flatten.flatMap fun c => twoColumns c.1).Nodup :=
      ((create_spec (G := False) (by decide) pt.1 none Sim.start).1.1 ⟨S1, hcr⟩).2
    rw [forceColumns, hkeys, List.filter_append]
    have e0 : rocketNames.filter (fun c => decide (IsForce c)) = [] := by
      rw [List.filter_eq_nil_iff]
      intro c hc hf
      simp only [decide_eq_true_eq] at hf
      exact hf.2 hc
    rw [e0, List.nil_append]
    have hout : ∀ c ∈ (pt.1.flatten.flatMap fun c => twoColumns c.1), c ∉ rocketNames :=
      fun c hc hr => (List.nodup_append.1 hnd).2.2 c hr c hc rfl
    revert hout
    generalize pt.1.flatten = cs
    intro hout
    clear hnd hkeys
    induction cs with
    | nil => rfl
    | cons c cs ih =>
      rw [List.flatMap_cons, List.filter_append, ih (fun x hx => hout x (by rw [List.flatMap_cons]; exact List.mem_append_right _ hx)),
        List.map_cons]
      have hF : IsForce (stemOf c.1 ++ "F(N)".toList) :=
        ⟨List.suffix_append _ _, hout _ (by rw [List.flatMap_cons]; exact List.mem_append_left _ (by simp [twoColumns]))⟩
      have hMn : ¬ IsForce (stemOf c.1 ++ "M(Nm)".toList) := fun h => suffix_apart h.1 (List.suffix_append _ _)
      simp only [twoColumns, List.filter_cons, List.filter_nil, decide_eq_true_eq, if_pos hF, if_neg hMn]
      rfl

/-- **C90 violated: parameter sweeps.** In the log that a sweep writes, every row after the first shows the aerodynamic force of its point,
but zero in every column of a component. -/
theorem sweep_violated {eqv : A → A → Bool} {pt : List (List (Str × (A → V3 K → FMS K))) × A}
    {pts : List (List (List (Str × (A → V3 K → FMS K))) × A)} {S : Sim A K} (h : runSweep P eqv (pt :: pts) = .ok S) :
    ∃ L rows, S.mem.logs[0]? = some L ∧ writeRows L = .ok rows ∧ rows.length = pts.length + 1 ∧
      ∀ (n : Nat) p row, pts[n]? = some p → rows[n + 1]? = some row → row.1 = P.time p.2 ∧
        (∀ c ∈ pt.1.flatten, ∀ v, (stemOf c.1 ++ "F(N)".toList, v) ∈ row.2 ↔ v = .vec ⟨0, 0, 0⟩) ∧
        ∀ v, ("AeroF(N)".toList, v) ∈ row.2 ↔ v = .vec (p.1.flatten.map fun c => (c.2 p.2 (P.inertia p.2).cg).force).sum := by
  rw [runSweep] at h
  cases h1 : sweepPoint P eqv true Sim.start pt with
  | error e => rw [h1] at h; cases h
  | ok S1 =>
    rw [h1] at h
    dsimp only at h
    have hinv := SweepInv.points P pts (SweepInv.first P h1) h
    rw [List.nil_append] at hinv
    obtain ⟨L, T, r0, rs, hL, hT, rfl, hC, hrs⟩ := hinv.log
    obtain ⟨rows, g1, g2, g3⟩ := written_cells hT.inv hT.rep
    have hlen : pts.length = rs.length := hrs.length_eq
    refine ⟨L, rows, hL, g1, by rw [g2, List.length_cons, hlen], ?_⟩
    intro n p row hp hrow
    obtain ⟨hn1, rfl⟩ := List.getElem?_eq_some_iff.1 hp
    obtain ⟨hn2, rfl⟩ := List.getElem?_eq_some_iff.1 hrow
    obtain ⟨q1, q2⟩ := g3 (n + 1) hn2 (by simp; omega)
    have hr : SweepRow P L pts[n] rs[n] := List.Forall₂.get hrs hn1 (by omega)
    simp only [List.getElem_cons_succ] at q1 q2
    refine ⟨by rw [q1]; exact hr.1, ?_, ?_⟩
    · intro c0 hc0 v
      have hc : stemOf c0.1 ++ "F(N)".toList ∈ forceColumns L := by rw [hC]; exact List.mem_map.2 ⟨c0, hc0, rfl⟩
      revert hc
      generalize stemOf c0.1 ++ "F(N)".toList = c
      intro hc
      have hfill := hT.fill c (List.mem_cons_of_mem _ hc)
      rw [q2 c (mem_forceColumns.1 hc).1 v]
      rcases hr.2.1 c hc with e | e
      · rw [e, Option.getD_none, hfill]; rfl
      · rw [e, Option.getD_some]; rfl
    · intro v
      rw [q2 _ (hT.base (by decide +kernel)) v, hr.2.2, Option.getD_some]

end

/-! ## the hypotheses can be met -/

section Examples

/-- A physics with numbers: forces are evaluated at times. -/
private def exP : Physics ℚ ℚ where
  time a := a
  position a := ⟨0, 0, a⟩
  velocity _ := ⟨0, 0, 1⟩
  orientation _ := ⟨1, 0, 0, 0⟩
  angularVelocity _ := 0
  mach a := a / 300
  unitRe _ := 1
  aoaDeg _ := 0
  roll _ := 0
  wind _ := 0
  density _ := 1
  inertia _ := ⟨⟨1, 1, 1⟩, ⟨0, 0, -2⟩, 10, ⟨0, 0, -2⟩⟩
  gravity _ := ⟨⟨0, 0, -98⟩, ⟨0, 0, -2⟩, 0⟩
  rail _ f := f
  cpz f := f.loc.z

private def exStages : List (List (Str × (ℚ → V3 ℚ → FMS ℚ))) :=
  [[("Rocket.Sustainer.Nosecone".toList, fun a _ => ⟨⟨0, 0, -a⟩, 0, 0⟩)],
   [("Rocket.Booster.Motor".toList, fun _ _ => ⟨⟨0, 0, 5⟩, ⟨0, 0, -3⟩, 0⟩),
    ("Rocket.Booster.Chute".toList, fun a _ => ⟨⟨a, 0, 0⟩, 0, 0⟩)]]

private def exEq (a b : ℚ) : Bool := a == b

private theorem exists_of_isOk {α : Type} {x : Except PyErr α} (h : x.isOk = true) : ∃ y, x = .ok y := by
  cases x with
  | ok y => exact ⟨y, rfl⟩
  | error e => cases h

private def exEvs : List (Ev ℚ ℚ) := [.create 3 exStages (some 2), .eval 0 0, .eval 0 1, .eval 0 2, .discard 1, .eval 0 (3/2),
  .create 2 [[("Rocket.Booster.Motor".toList, fun _ _ => ⟨⟨0, 0, 5⟩, ⟨0, 0, -3⟩, 0⟩)]] none,
  .drop 0 (some fun _ _ => ⟨⟨0, 0, -1⟩, 0, 0⟩), .eval 1 1, .eval 0 2]

/-- `rows_add_up_partial`, `log_rows`: a flight of two stages with a rejected step and a separation. -/
example : (∃ S, run exP exEq Sim.start exEvs = .ok S) ∧ ∀ k, (evalsOf k exEvs).IsChain fun a b => exEq a b = false := by
  refine ⟨exists_of_isOk (by decide +kernel), fun k => ?_⟩
  match k with
  | 0 => decide +kernel
  | 1 => decide +kernel
  | n + 2 => simp [evalsOf, exEvs]

/-- `eval_row`, `eval_cell`, `chute_row`, `repeat_violated`, `discard_all_violated`: what happens next succeeds. -/
example : (∃ S, run exP exEq Sim.start (exEvs ++ [.eval 0 3]) = .ok S) ∧ (∃ S, run exP exEq Sim.start (exEvs ++ [.eval 0 2]) = .ok S) ∧
    (∃ S, run exP exEq Sim.start (exEvs ++ [.deploy 0, .eval 0 2]) = .ok S) ∧ ∃ S, run exP exEq Sim.start (exEvs ++ [.discard 1]) = .ok S :=
  ⟨exists_of_isOk (by decide +kernel), exists_of_isOk (by decide +kernel), exists_of_isOk (by decide +kernel), exists_of_isOk (by decide +kernel)⟩

/-- `create_spec`: the conditions hold for the example. -/
example : (∀ c ∈ exStages.flatten, '.' ∈ c.1) ∧ (rocketNames ++ exStages.flatten.flatMap fun c => twoColumns c.1).Nodup :=
  ((create_spec (G := False) (level := 3) (by decide) exStages none Sim.start).1.1 (exists_of_isOk (by decide +kernel)))

/-- `sweep_violated`: a sweep of three points. -/
example : ∃ S, runSweep exP exEq [(exStages, 1), (exStages, 2), (exStages, 2)] = .ok S := exists_of_isOk (by decide +kernel)

/-- `evaluate_foreign`: the second point of a sweep. -/
example : (sweepPoint exP exEq true Sim.start (exStages, 1) >>= fun S => sweepPoint exP exEq false S (exStages, 2)).isOk = true := by
  decide +kernel

end Examples
end Mapleaf.FLog
