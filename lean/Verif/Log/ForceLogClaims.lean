import Verif.Log.ForceLogRunProps

/-!
# C90: what the rows hold, and where the sum fails
-/

namespace Mapleaf.FLog
open Mapleaf.Motion Mapleaf.LogM

section
variable {A K : Type} [Field K] [LinearOrder K] {G : Prop}

/-! ## the last row of the file -/

theorem written_last {L : Log K (Val K)} {T : Table K (Val K)} {r : Row K (Val K)} (hi : Inv L) (hr : Rep L (T ++ [r])) :
    ∃ rows row, writeRows L = .ok rows ∧ rows.getLast? = some row ∧ row.1 = r.time ∧
      ∀ c ∈ Dict.keys L.cols, ∀ v, (c, v) ∈ row.2 ↔ v = (r.cell c).getD (fillOf L c) := by
  obtain ⟨rows, h1, h2, h3⟩ := written_cells hi hr
  have hn : rows.length = T.length + 1 := by rw [h2]; simp
  have hlt : T.length < rows.length := by omega
  obtain ⟨h4, h5⟩ := h3 T.length hlt (by simp)
  simp only [List.getElem_concat_length] at h4 h5
  refine ⟨rows, rows[T.length], h1, ?_, h4, h5⟩
  rw [List.getLast?_eq_getElem?, hn]
  simp only [Nat.add_sub_cancel]
  exact List.getElem?_eq_getElem hlt

/-- The last line of the file of log number `i` has time `t` and the value `v` in column `c` for each of `cells`. -/
def LastRow (S : Sim A K) (i : Nat) (t : K) (cells : List (Name × Val K)) : Prop :=
  ∃ L rows row, S.mem.logs[i]? = some L ∧ writeRows L = .ok rows ∧ rows.getLast? = some row ∧ row.1 = t ∧
    ∀ p ∈ cells, ∀ v, (p.1, v) ∈ row.2 ↔ v = p.2

theorem lastRow_of {S : Sim A K} {i : Nat} {L : Log K (Val K)} {T : Table K (Val K)} {r : Row K (Val K)} {vals cells : List (Name × Val K)}
    (hL : S.mem.logs[i]? = some L) (hT : LogOk G L (T ++ [r])) (h1 : ∀ p ∈ vals, r.cell p.1 = some p.2)
    (h2 : ∀ c, c ∉ vals.map Prod.fst → r.cell c = none)
    (hc : ∀ p ∈ cells, p.1 ∈ Dict.keys L.cols ∧ (p ∈ vals ∨ (p.1 ∉ vals.map Prod.fst ∧ fillOf L p.1 = p.2))) :
    LastRow S i r.time cells := by
  obtain ⟨rows, row, g1, g2, g3, g4⟩ := written_last hT.inv hT.rep
  refine ⟨L, rows, row, hL, g1, g2, g3, ?_⟩
  intro p hp v
  obtain ⟨hk, hv⟩ := hc p hp
  rw [g4 p.1 hk v]
  rcases hv with hv | ⟨hv, hf⟩
  · rw [h1 p hv]; rfl
  · rw [h2 _ hv, hf]; rfl

variable (P : Physics A K)

/-- The eighteen columns of the rocket, for the aerodynamic force `F` of the components. -/
def rocketCells (a : A) (F : FMS K) (flow : Bool) : List (Name × Val K) :=
  let cg := (P.inertia a).cg
  [("Position(m)".toList, .vec (P.position a)), ("Velocity(m/s)".toList, .vec (P.velocity a)),
   ("OrientationQuaternion".toList, .quat (if flow then P.orientation a else ⟨0, 0, 0, 0⟩)),
   ("AngularVelocity(rad/s)".toList, .vec (if flow then P.angularVelocity a else ⟨0, 0, 0⟩)),
   ("CG(m)".toList, .vec cg), ("MOI(kg*m^2)".toList, .vec (P.inertia a).moi), ("Mass(kg)".toList, .num (P.inertia a).mass),
   ("Wind(m/s)".toList, .vec (P.wind a)), ("AirDensity(kg/m^3)".toList, .num (P.density a)),
   ("Mach".toList, .num (if flow then P.mach a else 0)), ("UnitRe".toList, .num (if flow then P.unitRe a else 0)),
   ("AOA(deg)".toList, .num (if flow then P.aoaDeg a else 0)), ("RollAngle(deg)".toList, .num (if flow then P.roll a else 0)),
   ("CPZ(m)".toList, .num (P.cpz (F.getAt cg))), ("AeroF(N)".toList, .vec F.force), ("AeroM(Nm)".toList, .vec (F.getAt cg).moment),
   ("GravityF(N)".toList, .vec (P.gravity a).force), ("TotalF(N)".toList, .vec (P.rail a ((F.getAt cg).add (P.gravity a))).force)]

theorem cells_logged (a : A) (F : FMS K) (mid : List (Name × Val K)) : ∀ p ∈ rocketCells P a F true,
    p ∈ startVals P a ++ flowVals P a ++ mid ++ endVals P a F := by
  intro p hp
  have : p ∈ startVals P a ++ flowVals P a ++ endVals P a F := by
    simp only [rocketCells, if_true, List.mem_cons, List.not_mem_nil, or_false] at hp
    have e : (atCG P a F).force = F.force := rfl
    simp only [startVals, flowVals, endVals, atCG, totalForce, List.cons_append, List.nil_append]
    rcases hp with rfl | rfl | rfl | rfl | rfl | rfl | rfl | rfl | rfl | rfl | rfl | rfl | rfl | rfl | rfl | rfl | rfl | rfl
    · exact List.mem_of_getElem? (i := 0) rfl
    · exact List.mem_of_getElem? (i := 1) rfl
    · exact List.mem_of_getElem? (i := 6) rfl
    · exact List.mem_of_getElem? (i := 7) rfl
    · exact List.mem_of_getElem? (i := 10) rfl
    · exact List.mem_of_getElem? (i := 11) rfl
    · exact List.mem_of_getElem? (i := 12) rfl
    · exact List.mem_of_getElem? (i := 8) rfl
    · exact List.mem_of_getElem? (i := 9) rfl
    · exact List.mem_of_getElem? (i := 2) rfl
    · exact List.mem_of_getElem? (i := 3) rfl
    · exact List.mem_of_getElem? (i := 4) rfl
    · exact List.mem_of_getElem? (i := 5) rfl
    · exact List.mem_of_getElem? (i := 13) rfl
    · exact List.mem_of_getElem? (i := 14) rfl
    · exact List.mem_of_getElem? (i := 15) rfl
    · exact List.mem_of_getElem? (i := 16) rfl
    · exact List.mem_of_getElem? (i := 17) rfl
  rw [List.mem_append] at this ⊢
  rcases this with h | h
  · exact Or.inl (List.mem_append_left _ h)
  · exact Or.inr h

theorem reachable {eqv : A → A → Bool} {evs : List (Ev A K)} {S : Sim A K} (h : run P eqv Sim.start evs = .ok S) :
    ∃ last, SimInv False S last (evs.foldl (timesStep P) []) :=
  run_inv_of (G := False) P evs SimInv.start h (fun hG => hG.elim)

/-- What the invariant says about a rocket with a log. -/
theorem SimInv.logged {S : Sim A K} {last : Nat → Option A} {rows : List (List K)} (h : SimInv G S last rows) {k i : Nat}
    {R : RocketC A K} (hk : S.rockets[k]? = some R) (hl : R.log = some i) :
    ∃ L T, S.mem.logs[i]? = some L ∧ LogOk G L T ∧ Wired i L (allParts R.stages) ∧ ∀ p, R.recovery = some p → Wired i L [p] := by
  obtain ⟨h1, _⟩ := h.rows_same hk
  have hw := h.wired k R _ hk h1
  unfold WiredR at hw
  rw [hl] at hw
  obtain ⟨L, hL, hwp, hwr, _⟩ := hw
  obtain ⟨T, hT⟩ := h.logs i L hL
  exact ⟨L, T, hL, hT, hwp, hwr⟩

theorem rocketCells_names (a : A) (F : FMS K) (b : Bool) : (rocketCells P a F b).map Prod.fst = rocketNames := rfl

/-- The two entries of each component. -/
def partCells (a : A) (cg : V3 K) (ps : List (Part A K)) : List (Name × Val K) :=
  ps.flatMap fun p => match p.ref with
    | none => []
    | some r => [(r.f, .vec (p.force a cg).force), (r.m, .vec (p.force a cg).moment)]

/-- **C90: the row of an evaluation.** In any simulation, an evaluation whose arguments are not those of the previous one adds a row: the
rocket's columns, the force and the moment of each component in its own columns. -/
theorem eval_row {eqv : A → A → Bool} {evs : List (Ev A K)} {S S' : Sim A K} (h : run P eqv Sim.start evs = .ok S) {k i : Nat}
    {R : RocketC A K} {a : A} (hk : S.rockets[k]? = some R) (hl : R.log = some i) (hu : R.underChute = false)
    (hf : ∀ a' F, S.mem.cell = some ((R.id, a'), F) → eqv a' a = false) (hs : step P eqv S (.eval k a) = .ok S') :
    ∃ F : FMS K, F.force = ((allParts R.stages).map fun p => (p.force a (P.inertia a).cg).force).sum ∧
      LastRow S' i (P.time a) (rocketCells P a F true ++ partCells a (P.inertia a).cg (allParts R.stages)) := by
  obtain ⟨last, hi⟩ := reachable P h
  obtain ⟨L, T, hL, hT, hwp, _⟩ := hi.logged hk hl
  have hR : R ∈ S.rockets := List.mem_of_getElem? hk
  have hc : cached eqv S.mem R.id a = none := by
    unfold cached
    cases hm : S.mem.cell with
    | none => rfl
    | some c =>
      obtain ⟨⟨id, a'⟩, F⟩ := c
      dsimp only
      rw [if_neg]
      rintro ⟨rfl, he⟩
      rw [hf a' F hm] at he; cases he
  simp only [step, hk] at hs
  rw [evaluate_fresh P hl hu hL hwp.own (hi.stage R hR).1 (hi.cell_stage hR) hc] at hs
  refine ⟨sumStages a (P.inertia a).cg (zeroAt (P.inertia a).cg) R.stages, sumZero_force a _ R.stages, ?_⟩
  cases hrun : LogM.run (evalOps (P.time a) (startVals P a ++ flowVals P a ++ partVals a (P.inertia a).cg (allParts R.stages) ++
      endVals P a (sumStages a (P.inertia a).cg (zeroAt (P.inertia a).cg) R.stages))) L with
  | error e => rw [hrun] at hs; cases hs
  | ok L' =>
    rw [hrun] at hs
    cases hs
    obtain ⟨r', q1, q2, q3, q4, q5⟩ := logOk_eval P hT hwp a (P.inertia a).cg _ (fun hG => hG.elim) _ (names_apart P a (zeroAt 0)).2.2.1
      (names_apart P a _).1 hrun
    rw [← q2]
    refine lastRow_of (putLog_get hL L') q1 q4 q5 ?_
    intro p hp
    rcases List.mem_append.1 hp with hp | hp
    · refine ⟨?_, Or.inl (cells_logged P a _ _ p hp)⟩
      refine q1.base ?_
      rw [← rocketCells_names P a]
      exact List.mem_map.2 ⟨p, hp, rfl⟩
    · have hm : p ∈ partVals a (P.inertia a).cg (allParts R.stages) := hp
      refine ⟨?_, Or.inl (List.mem_append_left _ (List.mem_append_right _ hm))⟩
      rw [q3]
      rcases mem_partNames.1 (List.mem_map.2 ⟨p, hm, rfl⟩) with hn | hn
      · exact (hwp.force _ hn).1
      · exact (hwp.moment _ hn).1

theorem fill_zero {L : Log K (Val K)} {T : Table K (Val K)} (h : LogOk G L T) (n : Nat) {p : Name × Val K}
    (hp : (baseColumns : List (Name × Val K))[n]? = some p) : fillOf L p.1 = p.2 := h.fillBase p (List.mem_of_getElem? hp)

/-- Under a parachute the columns of the flow keep their fill values. -/
theorem cells_chute {L : Log K (Val K)} {T : Table K (Val K)} (h : LogOk G L T) (a : A) (F : FMS K) (mid : List (Name × Val K))
    (hmid : ∀ c ∈ mid.map Prod.fst, c ∉ rocketNames) : ∀ p ∈ rocketCells P a F false,
    p ∈ startVals P a ++ mid ++ endVals P a F ∨ (p.1 ∉ (startVals P a ++ mid ++ endVals P a F).map Prod.fst ∧ fillOf L p.1 = p.2) := by
  intro p hp
  have hin : ∀ p, p ∈ startVals P a ++ endVals P a F → p ∈ startVals P a ++ mid ++ endVals P a F := by
    intro p hp
    rcases List.mem_append.1 hp with h | h
    · exact List.mem_append_left _ (List.mem_append_left _ h)
    · exact List.mem_append_right _ h
  have hout : ∀ c, c ∈ rocketNames → c ∉ (startVals P a ++ endVals P a F).map Prod.fst →
      c ∉ (startVals P a ++ mid ++ endVals P a F).map Prod.fst := by
    intro c hc hn
    simp only [List.map_append, List.mem_append, not_or] at hn ⊢
    exact ⟨⟨hn.1, fun hm => hmid c hm hc⟩, hn.2⟩
  have hnames : (startVals P a ++ endVals P a F).map Prod.fst = ["Position(m)".toList, "Velocity(m/s)".toList, "Wind(m/s)".toList,
      "AirDensity(kg/m^3)".toList, "CG(m)".toList, "MOI(kg*m^2)".toList, "Mass(kg)".toList, "CPZ(m)".toList, "AeroF(N)".toList,
      "AeroM(Nm)".toList, "GravityF(N)".toList, "TotalF(N)".toList] := rfl
  rw [hnames] at hout
  simp only [rocketCells, Bool.false_eq_true, if_false, List.mem_cons, List.not_mem_nil, or_false] at hp
  rcases hp with rfl | rfl | rfl | rfl | rfl | rfl | rfl | rfl | rfl | rfl | rfl | rfl | rfl | rfl | rfl | rfl | rfl | rfl
  · exact Or.inl (hin _ (List.mem_of_getElem? (i := 0) rfl))
  · exact Or.inl (hin _ (List.mem_of_getElem? (i := 1) rfl))
  · exact Or.inr ⟨hout _ (by dsimp only; decide +kernel) (by dsimp only; decide +kernel), fill_zero h 2 rfl⟩
  · exact Or.inr ⟨hout _ (by dsimp only; decide +kernel) (by dsimp only; decide +kernel), fill_zero h 3 rfl⟩
  · exact Or.inl (hin _ (List.mem_of_getElem? (i := 4) rfl))
  · exact Or.inl (hin _ (List.mem_of_getElem? (i := 5) rfl))
  · exact Or.inl (hin _ (List.mem_of_getElem? (i := 6) rfl))
  · exact Or.inl (hin _ (List.mem_of_getElem? (i := 2) rfl))
  · exact Or.inl (hin _ (List.mem_of_getElem? (i := 3) rfl))
  · exact Or.inr ⟨hout _ (by dsimp only; decide +kernel) (by dsimp only; decide +kernel), fill_zero h 9 rfl⟩
  · exact Or.inr ⟨hout _ (by dsimp only; decide +kernel) (by dsimp only; decide +kernel), fill_zero h 10 rfl⟩
  · exact Or.inr ⟨hout _ (by dsimp only; decide +kernel) (by dsimp only; decide +kernel), fill_zero h 11 rfl⟩
  · exact Or.inr ⟨hout _ (by dsimp only; decide +kernel) (by dsimp only; decide +kernel), fill_zero h 12 rfl⟩
  · exact Or.inl (hin _ (List.mem_of_getElem? (i := 7) rfl))
  · exact Or.inl (hin _ (List.mem_of_getElem? (i := 8) rfl))
  · exact Or.inl (hin _ (List.mem_of_getElem? (i := 9) rfl))
  · exact Or.inl (hin _ (List.mem_of_getElem? (i := 10) rfl))
  · exact Or.inl (hin _ (List.mem_of_getElem? (i := 11) rfl))

theorem Wired.names {i : Nat} {L : Log K (Val K)} {ps : List (Part A K)} (hw : Wired i L ps) (a : A) (cg : V3 K) :
    ∀ c ∈ (partVals a cg ps).map Prod.fst, c ∉ rocketNames ∧ c ∈ Dict.keys L.cols := by
  intro c hc
  rcases mem_partNames.1 hc with hc | hc
  · exact ⟨(hw.force c hc).2.2, (hw.force c hc).1⟩
  · exact ⟨(hw.moment c hc).2.2, (hw.moment c hc).1⟩

/-- **C90: the row of an evaluation under a parachute.** The aerodynamic force is that of the recovery system about the point (0, 0, -1);
Mach number, unit Reynolds number, angles and orientation are not logged and appear as zero. -/
theorem chute_row {eqv : A → A → Bool} {evs : List (Ev A K)} {S S' : Sim A K} (h : run P eqv Sim.start evs = .ok S) {k i : Nat}
    {R : RocketC A K} {a : A} (hk : S.rockets[k]? = some R) (hl : R.log = some i) (hu : R.underChute = true)
    (hs : step P eqv S (.eval k a) = .ok S') :
    ∃ p, R.recovery = some p ∧
      LastRow S' i (P.time a) (rocketCells P a (p.force a ⟨0, 0, -1⟩) false ++ partCells a ⟨0, 0, -1⟩ [p]) := by
  obtain ⟨last, hi⟩ := reachable P h
  obtain ⟨L, T, hL, hT, _, hwr⟩ := hi.logged hk hl
  simp only [step, hk] at hs
  cases hrec : R.recovery with
  | none =>
    exfalso
    have : evaluate P eqv R a S.mem ≠ .ok (S'.mem, totalForce P a (zeroAt 0)) ∧ ∀ r, evaluate P eqv R a S.mem ≠ .ok r := by
      have : ∀ r, evaluate P eqv R a S.mem ≠ .ok r := by
        intro r he
        simp only [evaluate, componentForces, hu, if_true, hrec] at he
        split at he <;> cases he
      exact ⟨this _, this⟩
    cases he : evaluate P eqv R a S.mem with
    | error e => rw [he] at hs; cases hs
    | ok r => exact this.2 r he
  | some p =>
    refine ⟨p, rfl, ?_⟩
    have hw := hwr p hrec
    rw [evaluate_chute P hl hu hL hrec hw.own] at hs
    cases hrun : LogM.run (evalOps (P.time a) (startVals P a ++ partVals a ⟨0, 0, -1⟩ [p] ++
        endVals P a (p.force a ⟨0, 0, -1⟩))) L with
    | error e => rw [hrun] at hs; cases hs
    | ok L' =>
      rw [hrun] at hs
      cases hs
      obtain ⟨r', q1, q2, q3, q4, q5⟩ := logOk_eval P hT hw a ⟨0, 0, -1⟩ (p.force a ⟨0, 0, -1⟩) (fun hG => hG.elim) (startVals P a)
        (names_apart P a (zeroAt 0)).2.2.2 (names_apart P a _).2.1 hrun
      rw [← q2]
      refine lastRow_of (putLog_get hL L') q1 q4 q5 ?_
      intro q hq
      rcases List.mem_append.1 hq with hq | hq
      · refine ⟨?_, cells_chute P q1 a _ _ (fun c hc => (hw.names a _ c hc).1) q hq⟩
        refine q1.base ?_
        rw [← rocketCells_names P a]
        exact List.mem_map.2 ⟨q, hq, rfl⟩
      · have hm : q ∈ partVals a ⟨0, 0, -1⟩ [p] := hq
        refine ⟨?_, Or.inl (List.mem_append_left _ (List.mem_append_right _ hm))⟩
        rw [q3]
        exact (hw.names a _ _ (List.mem_map.2 ⟨q, hm, rfl⟩)).2

/-- **C90 violated: the same arguments twice.** When a rocket is evaluated again with equal arguments, the row shows the same aerodynamic
force, but zero in every column of a component. -/
theorem repeat_violated {eqv : A → A → Bool} {evs : List (Ev A K)} {S S' : Sim A K} (h : run P eqv Sim.start evs = .ok S) {k i : Nat}
    {R : RocketC A K} {a b : A} {F : FMS K} (hk : S.rockets[k]? = some R) (hl : R.log = some i) (hu : R.underChute = false)
    (hc : S.mem.cell = some ((R.id, a), F)) (he : eqv a b = true) (hs : step P eqv S (.eval k b) = .ok S') :
    S'.mem.cell = some ((R.id, a), F) ∧ LastRow S' i (P.time b)
      (rocketCells P b F true ++ (fNames (allParts R.stages)).map fun c => (c, .vec ⟨0, 0, 0⟩)) := by
  obtain ⟨last, hi⟩ := reachable P h
  obtain ⟨L, T, hL, hT, hwp, _⟩ := hi.logged hk hl
  have hca : cached eqv S.mem R.id b = some F := by
    unfold cached
    rw [hc]
    dsimp only
    rw [if_pos ⟨rfl, he⟩]
  simp only [step, hk] at hs
  rw [evaluate_again P hl hu hL hca] at hs
  cases hrun : LogM.run (evalOps (P.time b) (startVals P b ++ flowVals P b ++ endVals P b F)) L with
  | error e => rw [hrun] at hs; cases hs
  | ok L' =>
    rw [hrun] at hs
    cases hs
    obtain ⟨r', q1, q2, q3, q4, q5⟩ := logOk_eval P hT (wired_nil (A := A) i L) b (P.inertia b).cg F (fun hG => hG.elim)
      _ (names_apart P b (zeroAt 0)).2.2.1 (names_apart P b _).1 (by simpa [partVals] using hrun)
    refine ⟨hc, ?_⟩
    rw [← q2]
    refine lastRow_of (putLog_get hL L') q1 q4 q5 ?_
    intro q hq
    rcases List.mem_append.1 hq with hq | hq
    · refine ⟨?_, Or.inl (cells_logged P b _ _ q hq)⟩
      refine q1.base ?_
      rw [← rocketCells_names P b]
      exact List.mem_map.2 ⟨q, hq, rfl⟩
    · obtain ⟨c, hcn, rfl⟩ := List.mem_map.1 hq
      have hcf := hwp.force c hcn
      refine ⟨by rw [q3]; exact hcf.1, Or.inr ⟨?_, ?_⟩⟩
      · dsimp only
        intro hm
        have hsub : (startVals P b ++ flowVals P b ++ partVals b (P.inertia b).cg ([] : List (Part A K)) ++ endVals P b F).map Prod.fst ⊆
            rocketNames := by
          simp only [partVals, List.flatMap_nil, List.append_nil, startVals, flowVals, endVals, List.map_append, List.map_cons,
            List.map_nil, List.cons_append, List.nil_append]
          decide +kernel
        exact hcf.2.2 (hsub hm)
      · exact q1.fill c (List.mem_cons_of_mem _ (mem_forceColumns.2 ⟨by rw [q3]; exact hcf.1, hcf.2⟩))

/-- The cell after an evaluation holds its arguments. -/
theorem eval_cell {eqv : A → A → Bool} {evs : List (Ev A K)} {S S' : Sim A K} (h : run P eqv Sim.start evs = .ok S) {k i : Nat}
    {R : RocketC A K} {a : A} (hk : S.rockets[k]? = some R) (hl : R.log = some i) (hu : R.underChute = false)
    (hf : ∀ a' F, S.mem.cell = some ((R.id, a'), F) → eqv a' a = false) (hs : step P eqv S (.eval k a) = .ok S') :
    S'.rockets = S.rockets ∧ ∃ F : FMS K, F.force = ((allParts R.stages).map fun p => (p.force a (P.inertia a).cg).force).sum ∧
      S'.mem.cell = some ((R.id, a), F) := by
  obtain ⟨last, hi⟩ := reachable P h
  obtain ⟨L, T, hL, hT, hwp, _⟩ := hi.logged hk hl
  have hR : R ∈ S.rockets := List.mem_of_getElem? hk
  have hc : cached eqv S.mem R.id a = none := by
    unfold cached
    cases hm : S.mem.cell with
    | none => rfl
    | some c =>
      obtain ⟨⟨id, a'⟩, F⟩ := c
      dsimp only
      rw [if_neg]
      rintro ⟨rfl, he⟩
      rw [hf a' F hm] at he; cases he
  simp only [step, hk] at hs
  rw [evaluate_fresh P hl hu hL hwp.own (hi.stage R hR).1 (hi.cell_stage hR) hc] at hs
  cases hrun : LogM.run (evalOps (P.time a) (startVals P a ++ flowVals P a ++ partVals a (P.inertia a).cg (allParts R.stages) ++
      endVals P a (sumStages a (P.inertia a).cg (zeroAt (P.inertia a).cg) R.stages))) L with
  | error e => rw [hrun] at hs; cases hs
  | ok L' =>
    rw [hrun] at hs
    cases hs
    exact ⟨rfl, _, sumZero_force a _ R.stages, rfl⟩

/-- **C90 violated: a rejected step.** Discarding `n` evaluations takes the last `n` rows from the log of every rocket of the simulation,
also of rockets that took no part in the rejected step. -/
theorem discard_all_violated {eqv : A → A → Bool} {evs : List (Ev A K)} {S S' : Sim A K} (h : run P eqv Sim.start evs = .ok S) {n : Nat}
    (hs : step P eqv S (.discard n) = .ok S') {k i : Nat} {R : RocketC A K} (hk : S.rockets[k]? = some R) (hl : R.log = some i) :
    S'.rockets = S.rockets ∧ ∃ L L', S.mem.logs[i]? = some L ∧ S'.mem.logs[i]? = some L' ∧
      L'.times = L.times.take (L.times.length - n) := by
  have h' : run P eqv Sim.start (evs ++ [.discard n]) = .ok S' := by
    unfold run at h ⊢
    rw [List.foldlM_append, h]
    simp [bind, Except.bind, hs, pure, Except.pure]
  have hr : S'.rockets = S.rockets := by
    simp only [step] at hs
    split at hs
    · cases hs
    · cases hs; rfl
  obtain ⟨L, g1, g2⟩ := log_rows P h k R i hk hl
  obtain ⟨L', g1', g2'⟩ := log_rows P h' k R i (by rw [hr]; exact hk) hl
  refine ⟨hr, L, L', g1, g1', ?_⟩
  rw [List.foldl_append] at g2'
  simp only [List.foldl_cons, List.foldl_nil, timesStep, List.getElem?_map, g2] at g2'
  exact (Option.some.inj g2').symm

end
end Mapleaf.FLog
