import Verif.Log.ForceLogModel
import Verif.Log.LogProps
import Verif.Motion.ForceProps
import Mathlib.Algebra.BigOperators.Group.Finset.Basic

/-!
# C90: what one force evaluation leaves in the logs
-/

namespace Mapleaf.FLog
open Mapleaf.Motion Mapleaf.LogM

section
variable {A K : Type} [Field K] [LinearOrder K]

/-! ## logging a list of values -/

theorem logAll_nil (L : Log K (Val K)) : logAll [] L = .ok L := rfl

theorem logAll_cons (v : Name × Val K) (vals : List (Name × Val K)) (L : Log K (Val K)) :
    logAll (v :: vals) L = (logValue L v.1 v.2).bind (logAll vals) := rfl

theorem logAll_append (u v : List (Name × Val K)) (L : Log K (Val K)) :
    logAll (u ++ v) L = (logAll u L).bind (logAll v) := by
  unfold logAll; rw [List.foldlM_append]; rfl

theorem logAll_run (vals : List (Name × Val K)) (L : Log K (Val K)) :
    logAll vals L = LogM.run (vals.map fun p => .log p.1 p.2) L := by
  induction vals generalizing L with
  | nil => rfl
  | cons v vals ih =>
    rw [logAll_cons, List.map_cons, LogM.run, LogM.step]
    cases h : logValue L v.1 v.2 with
    | error e => rfl
    | ok L' => simpa [Except.bind] using ih L'

/-- the log number `i` replaced -/
def putLog (mem : Mem A K) (i : Nat) (L : Log K (Val K)) : Mem A K := { mem with logs := mem.logs.set i L }

theorem putLog_get {mem : Mem A K} {i : Nat} {L : Log K (Val K)} (h : mem.logs[i]? = some L) (L' : Log K (Val K)) :
    (putLog mem i L').logs[i]? = some L' := by
  have : i < mem.logs.length := by
    rw [List.getElem?_eq_some_iff] at h; exact h.1
  simp [putLog, this]

theorem putLog_put (mem : Mem A K) (i : Nat) (L L' : Log K (Val K)) : putLog (putLog mem i L) i L' = putLog mem i L' := by
  simp [putLog]

theorem putLog_self {mem : Mem A K} {i : Nat} {L : Log K (Val K)} (h : mem.logs[i]? = some L) : putLog mem i L = mem := by
  have : mem.logs.set i L = mem.logs := by
    rw [List.getElem?_eq_some_iff] at h
    obtain ⟨h1, h2⟩ := h
    rw [← h2, List.set_getElem_self]
  cases mem; simp_all [putLog]

theorem onLog_some {mem : Mem A K} {i : Nat} {L : Log K (Val K)} (h : mem.logs[i]? = some L)
    (g : Log K (Val K) → Except PyErr (Log K (Val K))) : onLog mem i g = (g L).map (putLog mem i) := by
  unfold onLog
  rw [h]
  dsimp only
  cases g L <;> rfl

/-! ## the forces of the components -/

/-- What the components log. -/
def partVals (a : A) (cg : V3 K) (ps : List (Part A K)) : List (Name × Val K) :=
  ps.flatMap fun p => match p.ref with
    | none => []
    | some r => [(r.f, .vec (p.force a cg).force), (r.m, .vec (p.force a cg).moment)]

/-- The columns of all these components are in log `i`. -/
def Own (i : Nat) (ps : List (Part A K)) : Prop := ∀ p ∈ ps, ∃ f m, p.ref = some ⟨i, f, m⟩

/-- The forces of components, added up one after the other. -/
def sumParts (a : A) (cg : V3 K) (acc : FMS K) (ps : List (Part A K)) : FMS K :=
  ps.foldl (fun acc p => acc.add (p.force a cg)) acc

def zeroAt (cg : V3 K) : FMS K := FMS.make ⟨0, 0, 0⟩ (some cg) none

def sumStages (a : A) (cg : V3 K) (acc : FMS K) (ss : List (StageC A K)) : FMS K :=
  ss.foldl (fun acc s => acc.add (sumParts a cg (zeroAt cg) s.parts)) acc

theorem logPart_own {mem : Mem A K} {i : Nat} {L : Log K (Val K)} (h : mem.logs[i]? = some L) {p : Part A K} {f m : Name}
    (hp : p.ref = some ⟨i, f, m⟩) (F : FMS K) :
    logPart mem p F = (logAll [(f, .vec F.force), (m, .vec F.moment)] L).map (putLog mem i) := by
  unfold logPart
  rw [hp]
  dsimp only
  rw [onLog_some h, logAll_cons]
  cases h1 : logValue L f (.vec F.force) with
  | error e => rfl
  | ok L1 =>
    simp only [Except.map, Except.bind]
    rw [onLog_some (putLog_get h L1), logAll_cons]
    cases h2 : logValue L1 m (.vec F.moment) with
    | error e => rfl
    | ok L2 => simp [Except.map, Except.bind, putLog_put, logAll_nil]

theorem parts_fold {i : Nat} (a : A) (cg : V3 K) : ∀ (ps : List (Part A K)) (mem : Mem A K) (L : Log K (Val K)) (acc : FMS K),
    mem.logs[i]? = some L → Own i ps → ps.foldlM (partStep a cg) (mem, acc) =
      (logAll (partVals a cg ps) L).map fun L' => (putLog mem i L', sumParts a cg acc ps) := by
  intro ps
  induction ps with
  | nil =>
    intro mem L acc h _
    simp [partVals, logAll_nil, Except.map, sumParts, putLog_self h, pure, Except.pure]
  | cons p ps ih =>
    intro mem L acc h ho
    obtain ⟨f, m, hp⟩ := ho p (by simp)
    have hv : partVals a cg (p :: ps) =
        [(f, .vec (p.force a cg).force), (m, .vec (p.force a cg).moment)] ++ partVals a cg ps := by
      simp [partVals, hp]
    rw [List.foldlM_cons, hv, logAll_append, partStep, logPart_own h hp]
    dsimp only
    cases h1 : logAll [(f, .vec (p.force a cg).force), (m, .vec (p.force a cg).moment)] L with
    | error e => rfl
    | ok L1 =>
      simp only [Except.map, Except.bind, bind]
      rw [ih _ L1 _ (putLog_get h L1) (fun q hq => ho q (by simp [hq]))]
      cases logAll (partVals a cg ps) L1 with
      | error e => rfl
      | ok L2 => simp [Except.map, putLog_put, sumParts]

/-- The identity in the cell. -/
def cellId (mem : Mem A K) : Option Nat := mem.cell.map fun c => c.1.1

theorem cached_other {eqv : A → A → Bool} {mem : Mem A K} {id : Nat} (h : cellId mem ≠ some id) (a : A) :
    cached eqv mem id a = none := by
  unfold cached
  unfold cellId at h
  cases hc : mem.cell with
  | none => rfl
  | some c => rw [hc] at h; simp at h; simp [h]

def allParts (ss : List (StageC A K)) : List (Part A K) := ss.flatMap StageC.parts

theorem stages_fold {i : Nat} (eqv : A → A → Bool) (a : A) (cg : V3 K) :
    ∀ (ss : List (StageC A K)) (mem : Mem A K) (L : Log K (Val K)) (acc : FMS K), mem.logs[i]? = some L → Own i (allParts ss) →
      (ss.map StageC.id).Nodup → (∀ s ∈ ss, cellId mem ≠ some s.id) →
      ∃ c, ss.foldlM (stageStep eqv a cg) (mem, acc) =
        (logAll (partVals a cg (allParts ss)) L).map fun L' => ({ putLog mem i L' with cell := c }, sumStages a cg acc ss) := by
  intro ss
  induction ss with
  | nil =>
    intro mem L acc h _ _ _
    refine ⟨mem.cell, ?_⟩
    have := putLog_self h
    simp [allParts, partVals, logAll_nil, Except.map, sumStages, pure, Except.pure, this]
  | cons s ss ih =>
    intro mem L acc h ho hn hc
    rw [List.map_cons, List.nodup_cons] at hn
    have hs : Own i s.parts := fun p hp => ho p (by simp [allParts]; exact Or.inl hp)
    have hss : Own i (allParts ss) := fun p hp => ho p (by simp [allParts] at hp ⊢; exact Or.inr hp)
    have hv : partVals a cg (allParts (s :: ss)) = partVals a cg s.parts ++ partVals a cg (allParts ss) := by
      simp [allParts, partVals]
    have step1 : stageStep eqv a cg (mem, acc) s = (logAll (partVals a cg s.parts) L).map fun L' =>
        ({ putLog mem i L' with cell := some ((s.id, a), sumParts a cg (zeroAt cg) s.parts) },
          acc.add (sumParts a cg (zeroAt cg) s.parts)) := by
      rw [stageStep, stageForce, cached_other (hc s (by simp))]
      dsimp only
      have := parts_fold a cg s.parts mem L (zeroAt cg) h hs
      rw [zeroAt] at this
      rw [this]
      cases logAll (partVals a cg s.parts) L <;> rfl
    rw [List.foldlM_cons, step1, hv, logAll_append]
    cases h1 : logAll (partVals a cg s.parts) L with
    | error e => exact ⟨none, rfl⟩
    | ok L1 =>
      simp only [Except.map, Except.bind, bind]
      have hg : ({ putLog mem i L1 with cell := some ((s.id, a), sumParts a cg (zeroAt cg) s.parts) } : Mem A K).logs[i]? = some L1 :=
        putLog_get h L1
      obtain ⟨c, hc'⟩ := ih _ L1 (acc.add (sumParts a cg (zeroAt cg) s.parts)) hg hss hn.2 (by
        intro t ht he
        simp [cellId] at he
        exact hn.1 (he ▸ List.mem_map.2 ⟨t, ht, rfl⟩))
      refine ⟨c, ?_⟩
      rw [hc']
      cases logAll (partVals a cg (allParts ss)) L1 with
      | error e => rfl
      | ok L2 => simp [Except.map, putLog, sumStages]

theorem rocketForces_fresh {i : Nat} {eqv : A → A → Bool} {a : A} {cg : V3 K} {mem : Mem A K} {R : RocketC A K}
    {L : Log K (Val K)} (h : mem.logs[i]? = some L) (ho : Own i (allParts R.stages)) (hn : (R.stages.map StageC.id).Nodup)
    (hc : ∀ s ∈ R.stages, cellId mem ≠ some s.id) (hf : cached eqv mem R.id a = none) :
    rocketForces eqv a cg mem R = (logAll (partVals a cg (allParts R.stages)) L).map fun L' =>
      ({ putLog mem i L' with cell := some ((R.id, a), sumStages a cg (zeroAt cg) R.stages) },
        sumStages a cg (zeroAt cg) R.stages) := by
  rw [rocketForces, hf]
  dsimp only
  obtain ⟨c, hc'⟩ := stages_fold eqv a cg R.stages mem L (zeroAt cg) h ho hn hc
  rw [zeroAt] at hc'
  rw [hc']
  cases logAll (partVals a cg (allParts R.stages)) L with
  | error e => rfl
  | ok L' => rfl

/-! ## what is logged -/

variable (P : Physics A K)

/-- The first and the last entries of a row; `flow` only while no parachute is out. -/
def startVals (a : A) : List (Name × Val K) :=
  [("Position(m)".toList, .vec (P.position a)), ("Velocity(m/s)".toList, .vec (P.velocity a))]

theorem startRow_run (a : A) (L : Log K (Val K)) (vals : List (Name × Val K)) :
    (startRow P a L).bind (logAll vals) = LogM.run (evalOps (P.time a) (startVals P a ++ vals)) L := by
  unfold startRow evalOps
  rw [LogM.run, LogM.step]
  cases newLogRow L (P.time a) with
  | error e => rfl
  | ok L1 =>
    dsimp only
    rw [← logAll_run, logAll_append]
    rfl

/-- **Evaluation that is computed.** One row is written; the components add their entries to it. -/
theorem evaluate_fresh {i : Nat} {eqv : A → A → Bool} {a : A} {mem : Mem A K} {R : RocketC A K}
    {L : Log K (Val K)} (hl : R.log = some i) (hu : R.underChute = false) (h : mem.logs[i]? = some L)
    (ho : Own i (allParts R.stages)) (hn : (R.stages.map StageC.id).Nodup)
    (hc : ∀ s ∈ R.stages, cellId mem ≠ some s.id) (hf : cached eqv mem R.id a = none) :
    evaluate P eqv R a mem =
      (LogM.run (evalOps (P.time a) (startVals P a ++ flowVals P a ++ partVals a (P.inertia a).cg (allParts R.stages) ++
        endVals P a (sumStages a (P.inertia a).cg (zeroAt (P.inertia a).cg) R.stages))) L).map fun L' =>
      ({ putLog mem i L' with cell := some ((R.id, a), sumStages a (P.inertia a).cg (zeroAt (P.inertia a).cg) R.stages) },
        totalForce P a (sumStages a (P.inertia a).cg (zeroAt (P.inertia a).cg) R.stages)) := by
  rw [List.append_assoc, List.append_assoc, ← startRow_run, evaluate, onRocketLog, hl]
  dsimp only
  rw [onLog_some h]
  cases h1 : startRow P a L with
  | error e => rfl
  | ok L1 =>
    simp only [Except.map, Except.bind]
    rw [logAll_append, componentForces, hu, onRocketLog, hl]
    simp only [Bool.false_eq_true, if_false]
    rw [onLog_some (putLog_get h L1)]
    cases h2 : logAll (flowVals P a) L1 with
    | error e => rfl
    | ok L2 =>
      simp only [Except.map, Except.bind, putLog_put]
      rw [logAll_append, rocketForces_fresh (putLog_get h L2) ho hn (fun s hs => hc s hs) hf]
      cases h3 : logAll (partVals a (P.inertia a).cg (allParts R.stages)) L2 with
      | error e => rfl
      | ok L3 =>
        simp only [Except.map, Except.bind, putLog_put]
        rw [onRocketLog, hl]
        dsimp only
        rw [onLog_some (L := L3) (mem := ⟨(putLog mem i L3).logs, some ((R.id, a), sumStages a (P.inertia a).cg (zeroAt (P.inertia a).cg) R.stages)⟩) (putLog_get h L3)]
        cases logAll (endVals P a (sumStages a (P.inertia a).cg (zeroAt (P.inertia a).cg) R.stages)) L3 with
        | error e => rfl
        | ok L4 => simp [Except.map, putLog]

/-- **Evaluation found in the cell.** One row is written, without any entry of the components. -/
theorem evaluate_again {i : Nat} {eqv : A → A → Bool} {a : A} {mem : Mem A K} {R : RocketC A K} {F : FMS K}
    {L : Log K (Val K)} (hl : R.log = some i) (hu : R.underChute = false) (h : mem.logs[i]? = some L)
    (hf : cached eqv mem R.id a = some F) :
    evaluate P eqv R a mem =
      (LogM.run (evalOps (P.time a) (startVals P a ++ flowVals P a ++ endVals P a F)) L).map fun L' =>
      (putLog mem i L', totalForce P a F) := by
  rw [List.append_assoc, ← startRow_run, evaluate, onRocketLog, hl]
  dsimp only
  rw [onLog_some h]
  cases h1 : startRow P a L with
  | error e => rfl
  | ok L1 =>
    simp only [Except.map, Except.bind]
    rw [logAll_append, componentForces, hu, onRocketLog, hl]
    simp only [Bool.false_eq_true, if_false]
    rw [onLog_some (putLog_get h L1)]
    cases h2 : logAll (flowVals P a) L1 with
    | error e => rfl
    | ok L2 =>
      simp only [Except.map, Except.bind, putLog_put]
      have hf' : cached eqv (putLog mem i L2) R.id a = some F := hf
      rw [rocketForces, hf']
      dsimp only
      rw [onRocketLog, hl]
      dsimp only
      rw [onLog_some (putLog_get h L2)]
      cases logAll (endVals P a F) L2 with
      | error e => rfl
      | ok L3 => simp [Except.map, putLog_put]

/-- **Evaluation under a parachute.** Only the recovery system adds entries. -/
theorem evaluate_chute {i : Nat} {eqv : A → A → Bool} {a : A} {mem : Mem A K} {R : RocketC A K} {p : Part A K}
    {L : Log K (Val K)} (hl : R.log = some i) (hu : R.underChute = true) (h : mem.logs[i]? = some L)
    (hr : R.recovery = some p) (ho : Own i [p]) :
    evaluate P eqv R a mem =
      (LogM.run (evalOps (P.time a) (startVals P a ++ partVals a ⟨0, 0, -1⟩ [p] ++ endVals P a (p.force a ⟨0, 0, -1⟩))) L).map
        fun L' => (putLog mem i L', totalForce P a (p.force a ⟨0, 0, -1⟩)) := by
  obtain ⟨f, m, hp⟩ := ho p (by simp)
  rw [List.append_assoc, ← startRow_run, evaluate, onRocketLog, hl]
  dsimp only
  rw [onLog_some h]
  cases h1 : startRow P a L with
  | error e => rfl
  | ok L1 =>
    simp only [Except.map, Except.bind]
    have hv : partVals a ⟨0, 0, -1⟩ [p] =
        [(f, .vec (p.force a ⟨0, 0, -1⟩).force), (m, .vec (p.force a ⟨0, 0, -1⟩).moment)] := by simp [partVals, hp]
    rw [logAll_append, componentForces, hu, hr, hv]
    simp only [if_true]
    rw [logPart_own (putLog_get h L1) hp]
    cases h2 : logAll [(f, .vec (p.force a ⟨0, 0, -1⟩).force), (m, .vec (p.force a ⟨0, 0, -1⟩).moment)] L1 with
    | error e => rfl
    | ok L2 =>
      simp only [Except.map, Except.bind, putLog_put]
      rw [onRocketLog, hl]
      dsimp only
      rw [onLog_some (putLog_get h L2)]
      cases logAll (endVals P a (p.force a ⟨0, 0, -1⟩)) L2 with
      | error e => rfl
      | ok L3 => simp [Except.map, putLog_put]

end
end Mapleaf.FLog
