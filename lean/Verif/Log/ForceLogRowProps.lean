import Verif.Log.ForceLogProps

/-!
# C90: the rows of the force log
-/

namespace Mapleaf.FLog
open Mapleaf.Motion Mapleaf.LogM

section
variable {A K : Type} [Field K] [LinearOrder K]

/-! ## one row -/

/-- An evaluation that succeeds appends one row, which holds exactly the values that were logged. -/
theorem run_row {τ α : Type} [LinearOrder τ] {L L' : Log τ α} {T : Table τ α} (hi : Inv L) (h : Rep L T) (t : τ)
    (vals : List (Name × α)) (hnd : (vals.map Prod.fst).Nodup) (hin : ∀ p ∈ vals, p.1 ∈ Dict.keys L.cols)
    (hr : LogM.run (evalOps t vals) L = .ok L') :
    ∃ r, Inv L' ∧ Rep L' (T.fillLast (fillOf L) ++ [r]) ∧ r.time = t ∧ Dict.keys L'.cols = Dict.keys L.cols ∧
      fillOf L' = fillOf L ∧ (∀ p ∈ vals, r.cell p.1 = some p.2) ∧ ∀ c, c ∉ vals.map Prod.fst → r.cell c = none := by
  have ht : ∀ r, T.getLast? = some r → r.time ≤ t := by
    intro r hr'
    by_contra hlt
    have := (illegal_detected hi h).2.2.1 t r hr' (not_le.1 hlt)
    unfold evalOps at hr
    rw [LogM.run, this] at hr
    cases hr
  obtain ⟨L1, hs, i1, r1⟩ := step_refines hi h (.newRow t) ht
  simp only [astep] at r1
  have hL1 : Dict.keys L1.cols = Dict.keys L.cols ∧ L1.fills = L.fills ∧ L1.dflt = L.dflt := by
    obtain ⟨L2, hc, _, _, ek, ef, ed, _, _⟩ := rep_complete hi h
    simp only [LogM.step, newLogRow, hc] at hs
    split at hs
    · split at hs
      · cases hs
      · cases hs; exact ⟨ek, ef, ed⟩
    · cases hs; exact ⟨ek, ef, ed⟩
  obtain ⟨L'', r', h1, h2, h3, h4, h5, h6, h7, h8, h9⟩ := run_logs vals L1 _ _ i1 r1 hnd
    (by rw [hL1.1]; exact hin) (by simp)
  unfold evalOps at hr
  rw [LogM.run, hs] at hr
  dsimp only at hr
  rw [h1] at hr
  cases hr
  exact ⟨r', h2, h3, h4, by rw [h5, hL1.1], fillOf_congr (by rw [h6, hL1.2.1]) (by rw [h7, hL1.2.2]), h8, h9⟩

/-- The columns that belong to the rocket itself. -/
def rocketNames : List Name :=
  ["Position(m)".toList, "Velocity(m/s)".toList, "OrientationQuaternion".toList, "AngularVelocity(rad/s)".toList, "CG(m)".toList,
   "MOI(kg*m^2)".toList, "Mass(kg)".toList, "Wind(m/s)".toList, "AirDensity(kg/m^3)".toList, "Mach".toList, "UnitRe".toList,
   "AOA(deg)".toList, "RollAngle(deg)".toList, "CPZ(m)".toList, "AeroF(N)".toList, "AeroM(Nm)".toList, "GravityF(N)".toList,
   "TotalF(N)".toList]

/-- A column with the force of a component: its name ends in `F(N)` and it is none of the rocket's. -/
def IsForce (c : Name) : Prop := "F(N)".toList <:+ c ∧ c ∉ rocketNames

instance : DecidablePred IsForce := fun c => by unfold IsForce; infer_instance

/-- The columns of a log with the forces of components. -/
def forceColumns (L : Log K (Val K)) : List Name := (Dict.keys L.cols).filter fun c => decide (IsForce c)

/-- The vector in a cell; nothing where there is none. -/
def vecOf : Option (Val K) → V3 K
  | some (.vec v) => v
  | _ => 0

/-- In this row the aerodynamic force is the sum of the forces in the columns `cs`; there are only vectors in these columns. -/
structure AddsUp (cs : List Name) (r : Row K (Val K)) : Prop where
  sum : vecOf (r.cell "AeroF(N)".toList) = (cs.map fun c => vecOf (r.cell c)).sum
  vec : ∀ c ∈ "AeroF(N)".toList :: cs, ∀ v, r.cell c = some v → ∃ w, v = .vec w

/-! ## the columns of components -/

def fNames (ps : List (Part A K)) : List Name := ps.flatMap fun p => match p.ref with
  | none => []
  | some r => [r.f]

def mNames (ps : List (Part A K)) : List Name := ps.flatMap fun p => match p.ref with
  | none => []
  | some r => [r.m]

/-- The components have columns of their own in log number `i`. -/
structure Wired (i : Nat) (L : Log K (Val K)) (ps : List (Part A K)) : Prop where
  own : Own i ps
  force : ∀ c ∈ fNames ps, c ∈ Dict.keys L.cols ∧ IsForce c
  moment : ∀ c ∈ mNames ps, c ∈ Dict.keys L.cols ∧ "M(Nm)".toList <:+ c ∧ c ∉ rocketNames
  fNodup : (fNames ps).Nodup
  mNodup : (mNames ps).Nodup

theorem suffix_apart {c : Name} (h1 : "F(N)".toList <:+ c) (h2 : "M(Nm)".toList <:+ c) : False := by
  have := List.suffix_of_suffix_length_le h1 h2 (by decide)
  revert this
  decide +kernel

theorem mem_partNames {a : A} {cg : V3 K} {ps : List (Part A K)} {c : Name} :
    c ∈ (partVals a cg ps).map Prod.fst ↔ c ∈ fNames ps ∨ c ∈ mNames ps := by
  induction ps with
  | nil => simp [partVals, fNames, mNames]
  | cons p ps ih =>
    simp only [partVals, fNames, mNames, List.flatMap_cons, List.map_append, List.mem_append] at ih ⊢
    cases p.ref with
    | none => simpa using ih
    | some r =>
      rw [ih]
      simp only [List.map_cons, List.map_nil, List.mem_cons, List.not_mem_nil, or_false]
      exact or_or_or_comm

theorem partNames_nodup {i : Nat} {L : Log K (Val K)} {ps : List (Part A K)} (h : Wired i L ps) (a : A) (cg : V3 K) :
    ((partVals a cg ps).map Prod.fst).Nodup := by
  have hp : ((partVals a cg ps).map Prod.fst).Perm (fNames ps ++ mNames ps) := by
    clear h
    induction ps with
    | nil => simp [partVals, fNames, mNames]
    | cons p ps ih =>
      simp only [partVals, fNames, mNames, List.flatMap_cons, List.map_append] at ih ⊢
      cases p.ref with
      | none => simpa using ih
      | some r =>
        simp only [List.map_cons, List.map_nil, List.cons_append, List.nil_append, List.append_assoc]
        refine List.Perm.cons _ ?_
        refine (List.Perm.cons _ ih).trans ?_
        exact (List.perm_middle).symm
  rw [hp.nodup_iff]
  refine List.nodup_append.2 ⟨h.fNodup, h.mNodup, ?_⟩
  rintro c hc d hd rfl
  exact suffix_apart (h.force c hc).2.1 (h.moment c hd).2.1

theorem sumParts_force (a : A) (cg : V3 K) : ∀ (ps : List (Part A K)) (acc : FMS K),
    (sumParts a cg acc ps).force = acc.force + (ps.map fun p => (p.force a cg).force).sum := by
  intro ps
  induction ps with
  | nil => intro acc; simp [sumParts]
  | cons p ps ih =>
    intro acc
    have := ih (acc.add (p.force a cg))
    simp only [sumParts, List.foldl_cons, List.map_cons, List.sum_cons] at this ⊢
    rw [this, ← add_assoc]
    rfl

theorem sumStages_force (a : A) (cg : V3 K) : ∀ (ss : List (StageC A K)) (acc : FMS K),
    (sumStages a cg acc ss).force = acc.force + ((allParts ss).map fun p => (p.force a cg).force).sum := by
  intro ss
  induction ss with
  | nil => intro acc; simp [sumStages, allParts]
  | cons s ss ih =>
    intro acc
    have h1 := ih (acc.add (sumParts a cg (zeroAt cg) s.parts))
    have h2 := sumParts_force a cg s.parts (zeroAt cg)
    have h3 : (zeroAt cg).force = (0 : V3 K) := rfl
    rw [h3, zero_add] at h2
    simp only [sumStages, List.foldl_cons, allParts, List.flatMap_cons, List.map_append, List.sum_append] at h1 ⊢
    rw [h1, ← add_assoc]
    congr 1
    rw [← h2]
    rfl

/-! ## the row of an evaluation adds up -/

variable (P : Physics A K)

theorem row_addsUp {i : Nat} {L : Log K (Val K)} {ps : List (Part A K)} (hw : Wired i L ps) (hk : (Dict.keys L.cols).Nodup)
    (a : A) (cg : V3 K) (F : FMS K) (hF : F.force = (ps.map fun p => (p.force a cg).force).sum) (pre : List (Name × Val K))
    (hpre : ∀ p ∈ pre, p.1 ∈ rocketNames) (r : Row K (Val K))
    (h1 : ∀ p ∈ pre ++ partVals a cg ps ++ endVals P a F, r.cell p.1 = some p.2)
    (h2 : ∀ c, c ∉ (pre ++ partVals a cg ps ++ endVals P a F).map Prod.fst → r.cell c = none) :
    AddsUp (forceColumns L) r := by
  have hA : r.cell "AeroF(N)".toList = some (.vec F.force) :=
    h1 ("AeroF(N)".toList, .vec F.force) (by
      refine List.mem_append_right _ ?_
      simp only [endVals]
      have : (atCG P a F).force = F.force := rfl
      rw [this]
      simp)
  have hend : ∀ p ∈ endVals P a F, p.1 ∈ rocketNames := by
    intro p hp
    have : p.1 ∈ (endVals P a F).map Prod.fst := List.mem_map.2 ⟨p, hp, rfl⟩
    have hsub : (endVals P a F).map Prod.fst ⊆ rocketNames := by
      simp only [endVals, List.map_cons, List.map_nil]
      decide +kernel
    exact hsub this
  have hnone : ∀ c ∈ forceColumns L, c ∉ fNames ps → r.cell c = none := by
    intro c hc hn
    simp only [forceColumns, List.mem_filter, decide_eq_true_eq] at hc
    refine h2 c ?_
    simp only [List.map_append, List.mem_append, mem_partNames, not_or]
    refine ⟨⟨?_, hn, ?_⟩, ?_⟩
    · intro hm
      obtain ⟨p, hp, e⟩ := List.mem_map.1 hm
      exact hc.2.2 (e ▸ hpre p hp)
    · intro hm
      exact suffix_apart hc.2.1 (hw.moment c hm).2.1
    · intro hm
      obtain ⟨p, hp, e⟩ := List.mem_map.1 hm
      exact hc.2.2 (e ▸ hend p hp)
  have hpart : ∀ q ∈ ps, ∀ f m, q.ref = some ⟨i, f, m⟩ → r.cell f = some (.vec (q.force a cg).force) := by
    intro q hq f m hr
    exact h1 (f, .vec (q.force a cg).force) (by
      refine List.mem_append_left _ (List.mem_append_right _ ?_)
      simp only [partVals, List.mem_flatMap]
      exact ⟨q, hq, by rw [hr]; simp⟩)
  refine ⟨?_, ?_⟩
  swap
  · intro c hc v hv
    rcases List.mem_cons.1 hc with rfl | hc
    · rw [hA] at hv; cases hv; exact ⟨_, rfl⟩
    · by_cases hf : c ∈ fNames ps
      · simp only [fNames, List.mem_flatMap] at hf
        obtain ⟨q, hq, hm⟩ := hf
        obtain ⟨f, m, hr⟩ := hw.own q hq
        rw [hr] at hm
        simp only [List.mem_singleton] at hm
        subst hm
        rw [hpart q hq c m hr] at hv; cases hv; exact ⟨_, rfl⟩
      · rw [hnone c hc hf] at hv; cases hv
  rw [hA]
  have hnd : (forceColumns L).Nodup := hk.filter _
  rw [← List.sum_toFinset _ hnd]
  have hsub : (fNames ps).toFinset ⊆ (forceColumns L).toFinset := by
    intro c hc
    rw [List.mem_toFinset] at hc ⊢
    have := hw.force c hc
    simp [forceColumns, this.1, this.2]
  rw [← Finset.sum_subset hsub (by
    intro c hc hn
    rw [List.mem_toFinset] at hc hn
    rw [hnone c hc hn]
    rfl)]
  rw [List.sum_toFinset _ hw.fNodup]
  have hcell : ∀ qs : List (Part A K), qs ⊆ ps →
      ((fNames qs).map fun c => vecOf (r.cell c)).sum = (qs.map fun p => (p.force a cg).force).sum := by
    intro qs
    induction qs with
    | nil => intro _; simp [fNames]
    | cons q qs ih =>
      intro hs
      have hq : q ∈ ps := hs (by simp)
      obtain ⟨f, m, hr⟩ := hw.own q hq
      have hc := hpart q hq f m hr
      have hfn : fNames (q :: qs) = f :: fNames qs := by simp [fNames, hr]
      rw [hfn, List.map_cons, List.sum_cons, List.map_cons, List.sum_cons, hc, ih (fun x hx => hs (by simp [hx]))]
      rfl
  rw [hcell ps (fun _ h => h)]
  exact hF

/-- Filling empty cells with zero vectors does not change the sum. -/
theorem addsUp_fill {cs : List Name} {f : Name → Val K} (hA : f "AeroF(N)".toList = .vec 0) (hf : ∀ c ∈ cs, f c = .vec 0)
    {r : Row K (Val K)} (h : AddsUp cs r) : AddsUp cs (r.fill f) := by
  have key : ∀ c, f c = .vec 0 → vecOf ((r.fill f).cell c) = vecOf (r.cell c) := by
    intro c hc
    simp only [Row.fill]
    cases r.cell c with
    | none => simp [hc, vecOf]
    | some v => rfl
  refine ⟨?_, ?_⟩
  · rw [key _ hA, h.sum]
    congr 1
    exact List.map_congr_left fun c hc => (key c (hf c hc)).symm
  · intro c hc v hv
    have hz : f c = .vec 0 := by
      rcases List.mem_cons.1 hc with rfl | hc
      · exact hA
      · exact hf c hc
    simp only [Row.fill, Option.some.injEq] at hv
    cases hq : r.cell c with
    | none => rw [hq] at hv; exact ⟨0, by rw [← hv]; exact hz⟩
    | some w => rw [hq] at hv; obtain ⟨x, hx⟩ := h.vec c hc w hq; exact ⟨x, by rw [← hv]; exact hx⟩

theorem mem_fillLast {f : Name → Val K} {T : Table K (Val K)} {r : Row K (Val K)} (h : r ∈ T.fillLast f) :
    r ∈ T ∨ ∃ q ∈ T, r = q.fill f := by
  rcases table_cases T with rfl | ⟨B, q, rfl⟩
  · simp [Table.fillLast] at h
  · rw [fillLast_concat, List.mem_append, List.mem_singleton] at h
    rcases h with h | h
    · exact Or.inl (by simp [h])
    · exact Or.inr ⟨q, by simp, h⟩

end
end Mapleaf.FLog
