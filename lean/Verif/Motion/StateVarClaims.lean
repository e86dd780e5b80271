import Verif.Motion.StateVarProps
import Verif.Rocket.SampleModel

/-! # Claims about rockets whose components have state variables -/

namespace Mapleaf.Motion.Body
open Mapleaf Mapleaf.Motion
open Mapleaf.Motion.RK (Tableau wsum Shape castT patch shapeB rowsConsistent adaptiveTableau shape_cast checkTableau_cast adaptiveWorking)
open Mapleaf.Motion.Stepper (factors constants)

section claims
variable {E : Type} [AddCommGroup E] [Module ℝ E] {n : ℕ} (size : E → ℝ)

/-- the right-hand side of a rocket with state variables: one function for the rigid body, one for each value of a component; every
function sees the whole state -/
noncomputable def rocketRhs (fb : ℝ → List (Val E) → Except PyErr RBDeriv) (fl : Fin n → ℝ → List (Val E) → Except PyErr E) (t : ℝ)
    (y : List (Val E)) : Except PyErr (List (DVal E)) :=
  listRhs ((fun t y => match fb t y with | .error e => .error e | .ok d => .ok (DVal.body d)) ::
    List.ofFn fun i t y => match fl i t y with | .error e => .error e | .ok x => .ok (DVal.lin x)) t y

/-- **C91.** When none of the functions raises, the derivative is the list of their values, in order. -/
theorem rocketRhs_ok (fb : ℝ → List (Val E) → Except PyErr RBDeriv) (fl : Fin n → ℝ → List (Val E) → Except PyErr E) (t : ℝ)
    (y : List (Val E)) (d : RBDeriv) (x : Fin n → E) (hb : fb t y = .ok d) (hl : ∀ i, fl i t y = .ok (x i)) :
    rocketRhs fb fl t y = .ok (packD (d, x)) := by
  unfold rocketRhs listRhs mapE
  dsimp only
  rw [hb]
  dsimp only
  rw [mapE_ofFn _ _ (fun i => DVal.lin (x i)) (fun i => by dsimp only; rw [hl i])]
  rfl

/-- **C91.** When the first function that raises is the rigid body's, the derivative raises that. -/
theorem rocketRhs_body_error (fb : ℝ → List (Val E) → Except PyErr RBDeriv) (fl : Fin n → ℝ → List (Val E) → Except PyErr E) (t : ℝ)
    (y : List (Val E)) (e : PyErr) (hb : fb t y = .error e) : rocketRhs fb fl t y = .error e := by
  unfold rocketRhs listRhs mapE
  dsimp only
  rw [hb]

theorem state_list_euler (f : ℝ → List (Val E) → Except PyErr (List (DVal E))) (t : ℝ) (s : RBState × (Fin n → E)) (hs : Quat.Unit s.1.ori)
    (dt : ℝ) (k : RBDeriv × (Fin n → E)) (hk : f t (pack s) = .ok (packD k)) :
    classicalStep (rocketArith size) "Euler" f t (pack s) dt = .ok ⟨pack (move s (dt • k)), packD k, [(t, pack s)]⟩ := by
  have : RK.classicalTableau "Euler" = .ok none := by simp [RK.classicalTableau]
  unfold classicalStep
  rw [this]
  have h := eulerStep_gen (list_lawful (n := n) size) f t (pack s) ⟨s, rfl, hs⟩ dt k hk
  rw [unpack_pack] at h
  exact h

/-! ### Coasting -/

/-- a rocket that neither accelerates nor spins, whose component values change at constant rates -/
def Coasting (f : ℝ → List (Val E) → Except PyErr (List (DVal E))) (rate : Fin n → E) : Prop :=
  ∀ t (s : RBState × (Fin n → E)), Quat.Unit s.1.ori → f t (pack s) = .ok (packD (⟨s.1.vel, 0, 0, 0⟩, rate))

theorem coast_advance (y : RBState) (x : ℝ) (v : V3 ℝ) :
    advance y (x • (⟨v, 0, 0, 0⟩ : RBDeriv)) = ⟨y.pos + x • v, y.vel, y.ori, y.angVel⟩ := by
  unfold advance
  simp [turn_zero, one_mulQ]

theorem wsum_const {M : Type} [AddCommGroup M] [Module ℝ M] (k : M) (ws : List ℝ) (ks : List M) (h : ∀ x ∈ ks, x = k)
    (hl : ws.length ≤ ks.length) : wsum ws ks = ws.sum • k := by
  induction ws generalizing ks with
  | nil => simp [wsum]
  | cons w ws ih => cases ks with
    | nil => simp at hl
    | cons a ks =>
      rw [RK.wsum_cons, ih ks (fun x hx => h x (by simp [hx])) (by simpa using hl), h a (by simp), List.sum_cons, add_smul]

theorem coast_tableau (tab : Tableau ℚ) (m : String) (β γ : ℚ) (hm : RK.classicalTableau m = .ok (some tab)) (hk : constants tab β γ = true)
    (f : ℝ → List (Val E) → Except PyErr (List (DVal E))) (rate : Fin n → E) (hf : Coasting f rate) (t dt : ℝ) (hdt : dt ≠ 0)
    (s : RBState × (Fin n → E)) (hs : Quat.Unit s.1.ori) :
    ∃ r, classicalStep (rocketArith size) m f t (pack s) dt = .ok r ∧
      r.newValue = pack (⟨s.1.pos + ((β : ℝ) * dt) • s.1.vel, s.1.vel, s.1.ori, s.1.angVel⟩, s.2 + ((β : ℝ) * dt) • rate) := by
  obtain ⟨r, ks, rows, b, h1, h2, h3, h4, h5, _, _⟩ := state_list_step size m tab hm f (fun _ s => (⟨s.1.vel, 0, 0, 0⟩, rate))
    (fun t s h => hf t s h) t s hs dt hdt
  refine ⟨r, h1, ?_⟩
  have hacc : ∀ k ∈ ks, k.1.acc = 0 := by
    rw [h4]; simp
  have hw : ∀ (ws : List ℝ) (ks : List (RBDeriv × (Fin n → E))), (∀ k ∈ ks, k.1.acc = 0) → (wsum ws ks).1.acc = 0 := by
    intro ws
    induction ws with
    | nil => intro ks _; simp [wsum]
    | cons w ws ih =>
      intro ks hk
      cases ks with
      | nil => simp [wsum]
      | cons k ks =>
        rw [RK.wsum_cons, Prod.fst_add, RBDeriv.add_acc, ih ks (fun k h => hk k (by simp [h])), Prod.smul_fst, RBDeriv.smul_acc, hk k (by simp),
          smul_zero, add_zero]
  have hall : ∀ k ∈ ks, k = (⟨s.1.vel, 0, 0, 0⟩, rate) := by
    intro k hk
    rw [h4] at hk
    rcases List.mem_cons.1 hk with h | h
    · exact h
    · obtain ⟨q, _, rfl⟩ := List.mem_map.1 h
      have : (move s (dt • wsum q.tail ks)).1.vel = s.1.vel := by
        show s.1.vel + (dt • wsum q.tail ks).1.acc = _
        rw [Prod.smul_fst, RBDeriv.smul_acc, hw _ ks hacc, smul_zero, add_zero]
      rw [this]
  have hb : b.sum = (β : ℝ) := by
    unfold constants at hk
    simp only [Bool.and_eq_true, decide_eq_true_eq] at hk
    have hbl : (castT (patch tab) : Tableau ℝ).getLast? = some b := by
      show ((patch tab).map (fun r => r.map (fun q : ℚ => (q : ℝ)))).getLast? = _
      rw [h2]; simp
    rw [RK.castT_getLast _ _ hbl, RK.sum_castL, hk.1.2]
  rw [h5, wsum_const _ b ks hall (by omega), hb]
  unfold move
  rw [smul_smul, Prod.smul_fst, Prod.smul_snd, coast_advance, mul_comm dt]

set_option maxRecDepth 100000 in
/-- **C91.** A coasting rocket with state variables and a fixed-step method: after a step the rocket has moved by `β dt v` and each
component value has changed by `β dt` times its rate, where `β = 1` (`1 + 1e-16` for the midpoint rule). -/
theorem coast_step (m : String) (β γ : ℚ) (hm : (m, β, γ) ∈ factors) (f : ℝ → List (Val E) → Except PyErr (List (DVal E)))
    (rate : Fin n → E) (hf : Coasting f rate) (t dt : ℝ) (hdt : dt ≠ 0) (s : RBState × (Fin n → E)) (hs : Quat.Unit s.1.ori) :
    ∃ r, classicalStep (rocketArith size) m f t (pack s) dt = .ok r ∧
      r.newValue = pack (⟨s.1.pos + ((β : ℝ) * dt) • s.1.vel, s.1.vel, s.1.ori, s.1.angVel⟩, s.2 + ((β : ℝ) * dt) • rate) := by
  simp only [factors, List.mem_cons, Prod.mk.injEq, List.not_mem_nil, or_false] at hm
  rcases hm with ⟨rfl, rfl, rfl⟩ | ⟨rfl, rfl, rfl⟩ | ⟨rfl, rfl, rfl⟩ | ⟨rfl, rfl, rfl⟩ | ⟨rfl, rfl, rfl⟩
  · refine ⟨_, state_list_euler size f t s hs dt _ (hf t s hs), ?_⟩
    unfold move
    rw [Prod.smul_fst, Prod.smul_snd, coast_advance]
    simp
  · exact coast_tableau size RK.tabRK2Midpoint _ (1 + 1 / 10 ^ 16) (1 / 2) (by simp [RK.classicalTableau]) (by decide +kernel) f rate hf t dt hdt s hs
  · exact coast_tableau size RK.tabRK2Heun _ 1 (1 / 2) (by simp [RK.classicalTableau]) (by decide +kernel) f rate hf t dt hdt s hs
  · exact coast_tableau size RK.tabRK4 _ 1 (1 / 2 + 2 / 3 / 10 ^ 16) (by simp [RK.classicalTableau]) (by decide +kernel) f rate hf t dt hdt s hs
  · exact coast_tableau size RK.tabRK438 _ 1 (1 / 2) (by simp [RK.classicalTableau]) (by decide +kernel) f rate hf t dt hdt s hs

/-- the adaptive methods and the first weights of their two results -/
def firstWeights : List (String × ℚ × ℚ) :=
  [("RK12Adaptive", 1 / 10 ^ 16, 1), ("RK23Adaptive", 2 / 9, 7 / 24), ("RK45Adaptive", 35 / 384, 5179 / 57600),
   ("RK78Adaptive", 14005451 / 335480064, 13451932 / 455176623)]

set_option maxRecDepth 100000 in
theorem firstWeights_spec (m : String) (b c : ℚ) (h : (m, b, c) ∈ firstWeights) : ∃ tab fsal, adaptiveTableau m = .ok (tab, fsal) ∧
    rowsConsistent 0 tab = true ∧ shapeB 2 (patch tab) = true ∧
    ((patch tab).dropLast.getLast?.getD []).head? = some b ∧ ((patch tab).getLast?.getD []).head? = some c := by
  simp only [firstWeights, List.mem_cons, Prod.mk.injEq, List.not_mem_nil, or_false] at h
  rcases h with ⟨rfl, rfl, rfl⟩ | ⟨rfl, rfl, rfl⟩ | ⟨rfl, rfl, rfl⟩ | ⟨rfl, rfl, rfl⟩
  · exact ⟨RK.tabRK12, false, by simp [adaptiveTableau], by decide +kernel, by decide +kernel, by decide +kernel, by decide +kernel⟩
  · exact ⟨RK.tabRK23, true, by simp [adaptiveTableau], by decide +kernel, by decide +kernel, by decide +kernel, by decide +kernel⟩
  · exact ⟨RK.tabRK45, true, by simp [adaptiveTableau], by decide +kernel, by decide +kernel, by decide +kernel, by decide +kernel⟩
  · exact ⟨RK.tabRK78, false, by simp [adaptiveTableau], by decide +kernel, by decide +kernel, by decide +kernel, by decide +kernel⟩

theorem apart_shift (y : RBState) (hy : Quat.Unit y.ori) (p : V3 ℝ) (p' : V3 ℝ) :
    apart ⟨p, y.vel, y.ori, y.angVel⟩ ⟨p', y.vel, y.ori, y.angVel⟩ = (p - p').length := by
  unfold apart
  have h := conj_mulQ hy ⟨1, 0, 0, 0⟩
  rw [one_mulQ] at h
  dsimp only
  rw [h]
  dsimp only
  rw [Real.arccos_one, sub_self, sub_self, (V3.length_zero_iff 0).2 rfl]
  ring

/-- **C91 violated (adaptive methods).** The same coasting rocket with an adaptive method: in a time step `dt` it moves by `b₁ dt v`
only, and its component values change by `b₁ dt` times their rates. With `b₁` from the list `firstWeights` this is nothing at all
for RK12, 2/9 for RK23, 35/384 (9 %) for RK45 and 4 % for RK78, while the clock goes on by `dt`. The error estimate is
`dt |b₁ - c₁|` times the rates: it gets smaller as the time step gets smaller, so no smaller time step repairs the result. -/
theorem coast_adaptive_violated (m : String) (b c : ℚ) (hm : (m, b, c) ∈ firstWeights)
    (f : ℝ → List (Val E) → Except PyErr (List (DVal E))) (rate : Fin n → E) (hf : Coasting f rate) (t dt : ℝ) (s : RBState × (Fin n → E))
    (hs : Quat.Unit s.1.ori) :
    ∃ tab fsal A, adaptiveWorking m = .ok (tab, fsal) ∧ attempt (rocketArith size) tab none f t (pack s) dt = .ok A ∧
      A.newValue = pack (⟨s.1.pos + ((b : ℝ) * dt) • s.1.vel, s.1.vel, s.1.ori, s.1.angVel⟩, s.2 + ((b : ℝ) * dt) • rate) ∧
      A.error = |((b : ℝ) - c) * dt| * s.1.vel.length + ∑ i, size ((((b : ℝ) - c) * dt) • rate i) := by
  obtain ⟨tab, fsal, h1, h2, h3, h4, h5⟩ := firstWeights_spec m b c hm
  have hshape : Shape 2 (castT (patch tab) : Tableau ℝ) := shape_cast 2 (patch tab) h3
  have hmoved : ∀ x : ℝ, move s (x • ((⟨s.1.vel, 0, 0, 0⟩, rate) : RBDeriv × (Fin n → E))) =
      (⟨s.1.pos + x • s.1.vel, s.1.vel, s.1.ori, s.1.angVel⟩, s.2 + x • rate) := by
    intro x
    unfold move
    rw [Prod.smul_fst, Prod.smul_snd, coast_advance]
  obtain ⟨A, b₁, bs, c₁, cs, g1, g2, g3, _, g5, _⟩ := state_list_attempt_violated size (castT (patch tab)) hshape f
    (fun _ s => (⟨s.1.vel, 0, 0, 0⟩, rate)) (fun t s h => hf t s h) t s hs dt (by
      intro r _ p hp
      have : p.2.1.angVel = 0 := by
        have := (List.of_mem_zip hp).2
        rcases List.mem_cons.1 this with h | h
        · rw [h]
        · obtain ⟨q, _, hq⟩ := List.mem_map.1 h
          rw [← hq]
      rw [this, smul_zero, turn_zero]
      intro h
      have := congrArg Quat.q0 h
      norm_num at this)
  have e1 : (castT (patch tab) : Tableau ℝ).getLast? = some (c₁ :: cs) := by rw [g2]; simp
  have e2 : (castT (patch tab) : Tableau ℝ).dropLast.getLast? = some (b₁ :: bs) := by
    rw [g2]
    rw [show (castT (patch tab) : Tableau ℝ).dropLast.dropLast ++ [b₁ :: bs, c₁ :: cs] =
      ((castT (patch tab) : Tableau ℝ).dropLast.dropLast ++ [b₁ :: bs]) ++ [c₁ :: cs] by simp, List.dropLast_concat, List.getLast?_concat]
  have eb : b₁ = (b : ℝ) := by
    rw [RK.castT_dropLast] at e2
    have := RK.castT_getLast _ _ e2
    cases hl : (patch tab).dropLast.getLast?.getD [] with
    | nil => rw [hl] at h4; simp at h4
    | cons x xs =>
      rw [hl] at h4 this
      simp only [List.head?_cons, Option.some.injEq] at h4
      simp only [RK.castL, List.map_cons, List.cons.injEq] at this
      rw [this.1, h4]
  have ec : c₁ = (c : ℝ) := by
    have := RK.castT_getLast _ _ e1
    cases hl : (patch tab).getLast?.getD [] with
    | nil => rw [hl] at h5; simp at h5
    | cons x xs =>
      rw [hl] at h5 this
      simp only [List.head?_cons, Option.some.injEq] at h5
      simp only [RK.castL, List.map_cons, List.cons.injEq] at this
      rw [this.1, h5]
  subst eb ec
  refine ⟨castT (patch tab), fsal, A, ?_, g1, ?_, ?_⟩
  · unfold adaptiveWorking
    rw [h1]
    dsimp only
    rw [checkTableau_cast tab h2]
  · rw [g3, hmoved, mul_comm dt]
  · rw [g5, hmoved, hmoved]
    dsimp only
    rw [apart_shift s.1 hs]
    congr 1
    · rw [add_sub_add_left_eq_sub, ← sub_smul, V3.length_smul]
      congr 2
      ring
    · apply Finset.sum_congr rfl
      intro i _
      congr 2
      ring

/-! ### The sample component -/

open Mapleaf.Rocket

/-- **C91.** The state variable of the sample component: one tank level, at first 1, with derivative `-2 level`; the mass is
`5 + 4.56 level`, the moments of inertia `(m, m, m/20)` and the centre of gravity at `z = level - 3`. -/
theorem sample_spec (level : ℝ) : Sample.extra = (["tankLevel"], [1]) ∧ Sample.tankDerivative level = -2 * level ∧
    (Sample.inertia level).mass = 5 + 4.56 * level ∧ (Sample.inertia level).cg = ⟨0, 0, level - 3⟩ ∧
    (Sample.inertia level).moi = ⟨5 + 4.56 * level, 5 + 4.56 * level, (5 + 4.56 * level) / 20⟩ := by
  refine ⟨rfl, rfl, ?_, ?_, ?_⟩
  · unfold Sample.inertia; ring
  · unfold Sample.inertia; apply V3.ext' <;> simp <;> ring
  · unfold Sample.inertia; apply V3.ext' <;> norm_num <;> ring

/-- **C91 violated (sample component).** The force of the sample component (which would be `4000 level` along the rocket) cannot be
had: it calls a function the rocket does not have, an `AttributeError`, for every level. -/
theorem sample_force_violated (level : ℝ) : Sample.appliedForce Sample.rocketHasLog level = .error .attributeError ∧
    Sample.appliedForce true level = .ok ⟨0, 0, 4000 * level⟩ := by
  refine ⟨rfl, ?_⟩
  unfold Sample.appliedForce Sample.tankDerivative
  simp only [if_true]
  congr 2
  ring

end claims

/-! ## The hypotheses can be met -/

/-- a rocket without forces and with one component value that grows at rate 3 -/
noncomputable def drifting : ℝ → List (Val ℝ) → Except PyErr (List (DVal ℝ)) :=
  rocketRhs (n := 1) (fun _ y => match y with | .body s :: _ => .ok ⟨s.vel, 0, 0, 0⟩ | _ => .error .attributeError) (fun _ _ _ => .ok 3)

theorem drifting_coasts : Coasting drifting (fun _ : Fin 1 => (3 : ℝ)) := by
  intro t s _
  exact rocketRhs_ok _ _ t (pack s) _ _ rfl (fun _ => rfl)

/-- in one second at 100 m/s, RK45 moves the rocket by 9.1 m -/
example : ∃ tab fsal A, adaptiveWorking "RK45Adaptive" = .ok (tab, fsal) ∧
    attempt (rocketArith fun x : ℝ => |x|) tab none drifting 0 (pack (⟨⟨0, 0, 0⟩, ⟨0, 0, 100⟩, ⟨1, 0, 0, 0⟩, ⟨0, 0, 0⟩⟩, fun _ : Fin 1 => (0 : ℝ))) 1 = .ok A ∧
    A.newValue = pack (⟨⟨0, 0, 3500 / 384⟩, ⟨0, 0, 100⟩, ⟨1, 0, 0, 0⟩, ⟨0, 0, 0⟩⟩, fun _ : Fin 1 => (105 / 384 : ℝ)) := by
  obtain ⟨tab, fsal, A, h1, h2, h3, _⟩ := coast_adaptive_violated (fun x : ℝ => |x|) "RK45Adaptive" (35 / 384) (5179 / 57600) (by simp [firstWeights])
    drifting _ drifting_coasts 0 1 (⟨⟨0, 0, 0⟩, ⟨0, 0, 100⟩, ⟨1, 0, 0, 0⟩, ⟨0, 0, 0⟩⟩, fun _ : Fin 1 => (0 : ℝ)) unit_one
  refine ⟨tab, fsal, A, h1, h2, ?_⟩
  rw [h3]
  congr 2
  · congr 1
    apply V3.ext' <;> norm_num
  · funext i
    norm_num

/-- with RK4 it moves by 100 m -/
example : ∃ r, classicalStep (rocketArith fun x : ℝ => |x|) "RK4" drifting 0
    (pack (⟨⟨0, 0, 0⟩, ⟨0, 0, 100⟩, ⟨1, 0, 0, 0⟩, ⟨0, 0, 0⟩⟩, fun _ : Fin 1 => (0 : ℝ))) 1 = .ok r ∧
    r.newValue = pack (⟨⟨0, 0, 100⟩, ⟨0, 0, 100⟩, ⟨1, 0, 0, 0⟩, ⟨0, 0, 0⟩⟩, fun _ : Fin 1 => (3 : ℝ)) := by
  obtain ⟨r, h1, h2⟩ := coast_step (fun x : ℝ => |x|) "RK4" 1 (1 / 2 + 2 / 3 / 10 ^ 16) (by simp [factors])
    drifting _ drifting_coasts 0 1 one_ne_zero (⟨⟨0, 0, 0⟩, ⟨0, 0, 100⟩, ⟨1, 0, 0, 0⟩, ⟨0, 0, 0⟩⟩, fun _ : Fin 1 => (0 : ℝ)) unit_one
  refine ⟨r, h1, ?_⟩
  rw [h2]
  congr 2
  · congr 1
    apply V3.ext' <;> norm_num
  · funext i
    norm_num

end Mapleaf.Motion.Body
