import Verif.Motion.StepperModel
import Verif.Motion.IntegMethods
import Verif.Motion.VectorProps
import Mathlib.Algebra.Module.Prod
import Mathlib.Data.Real.Basic
import Mathlib.Tactic.Module
import Mathlib.Tactic.NormNum
import Mathlib.Tactic.Ring

/-! # C80: Bodies are advanced as the laws of motion say -/

namespace Mapleaf.Motion.Stepper
open Mapleaf Mapleaf.Motion RK

/-! ## 3-DoF states are pairs of vectors -/

/-- position and velocity -/
def pair (s : RBState3) : V3 ℝ × V3 ℝ := (s.pos, s.vel)
/-- velocity and acceleration -/
def pairD (d : RBDeriv3) : V3 ℝ × V3 ℝ := (d.vel, d.acc)

/-- **C80.** The operations on 3-DoF states and derivatives are those of pairs of vectors; division by zero raises. -/
theorem ops3_spec (a b : RBState3) (d e : RBDeriv3) (s : ℝ) :
    pair (add3 a b) = pair a + pair b ∧ pair (mul3 a s) = s • pair a ∧ pair (neg3 a) = -pair a ∧
      pairD (dAdd3 d e) = pairD d + pairD e ∧ pair (dMul3 d s) = s • pairD d ∧
      (s = 0 → dDiv3 d s = .error .zeroDivision) ∧ (s ≠ 0 → ∃ q, dDiv3 d s = .ok q ∧ pairD q = s⁻¹ • pairD d) ∧
      abs3 a = a.pos.length + a.vel.length := by
  refine ⟨rfl, rfl, ?_, rfl, rfl, ?_, ?_, rfl⟩
  · simp only [pair, neg3, mul3, neg_one_smul]; rfl
  · intro h; simp [dDiv3, h]
  · intro h
    refine ⟨⟨s⁻¹ • d.vel, s⁻¹ • d.acc⟩, ?_, rfl⟩
    simp [dDiv3, h]

/-- **C80.** The size of a 3-DoF state is never negative and zero exactly for the zero state. -/
theorem abs3_spec (a : RBState3) : 0 ≤ abs3 a ∧ (abs3 a = 0 ↔ a.pos = 0 ∧ a.vel = 0) := by
  have h1 := V3.length_nonneg a.pos
  have h2 := V3.length_nonneg a.vel
  refine ⟨by unfold abs3; linarith, ?_⟩
  rw [← V3.length_zero_iff, ← V3.length_zero_iff]
  unfold abs3
  constructor
  · intro h; constructor <;> linarith
  · rintro ⟨h, k⟩; rw [h, k]; norm_num

/-- **C80.** The right-hand side of a 3-DoF body: velocity, and force over mass; without mass it raises. -/
theorem rhs3_spec (force : ℝ → V3 ℝ × V3 ℝ → V3 ℝ) (mass : ℝ → V3 ℝ × V3 ℝ → ℝ) (t : ℝ) (s : RBState3) :
    (mass t (pair s) ≠ 0 → rigidBodyDerivative3 s (force t (pair s)) (mass t (pair s)) = .ok (fall force mass t (pair s))) ∧
      (mass t (pair s) = 0 → rigidBodyDerivative3 s (force t (pair s)) (mass t (pair s)) = .error .zeroDivision) := by
  constructor <;> intro h
  · unfold rigidBodyDerivative3; rw [if_neg h]; rfl
  · unfold rigidBodyDerivative3; rw [if_pos h]

/-! ## Stepping -/

section step
variable {S D : Type}

/-- **C80.** A step moves the time by the step taken and takes over the new state and derivative; a failing integrator fails. -/
theorem timeStep_spec (integrate : S → ℝ → ℝ → Except PyErr (Result S D)) (b : Stepped S D) (dt : ℝ) :
    (∀ r, integrate b.state b.time dt = .ok r → ∃ b', timeStep integrate b dt = .ok (r, b') ∧
      b'.time = b.time + r.dt ∧ b'.state = r.newValue ∧ b'.last = r.derivative) ∧
    (∀ e, integrate b.state b.time dt = .error e → timeStep integrate b dt = .error e) := by
  constructor
  · intro r h
    exact ⟨⟨b.time + r.dt, r.newValue, r.derivative⟩, by simp [timeStep, h], rfl, rfl, rfl⟩
  · intro e h; simp [timeStep, h]

/-- **C80.** Over any flight the time is the start plus the steps taken, and the state is that of the last step. -/
theorem timeSteps_spec (integrate : S → ℝ → ℝ → Except PyErr (Result S D)) (b : Stepped S D) (dts : List ℝ)
    (rs : List (Result S D)) (b' : Stepped S D) (h : timeSteps integrate b dts = .ok (rs, b')) :
    rs.length = dts.length ∧ b'.time = b.time + (rs.map (·.dt)).sum ∧
      (rs.getLast?.map (·.newValue)).getD b.state = b'.state ∧ (rs.getLast?.map (·.derivative)).getD b.last = b'.last := by
  induction dts generalizing b rs b' with
  | nil => simp only [timeSteps, Except.ok.injEq, Prod.mk.injEq] at h; obtain ⟨rfl, rfl⟩ := h; simp
  | cons dt dts ih =>
    unfold timeSteps at h
    cases hs : timeStep integrate b dt with
    | error e => rw [hs] at h; cases h
    | ok p =>
      obtain ⟨r, b1⟩ := p
      rw [hs] at h
      dsimp only at h
      cases ht : timeSteps integrate b1 dts with
      | error e => rw [ht] at h; cases h
      | ok q =>
        obtain ⟨rs', b2⟩ := q
        rw [ht] at h
        simp only [Except.ok.injEq, Prod.mk.injEq] at h
        obtain ⟨rfl, rfl⟩ := h
        obtain ⟨h1, h2, h3, h4⟩ := ih b1 rs' b2 ht
        have hb : b1 = ⟨b.time + r.dt, r.newValue, r.derivative⟩ := by
          unfold timeStep at hs
          cases hi : integrate b.state b.time dt with
          | error e => rw [hi] at hs; cases hs
          | ok r' =>
            rw [hi] at hs
            simp only [Except.ok.injEq, Prod.mk.injEq] at hs
            obtain ⟨rfl, rfl⟩ := hs
            rfl
        subst hb
        refine ⟨by simp [h1], by rw [h2]; simp [add_assoc], ?_, ?_⟩
        · rw [← h3]; cases rs' with
          | nil => rfl
          | cons x xs => rw [List.getLast?_cons_cons]; rfl
        · rw [← h4]; cases rs' with
          | nil => rfl
          | cons x xs => rw [List.getLast?_cons_cons]; rfl

end step

/-! ## Flight under a constant force -/

/-- the constants of the methods: the factor of the velocity and that of the acceleration -/
def factors : List (String × ℚ × ℚ) :=
  [("Euler", 1, 0), ("RK2Midpoint", 1 + 1 / 10 ^ 16, 1 / 2), ("RK2Heun", 1, 1 / 2), ("RK4", 1, 1 / 2 + 2 / 3 / 10 ^ 16),
   ("RK4_3/8", 1, 1 / 2)]

/-- the right-hand side under constant acceleration -/
def ballistic (a : V3 ℝ) (_ : ℝ) (s : V3 ℝ × V3 ℝ) : V3 ℝ × V3 ℝ := (s.2, a)

/-- a body of constant mass under a constant force accelerates constantly -/
theorem fall_constant (F : V3 ℝ) (m : ℝ) (t : ℝ) (s : V3 ℝ × V3 ℝ) :
    fall (fun _ _ => F) (fun _ _ => m) t s = ballistic ((1 / m) • F) t s := rfl

theorem wsum_snd (a : V3 ℝ) (ws : List ℝ) (ks : List (V3 ℝ × V3 ℝ)) (h : ∀ k ∈ ks, k.2 = a) (hl : ws.length ≤ ks.length) :
    (wsum ws ks).2 = ws.sum • a := by
  induction ws generalizing ks with
  | nil => simp [wsum]
  | cons w ws ih =>
    cases ks with
    | nil => simp at hl
    | cons k ks =>
      rw [wsum_cons, Prod.snd_add, Prod.smul_snd, h k (by simp), ih ks (fun k hk => h k (by simp [hk])) (by simpa using hl),
        List.sum_cons, add_smul]

theorem wsum_affine (v a : V3 ℝ) (dt : ℝ) (b cs : List ℝ) (h : b.length = cs.length) :
    wsum b (cs.map fun c => (v + (dt * c) • a, a)) = (b.sum • v + (dt * wsum b cs) • a, b.sum • a) := by
  induction b generalizing cs with
  | nil => simp [wsum, Prod.ext_iff]
  | cons w b ih =>
    cases cs with
    | nil => simp at h
    | cons c cs =>
      rw [List.map_cons, wsum_cons, ih cs (by simpa using h), wsum_cons, List.sum_cons]
      apply Prod.ext
      · simp only [Prod.fst_add, Prod.smul_fst, smul_eq_mul]; module
      · simp only [Prod.snd_add, Prod.smul_snd]; module

/-- lengths of the rows of a tableau and the values of its constants -/
def constants (tab : Tableau ℚ) (β γ : ℚ) : Bool :=
  let rows := (patch tab).take ((patch tab).length - 1)
  let b := (patch tab).getLast?.getD []
  rows.all (fun r => decide (r.tail.length ≤ rows.length + 1)) && decide (b.length = rows.length + 1) && decide (b.sum = β) &&
    decide (wsum b (0 :: rows.map fun r => r.tail.sum) = γ)

theorem ballistic_tableau (tab : Tableau ℚ) (m : String) (β γ : ℚ) (hm : classicalTableau m = .ok (some tab))
    (hc : rowsConsistent 0 tab = true) (hs : shapeB 1 (patch tab) = true) (hk : constants tab β γ = true) (a p v : V3 ℝ)
    (t dt : ℝ) (hdt : dt ≠ 0) :
    ∃ r, classicalStep m (ballistic a) t (p, v) dt = .ok r ∧
      r.newValue = (p + ((β : ℝ) * dt) • v + ((γ : ℝ) * dt ^ 2) • a, v + ((β : ℝ) * dt) • a) := by
  obtain ⟨r, ks, h1, h2, h3, _⟩ := classical_runs (K := ℝ) m tab hm hc hs (ballistic a) t (p, v) dt hdt
  refine ⟨r, h1, ?_⟩
  unfold constants at hk
  dsimp only at hk
  generalize (patch tab).take ((patch tab).length - 1) = rows at h2 hk
  generalize (patch tab).getLast?.getD [] = b at h3 hk
  simp only [Bool.and_eq_true, List.all_eq_true, decide_eq_true_eq] at hk
  obtain ⟨⟨⟨k1, k2⟩, k3⟩, k4⟩ := hk
  have hlen := isStages_length h2
  rw [castT_length] at hlen
  have hall : ∀ k ∈ ks, k.2 = a := by
    intro k hk
    rw [h2] at hk
    rcases List.mem_cons.1 hk with rfl | hk
    · rfl
    · obtain ⟨r, _, rfl⟩ := List.mem_map.1 hk; rfl
  have hks : ks = (castL (0 :: rows.map fun r => r.tail.sum) : List ℝ).map fun c => (v + (dt * c) • a, a) := by
    conv_lhs => rw [h2]
    simp only [castL, List.map_cons, Rat.cast_zero, mul_zero, zero_smul, add_zero, ballistic, List.cons.injEq, true_and, castT,
      List.map_map]
    apply List.map_congr_left
    intro r hr
    have hl : (castL r : List ℝ).tail.length ≤ ks.length := by
      rw [castL_tail, hlen]; simpa [castL] using k1 r hr
    simp only [Function.comp, Prod.snd_add, Prod.smul_snd]
    have := wsum_snd a (castL r : List ℝ).tail ks hall hl
    unfold castL at this ⊢
    rw [this]
    have h5 : (List.map (fun q : ℚ => (q : ℝ)) r).tail.sum = ((r.tail.sum : ℚ) : ℝ) := by
      have := sum_castL (K := ℝ) r.tail
      rw [← this, ← castL_tail]; rfl
    rw [h5, smul_smul]
  rw [h3, hks, wsum_affine v a dt _ _ (by simp [castL, k2]), sum_castL, wsum_cast, k3, k4]
  apply Prod.ext
  · simp only [Prod.fst_add, Prod.smul_fst]; module
  · simp only [Prod.snd_add, Prod.smul_snd]; module

set_option maxRecDepth 100000 in
/-- **C80.** Under a constant acceleration every fixed-step method advances velocity and position by constants of the method:
`v + β dt a` and `p + β dt v + γ dt² a`. The constants are exact (β = 1, γ = 1/2) for Heun's and the 3/8 rule, within 1e-16 for the
midpoint rule and RK4, and γ = 0 for Euler. -/
theorem ballistic_step (m : String) (β γ : ℚ) (hm : (m, β, γ) ∈ factors) (a p v : V3 ℝ) (t dt : ℝ) (hdt : dt ≠ 0) :
    ∃ r, fixedStep m (ballistic a) (p, v) t dt = .ok r ∧ r.dt = dt ∧
      r.newValue = (p + ((β : ℝ) * dt) • v + ((γ : ℝ) * dt ^ 2) • a, v + ((β : ℝ) * dt) • a) := by
  have key : ∃ r, classicalStep m (ballistic a) t (p, v) dt = .ok r ∧
      r.newValue = (p + ((β : ℝ) * dt) • v + ((γ : ℝ) * dt ^ 2) • a, v + ((β : ℝ) * dt) • a) := by
    simp only [factors, List.mem_cons, Prod.mk.injEq, List.not_mem_nil, or_false] at hm
    rcases hm with ⟨rfl, rfl, rfl⟩ | ⟨rfl, rfl, rfl⟩ | ⟨rfl, rfl, rfl⟩ | ⟨rfl, rfl, rfl⟩ | ⟨rfl, rfl, rfl⟩
    · refine ⟨eulerStep (ballistic a) t (p, v) dt, by simp [classicalStep, classicalTableau], ?_⟩
      simp [eulerStep, ballistic]
    · exact ballistic_tableau tabRK2Midpoint _ _ _ (by simp [classicalTableau]) (by decide +kernel) (by decide +kernel)
        (by decide +kernel) a p v t dt hdt
    · exact ballistic_tableau tabRK2Heun _ _ _ (by simp [classicalTableau]) (by decide +kernel) (by decide +kernel)
        (by decide +kernel) a p v t dt hdt
    · exact ballistic_tableau tabRK4 _ _ _ (by simp [classicalTableau]) (by decide +kernel) (by decide +kernel)
        (by decide +kernel) a p v t dt hdt
    · exact ballistic_tableau tabRK438 _ _ _ (by simp [classicalTableau]) (by decide +kernel) (by decide +kernel)
        (by decide +kernel) a p v t dt hdt
  obtain ⟨r, h1, h2⟩ := key
  exact ⟨⟨r.newValue, dt, r.derivative⟩, by simp [fixedStep, h1], rfl, h2⟩

/-- **C80.** `n` equal steps under a constant acceleration, for the methods with β = 1: the velocity is exact, the position is
`p + n dt v + (n γ + n (n-1)/2) dt² a`, so exact for γ = 1/2, and behind by `n dt²/2 a` for Euler. -/
theorem ballistic_flight (m : String) (γ : ℚ) (hm : (m, 1, γ) ∈ factors) (a : V3 ℝ) (dt : ℝ) (hdt : dt ≠ 0) (n : ℕ)
    (b : Stepped (V3 ℝ × V3 ℝ) (V3 ℝ × V3 ℝ)) :
    ∃ rs b', timeSteps (fixedStep m (ballistic a)) b (List.replicate n dt) = .ok (rs, b') ∧ b'.time = b.time + n * dt ∧
      b'.state.2 = b.state.2 + (n * dt) • a ∧
      b'.state.1 = b.state.1 + (n * dt) • b.state.2 + (((n : ℝ) * γ + n * (n - 1) / 2) * dt ^ 2) • a := by
  induction n generalizing b with
  | zero => exact ⟨[], b, rfl, by simp, by simp, by simp⟩
  | succ n ih =>
    obtain ⟨r, h1, h2, h3⟩ := ballistic_step m 1 γ hm a b.state.1 b.state.2 b.time dt hdt
    obtain ⟨rs, b', k1, k2, k3, k4⟩ := ih ⟨b.time + r.dt, r.newValue, r.derivative⟩
    refine ⟨r :: rs, b', ?_, ?_, ?_, ?_⟩
    · rw [List.replicate_succ]
      unfold timeSteps timeStep
      have : fixedStep m (ballistic a) b.state b.time dt = .ok r := h1
      rw [this]
      dsimp only
      rw [k1]
    · rw [k2, h2]; push_cast; ring
    · rw [k3, h3]; push_cast; module
    · rw [k4, h3]; push_cast; module

/-- **C80.** Heun's and the 3/8 rule fly constant accelerations exactly, whatever the step. -/
theorem ballistic_exact (m : String) (hm : m = "RK2Heun" ∨ m = "RK4_3/8") (a : V3 ℝ) (dt : ℝ) (hdt : dt ≠ 0) (n : ℕ)
    (b : Stepped (V3 ℝ × V3 ℝ) (V3 ℝ × V3 ℝ)) :
    ∃ rs b', timeSteps (fixedStep m (ballistic a)) b (List.replicate n dt) = .ok (rs, b') ∧ b'.time = b.time + n * dt ∧
      b'.state.2 = b.state.2 + (n * dt) • a ∧
      b'.state.1 = b.state.1 + (n * dt) • b.state.2 + ((n * dt) ^ 2 / 2) • a := by
  obtain ⟨rs, b', h1, h2, h3, h4⟩ := ballistic_flight m (1 / 2) (by rcases hm with rfl | rfl <;> simp [factors]) a dt hdt n b
  refine ⟨rs, b', h1, h2, h3, ?_⟩
  rw [h4]; push_cast; module

/-- **C80.** Euler flights lag behind by the given amount, which halves with the step. -/
theorem ballistic_euler (a : V3 ℝ) (dt : ℝ) (hdt : dt ≠ 0) (n : ℕ) (b : Stepped (V3 ℝ × V3 ℝ) (V3 ℝ × V3 ℝ)) :
    ∃ rs b', timeSteps (fixedStep "Euler" (ballistic a)) b (List.replicate n dt) = .ok (rs, b') ∧
      b'.state.1 = b.state.1 + (n * dt) • b.state.2 + ((n * dt) ^ 2 / 2) • a - ((n * dt) * dt / 2) • a := by
  obtain ⟨rs, b', h1, _, _, h4⟩ := ballistic_flight "Euler" 0 (by simp [factors]) a dt hdt n b
  refine ⟨rs, b', h1, ?_⟩
  rw [h4]; push_cast; module

example : ("RK4", (1 : ℚ), 1 / 2 + 2 / 3 / 10 ^ 16) ∈ factors := by simp [factors]

/-! ## Choice of the integrator -/

/-- **C80.** Methods without "Adapt" in their name have a fixed step; the others need a definition, which names the controller. -/
theorem factory_spec (m : Str) (get : Option (Str → Except PyErr Str)) (c : Chosen) :
    integratorFactory m get = .ok c ↔
      (¬ Str.isIn "Adapt".toList m ∧ c = .classical m) ∨
      (Str.isIn "Adapt".toList m ∧ ∃ g, get = some g ∧
        ((g "controller".toList = .ok "PID".toList ∧ ∃ w, g "PID.coefficients".toList = .ok w ∧ c = .pid m (Str.wsSplit w)) ∨
         (g "controller".toList = .ok "elementary".toList ∧ ∃ w, g "Elementary.safetyFactor".toList = .ok w ∧
            c = .elementary m w))) := by
  unfold integratorFactory
  by_cases h : Str.isIn "Adapt".toList m = true
  · rw [if_pos h]
    simp only [h, not_true_eq_false, false_and, true_and, false_or]
    cases get with
    | none => simp
    | some g =>
      simp only [Option.some.injEq, exists_eq_left']
      cases hc : g "controller".toList with
      | error e =>
        constructor
        · intro h; cases h
        · rintro (⟨h, _⟩ | ⟨h, _⟩) <;> cases h
      | ok k =>
        change (if k = "PID".toList then _ else _) = _ ↔ _
        by_cases h1 : k = "PID".toList
        · subst h1
          rw [if_pos rfl]
          constructor
          · intro h
            cases hw : g "PID.coefficients".toList with
            | error e => rw [hw] at h; cases h
            | ok w => rw [hw] at h; cases h; exact .inl ⟨rfl, w, rfl, rfl⟩
          · rintro (⟨_, w, hw, rfl⟩ | ⟨h, _⟩)
            · rw [hw]; rfl
            · exact absurd (Except.ok.inj h) (by decide +kernel)
        · rw [if_neg h1]
          by_cases h2 : k = "elementary".toList
          · subst h2
            rw [if_pos rfl]
            constructor
            · intro h
              cases hw : g "Elementary.safetyFactor".toList with
              | error e => rw [hw] at h; cases h
              | ok w => rw [hw] at h; cases h; exact .inr ⟨rfl, w, rfl, rfl⟩
            · rintro (⟨h, _⟩ | ⟨_, w, hw, rfl⟩)
              · exact absurd (Except.ok.inj h) (by decide +kernel)
              · rw [hw]; rfl
          · rw [if_neg h2]
            constructor
            · intro h; cases h
            · rintro (⟨h, _⟩ | ⟨h, _⟩)
              · exact absurd (Except.ok.inj h) h1
              · exact absurd (Except.ok.inj h) h2
  · rw [if_neg h]
    constructor
    · intro hk; exact .inl ⟨h, (Except.ok.inj hk).symm⟩
    · rintro (⟨_, rfl⟩ | ⟨h', _⟩)
      · rfl
      · exact absurd h' h

/-- **C80, violated.** The controller `constant`, offered by the template of definitions (SimDefinitionTemplate.mapleaf:232) and
understood by the integrator, makes the factory fail for every adaptive method, whatever the rest of the definition. -/
theorem constant_violated (m : Str) (h : Str.isIn "Adapt".toList m = true) (g : Str → Except PyErr Str)
    (hc : g "controller".toList = .ok "constant".toList) : integratorFactory m (some g) = .error .runtimeError := by
  unfold integratorFactory
  rw [if_pos h]
  dsimp only
  rw [hc]
  have h1 : ¬ "constant".toList = "PID".toList := by decide +kernel
  have h2 : ¬ "constant".toList = "elementary".toList := by decide +kernel
  dsimp only [bind, Except.bind]
  rw [if_neg h1, if_neg h2]

example : Str.isIn "Adapt".toList "RK45Adaptive".toList = true ∧ Str.isIn "Adapt".toList "RK4".toList = false := by decide +kernel

/-! ## Bodies with further variables -/

section vars
variable {V F : Type}

theorem addVars_spec (b : Stateful V F) (ns : List Str) (vs : List V) (fs : List F) (h1 : ns.length = vs.length)
    (h2 : vs.length = fs.length) :
    (addVars b ns vs fs).state.items = b.state.items ++ vs ∧ (addVars b ns vs fs).funcs = b.funcs ++ fs ∧
      (∀ n ∉ ns, Dict.get? (addVars b ns vs fs).state.names n = Dict.get? b.state.names n) ∧
      (ns.Nodup → ∀ i n, ns[i]? = some n → Dict.get? (addVars b ns vs fs).state.names n = some (b.state.items.length + i)) := by
  induction ns generalizing b vs fs with
  | nil =>
    obtain rfl : vs = [] := List.length_eq_zero_iff.1 h1.symm
    obtain rfl : fs = [] := List.length_eq_zero_iff.1 h2.symm
    simp [addVars]
  | cons n ns ih =>
    cases vs with
    | nil => simp at h1
    | cons v vs =>
      cases fs with
      | nil => simp at h2
      | cons f fs =>
        obtain ⟨k1, k2, k3, k4⟩ := ih (b.addVar n v f) vs fs (by simpa using h1) (by simpa using h2)
        refine ⟨by rw [addVars, k1]; simp [Stateful.addVar], by rw [addVars, k2]; simp [Stateful.addVar], ?_, ?_⟩
        · intro x hx
          rw [addVars, k3 x (fun h => hx (by simp [h]))]
          exact Dict.get?_set_ne _ _ (fun h : n = x => hx (by simp [h]))
        · intro hn i x hi
          rw [addVars]
          have hn' := List.nodup_cons.1 hn
          cases i with
          | zero =>
            simp only [List.getElem?_cons_zero, Option.some.injEq] at hi
            subst hi
            rw [k3 _ hn'.1]
            exact Dict.get?_set_self _ _ _
          | succ i =>
            rw [k4 hn'.2 i x (by simpa using hi)]
            simp [Stateful.addVar]; omega

/-- what the components that have the method, and for which it works, ask for -/
def asked (cs : List (Except PyErr (Extra V F))) : List (Extra V F) := cs.filterMap fun c => c.toOption

/-- **C80.** The wishes of the components are put together in their order; any error but `AttributeError` is passed on. -/
theorem collect_spec (cs : List (Except PyErr (Extra V F))) :
    ((∀ e, Except.error e ∈ cs → e = .attributeError) → ∃ x, collect cs = .ok x ∧ x.names = (asked cs).flatMap (·.names) ∧
      x.values = (asked cs).flatMap (·.values) ∧ x.funcs = (asked cs).flatMap (·.funcs)) ∧
    ((∃ e, Except.error e ∈ cs ∧ e ≠ .attributeError) → ∃ e, collect cs = .error e ∧ Except.error e ∈ cs ∧ e ≠ .attributeError) := by
  induction cs with
  | nil => exact ⟨fun _ => ⟨_, rfl, rfl, rfl, rfl⟩, by rintro ⟨e, h, _⟩; simp at h⟩
  | cons c cs ih =>
    cases c with
    | error e =>
      by_cases he : e = .attributeError
      · subst he
        refine ⟨fun h => ?_, ?_⟩
        · obtain ⟨x, k1, k2⟩ := ih.1 (fun e he => h e (by simp [he]))
          exact ⟨x, by rw [collect]; exact k1, k2⟩
        · rintro ⟨e, h, hne⟩
          obtain ⟨e', k1, k2, k3⟩ := ih.2 ⟨e, by simpa [hne] using h, hne⟩
          exact ⟨e', by rw [collect]; exact k1, by simp [k2], k3⟩
      · have hcol : collect (Except.error e :: cs) = .error e := by
          cases e <;> first | rfl | exact absurd rfl he
        refine ⟨fun h => absurd (h e (by simp)) he, fun _ => ⟨e, hcol, by simp, he⟩⟩
    | ok y =>
      refine ⟨fun h => ?_, ?_⟩
      · obtain ⟨x, k1, k2, k3, k4⟩ := ih.1 (fun e he => h e (by simp [he]))
        refine ⟨⟨y.names ++ x.names, y.values ++ x.values, y.funcs ++ x.funcs⟩, by rw [collect, k1], ?_, ?_, ?_⟩
        · rw [k2]; rfl
        · rw [k3]; rfl
        · rw [k4]; rfl
      · rintro ⟨e, h, hne⟩
        obtain ⟨e', k1, k2, k3⟩ := ih.2 ⟨e, by simpa using h, hne⟩
        exact ⟨e', by rw [collect, k1], by simp [k2], k3⟩

/-- **C80.** A rocket whose components ask for nothing keeps its body. -/
theorem stateless_spec (cs : List (Except PyErr (Extra V F))) (rigid : V) (rf : F)
    (he : ∀ e, Except.error e ∈ cs → e = .attributeError) :
    switchToStateful cs rigid rf = .ok none ↔ ∀ x ∈ asked cs, x.names = [] := by
  obtain ⟨x, h1, h2, h3, h4⟩ := (collect_spec cs).1 he
  unfold switchToStateful
  rw [h1]
  dsimp only
  by_cases h : x.names.length > 0
  · rw [if_pos h]
    constructor
    · intro h'; split at h' <;> cases h'
    · intro h'
      rw [h2] at h
      exfalso
      rw [List.flatMap_eq_nil_iff.2 h'] at h
      simp at h
  · rw [if_neg h]
    have h0 : x.names = [] := by simpa using h
    simp only [true_iff]
    rw [h2] at h0
    exact List.flatMap_eq_nil_iff.1 h0

/-- each component asks for as many names as values as functions -/
def Consistent (x : Extra V F) : Prop := x.names.length = x.values.length ∧ x.values.length = x.funcs.length

theorem flatMap_lengths {α β γ : Type} (f : α → List β) (g : α → List γ) (xs : List α) (h : ∀ x ∈ xs, (f x).length = (g x).length) :
    (xs.flatMap f).length = (xs.flatMap g).length := by
  induction xs with
  | nil => rfl
  | cons x xs ih => simp only [List.flatMap_cons, List.length_append, h x (by simp), ih fun y hy => h y (by simp [hy])]

/-- where the `i`-th item of the component after `pre` is found -/
theorem flatMap_at {α β : Type} (f : α → List β) (pre : List α) (x : α) (post : List α) (i : Nat) (y : β) (h : (f x)[i]? = some y) :
    ((pre ++ x :: post).flatMap f)[(pre.flatMap f).length + i]? = some y := by
  have hi : i < (f x).length := by
    by_contra hh
    rw [List.getElem?_eq_none (by omega)] at h
    cases h
  simp only [List.flatMap_append, List.flatMap_cons]
  rw [List.getElem?_append_right (by omega), Nat.add_sub_cancel_left, List.getElem?_append_left hi, h]

/-- **C80, partial.** When every component asks consistently and all names differ, the new body has the rigid body first and then the
variables of the components in order; each variable can be read by its name, has the value its component asked for, and belongs to
the function its component gave. (Missing: equal names, inconsistent components.) -/
theorem stateful_partial (cs : List (Except PyErr (Extra V F))) (rigid : V) (rf : F)
    (he : ∀ e, Except.error e ∈ cs → e = .attributeError) (hc : ∀ x ∈ asked cs, Consistent x)
    (hn : ((asked cs).flatMap (·.names)).Nodup) (hs : ∃ x ∈ asked cs, x.names ≠ []) :
    ∃ b, switchToStateful cs rigid rf = .ok (some b) ∧ b.state.items = rigid :: (asked cs).flatMap (·.values) ∧
      b.funcs = rf :: (asked cs).flatMap (·.funcs) ∧
      (∀ x ∈ asked cs, ∀ (i : ℕ) n v f, x.names[i]? = some n → x.values[i]? = some v → x.funcs[i]? = some f →
        b.state.read n = .ok v ∧ ∃ j, Dict.get? b.state.names n = some j ∧ b.state.items[j]? = some v ∧ b.funcs[j]? = some f) ∧
      (∀ n ∉ (asked cs).flatMap (·.names), b.state.read n = .error .attributeError) := by
  obtain ⟨x, h1, h2, h3, h4⟩ := (collect_spec cs).1 he
  have l1 : x.names.length = x.values.length := by
    rw [h2, h3]; exact flatMap_lengths _ _ _ fun y hy => (hc y hy).1
  have l2 : x.values.length = x.funcs.length := by
    rw [h3, h4]; exact flatMap_lengths _ _ _ fun y hy => (hc y hy).2
  have hpos : x.names.length > 0 := by
    obtain ⟨y, hy, hne⟩ := hs
    rw [gt_iff_lt, List.length_pos_iff, h2]
    intro h
    exact hne (List.flatMap_eq_nil_iff.1 h y hy)
  obtain ⟨k1, k2, k3, k4⟩ := addVars_spec (stateful rigid rf) x.names x.values x.funcs l1 l2
  refine ⟨addVars (stateful rigid rf) x.names x.values x.funcs, ?_, ?_, ?_, ?_, ?_⟩
  · unfold switchToStateful
    rw [h1]
    dsimp only
    rw [if_pos hpos, if_neg (by simp [l1, l2])]
  · rw [k1, h3]; rfl
  · rw [k2, h4]; rfl
  · intro y hy i n v f hn' hv hf
    obtain ⟨pre, post, hsplit⟩ := List.append_of_mem hy
    have hcp : ∀ z ∈ pre, Consistent z := fun z hz => hc z (by rw [hsplit]; simp [hz])
    have e1 : (pre.flatMap (·.names)).length = (pre.flatMap (·.values)).length := flatMap_lengths _ _ _ fun z hz => (hcp z hz).1
    have e2 : (pre.flatMap (·.values)).length = (pre.flatMap (·.funcs)).length := flatMap_lengths _ _ _ fun z hz => (hcp z hz).2
    have a1 := flatMap_at (·.names) pre y post i n hn'
    have a2 := flatMap_at (·.values) pre y post i v hv
    have a3 := flatMap_at (·.funcs) pre y post i f hf
    rw [← hsplit, ← h2] at a1
    rw [← hsplit, ← h3] at a2
    rw [← hsplit, ← h4] at a3
    have g1 := k4 (by rw [h2]; exact hn) _ n a1
    have g1' : Dict.get? (addVars (stateful rigid rf) x.names x.values x.funcs).state.names n =
        some ((pre.flatMap (·.names)).length + i + 1) := by
      rw [g1]; simp only [stateful, List.length_singleton]; congr 1; omega
    have g2 : (addVars (stateful rigid rf) x.names x.values x.funcs).state.items[(pre.flatMap (·.names)).length + i + 1]? = some v := by
      rw [k1]
      change (rigid :: x.values)[_ + 1]? = _
      rw [List.getElem?_cons_succ, e1, a2]
    have g3 : (addVars (stateful rigid rf) x.names x.values x.funcs).funcs[(pre.flatMap (·.names)).length + i + 1]? = some f := by
      rw [k2]
      change (rf :: x.funcs)[_ + 1]? = _
      rw [List.getElem?_cons_succ, e1, e2, a3]
    refine ⟨?_, _, g1', g2, g3⟩
    unfold Vars.read
    rw [g1']
    dsimp only
    rw [g2]
  · intro n hn'
    unfold Vars.read
    rw [k3 n (by rw [h2]; exact hn')]
    rfl

/-- a component with two variables, one without, one with one -/
example : ∃ cs : List (Except PyErr (Extra ℝ Nat)), (∀ e, Except.error e ∈ cs → e = .attributeError) ∧
    (∀ x ∈ asked cs, Consistent x) ∧ ((asked cs).flatMap (·.names)).Nodup ∧ (∃ x ∈ asked cs, x.names ≠ []) :=
  ⟨[.ok ⟨["tank".toList, "valve".toList], [1, 2], [3, 4]⟩, .error .attributeError, .ok ⟨["fin".toList], [5], [6]⟩],
    by simp, by simp [asked, Except.toOption, Consistent],
    by simp only [asked, Except.toOption, List.filterMap_cons, List.filterMap_nil, List.flatMap_cons, List.flatMap_nil]; decide +kernel,
    by simp [asked, Except.toOption]⟩

/-- **C80.** An inconsistent total is refused. -/
theorem mismatch_refused (cs : List (Except PyErr (Extra V F))) (rigid : V) (rf : F)
    (he : ∀ e, Except.error e ∈ cs → e = .attributeError) :
    switchToStateful cs rigid rf = .error .valueError ↔
      ((asked cs).flatMap (·.names)) ≠ [] ∧
        (((asked cs).flatMap (·.names)).length ≠ ((asked cs).flatMap (·.values)).length ∨
          ((asked cs).flatMap (·.values)).length ≠ ((asked cs).flatMap (·.funcs)).length) := by
  obtain ⟨x, h1, h2, h3, h4⟩ := (collect_spec cs).1 he
  rw [← h2, ← h3, ← h4]
  unfold switchToStateful
  rw [h1]
  dsimp only
  by_cases h : x.names.length > 0
  · rw [if_pos h]
    have hne := List.length_pos_iff.1 h
    by_cases hm : x.names.length ≠ x.values.length ∨ x.values.length ≠ x.funcs.length
    · rw [if_pos hm]; simp only [true_iff]; exact ⟨hne, hm⟩
    · rw [if_neg hm]
      constructor
      · intro h; cases h
      · intro h; exact absurd h.2 hm
  · rw [if_neg h]
    constructor
    · intro h; cases h
    · intro h'; exact absurd (List.length_pos_iff.2 h'.1) h

/-- **C80, violated.** A component whose method fails with an `AttributeError` is passed over without a word: its variables are missing,
and the body is the one of the rocket without it. -/
theorem swallowed_violated (cs cs' : List (Except PyErr (Extra V F))) (rigid : V) (rf : F) :
    switchToStateful (cs ++ .error .attributeError :: cs') rigid rf = switchToStateful (cs ++ cs') rigid rf := by
  have : collect (cs ++ .error .attributeError :: cs') = collect (cs ++ cs') := by
    induction cs with
    | nil => rfl
    | cons c cs ih =>
      cases c with
      | ok x => simp only [List.cons_append, collect, ih]
      | error e => cases e <;> simp only [List.cons_append, collect, ih]
  unfold switchToStateful
  rw [this]

/-- **C80, violated.** Two components using the same name: both read the variable of the second. -/
theorem sameName_violated (v w : V) (f g : F) (rigid : V) (rf : F) (n : Str) :
    ∃ b, switchToStateful [.ok ⟨[n], [v], [f]⟩, .ok ⟨[n], [w], [g]⟩] rigid rf = .ok (some b) ∧ b.state.read n = .ok w ∧
      b.state.items = [rigid, v, w] := by
  refine ⟨_, rfl, ?_, rfl⟩
  have h : Dict.get? (Dict.set (Dict.set ([] : Dict Str Nat) n 1) n 2) n = some 2 := Dict.get?_set_self _ _ _
  change (match Dict.get? (Dict.set (Dict.set ([] : Dict Str Nat) n 1) n 2) n with
    | some i => match [rigid, v, w][i]? with
      | some v => Except.ok v
      | none => Except.error PyErr.indexError
    | none => Except.error PyErr.attributeError) = .ok w
  rw [h]
  rfl

/-- **C80, violated.** Mistakes of two components can cancel: the first forgets the value of its second variable, the second gives one
too many, and the second variable of the first component starts with a value of the other component. -/
theorem cancel_violated (u v w : V) (f g h : F) (rigid : V) (rf : F) :
    ∃ b, switchToStateful [.ok ⟨["a".toList, "b".toList], [u], [f, g]⟩, .ok ⟨["c".toList], [v, w], [h]⟩] rigid rf = .ok (some b) ∧
      b.state.read "b".toList = .ok v := ⟨_, rfl, rfl⟩

/-- **C80, violated.** Values and functions without names are dropped. -/
theorem nameless_violated (v : V) (f : F) (rigid : V) (rf : F) :
    switchToStateful [.ok ⟨[], [v], [f]⟩] rigid rf = .ok none := rfl

end vars

section euler
variable {V D : Type}

/-- **C80.** An Euler step advances every item by its own derivative taken at the old state, and keeps the names. -/
theorem euler_spec (advance : V → D → ℝ → V) (b : Stateful V (ℝ → Vars V → D)) (t dt : ℝ)
    (h : b.state.items.length = b.funcs.length) :
    (b.euler advance t dt).state.names = b.state.names ∧ (b.euler advance t dt).funcs = b.funcs ∧
      (b.euler advance t dt).state.items.length = b.state.items.length ∧
      ∀ (i : ℕ) x f, b.state.items[i]? = some x → b.funcs[i]? = some f →
        (b.euler advance t dt).state.items[i]? = some (advance x (f t b.state) dt) := by
  refine ⟨rfl, rfl, by simp [Stateful.euler, Stateful.derivative, h], ?_⟩
  intro i x f hx hf
  simp [Stateful.euler, Stateful.derivative, List.getElem?_zipWith, hx, hf]

/-- **C80.** So a variable read by its name after a step has been advanced with its own function. -/
theorem euler_read (advance : V → D → ℝ → V) (b : Stateful V (ℝ → Vars V → D)) (t dt : ℝ)
    (h : b.state.items.length = b.funcs.length) (n : Str) (i : Nat) (x : V) (f : ℝ → Vars V → D)
    (hn : Dict.get? b.state.names n = some i) (hx : b.state.items[i]? = some x) (hf : b.funcs[i]? = some f) :
    (b.euler advance t dt).state.read n = .ok (advance x (f t b.state) dt) := by
  obtain ⟨h1, _, _, h4⟩ := euler_spec advance b t dt h
  unfold Vars.read
  rw [h1, hn]
  dsimp only
  rw [h4 i x f hx hf]

end euler

/-! ## Preparing the components, switching to 3-DoF -/

/-- **C80.** Preparation fails exactly with the first error that is no `AttributeError`; otherwise every component is prepared, but those
with an `AttributeError` stay as they are. -/
theorem precompute_spec {C : Type} (prepare : C → Except PyErr C) (cs : List C) :
    ((∀ c ∈ cs, ∀ e, prepare c = .error e → e = .attributeError) → precompute prepare cs =
      .ok (cs.map fun c => (prepare c).toOption.getD c)) ∧
    (∀ pre c post e, cs = pre ++ c :: post → (∀ x ∈ pre, ∀ e, prepare x = .error e → e = .attributeError) →
      prepare c = .error e → e ≠ .attributeError → precompute prepare cs = .error e) := by
  constructor
  · intro h
    induction cs with
    | nil => rfl
    | cons c cs ih =>
      have ih' := ih fun x hx => h x (by simp [hx])
      unfold precompute
      cases hc : prepare c with
      | ok c' => simp [ih', Except.toOption, hc]
      | error e =>
        obtain rfl := h c (by simp) e hc
        simp [ih', Except.toOption, hc]
  · intro pre c post e hcs hpre hc hne
    subst hcs
    induction pre with
    | nil =>
      simp only [List.nil_append]
      unfold precompute
      rw [hc]
      cases e <;> first | rfl | exact absurd rfl hne
    | cons x pre ih =>
      have ih' := ih fun y hy => hpre y (by simp [hy])
      rw [List.cons_append]
      unfold precompute
      cases hx : prepare x with
      | ok x' => simp [ih']
      | error e' =>
        obtain rfl := hpre x (by simp) e' hx
        simp [ih']

/-- time, position and velocity of the body flown with -/
def Flown.motion {V F : Type} : Flown V F → ℝ × V3 ℝ × V3 ℝ
  | .six t s => (t, s.pos, s.vel)
  | .extended t s _ => (t, s.pos, s.vel)
  | .three t s => (t, s.pos, s.vel)

/-- **C80.** The switch to 3-DoF keeps time, position and velocity, gives a 3-DoF body, and a second one changes nothing. -/
theorem switch_spec {V F : Type} (b : Flown V F) :
    b.switch.motion = b.motion ∧ (∃ t s, b.switch = .three t s) ∧ b.switch.switch = b.switch := by
  cases b <;> exact ⟨rfl, ⟨_, _, rfl⟩, rfl⟩

/-- **C80, violated.** It drops all further variables: a component that reads its own, as the sample component does for its mass, fails
after the parachute has opened, though the name was readable before. -/
theorem dropped_violated {V F : Type} (t : ℝ) (s : RBState) (rigid v : V) (rf f : F) (n : Str) :
    let b := Flown.extended t s ((stateful rigid rf).addVar n v f)
    b.variable n = .ok v ∧ b.switch.variable n = .error .attributeError := by
  refine ⟨?_, rfl⟩
  change Vars.read _ n = _
  unfold Vars.read Stateful.addVar stateful
  dsimp only
  rw [Dict.get?_set_self]
  rfl

/-! ## Log files -/

/-- **C80.** The paths returned: nothing without logging; the state log when it has rows; the force log from level 2 when it has rows, and
its expansion from level 3; the control log if there is one. -/
theorem logFiles_spec (level : Nat) (dir top : Str) (sr fr : Bool) (join : Str → Str → Str) (expand : Str → Str) (control : Option Str)
    (p : Str) :
    p ∈ logFiles level dir top sr fr join expand control ↔
      1 ≤ level ∧
        ((sr = true ∧ p = join dir (top ++ "_timeStepLog.csv".toList)) ∨
         (2 ≤ level ∧ fr = true ∧ p = join dir (top ++ "_derivativeEvaluationLog.csv".toList)) ∨
         (3 ≤ level ∧ fr = true ∧ p = expand (join dir (top ++ "_derivativeEvaluationLog.csv".toList))) ∨
         control = some p) := by
  unfold logFiles
  by_cases h : level > 0
  · rw [if_pos h]
    dsimp only
    generalize join dir (top ++ "_timeStepLog.csv".toList) = p1
    generalize join dir (top ++ "_derivativeEvaluationLog.csv".toList) = p2
    rw [List.mem_append, List.mem_append]
    have h1 : (1 ≤ level) = True := by simp; omega
    rw [h1, true_and, or_assoc]
    have e1 : p ∈ (if sr = true then [p1] else []) ↔ sr = true ∧ p = p1 := by cases sr <;> simp
    have e2 : p ∈ (if level > 1 ∧ fr = true then p2 :: (if level > 2 then [expand p2] else []) else []) ↔
        (2 ≤ level ∧ fr = true ∧ p = p2) ∨ (3 ≤ level ∧ fr = true ∧ p = expand p2) := by
      by_cases h2 : level > 1 ∧ fr = true
      · rw [if_pos h2]
        by_cases h3 : level > 2
        · rw [if_pos h3]
          simp only [List.mem_cons, List.not_mem_nil, or_false]
          constructor
          · rintro (h | h)
            · exact .inl ⟨by omega, h2.2, h⟩
            · exact .inr ⟨by omega, h2.2, h⟩
          · rintro (⟨_, _, h⟩ | ⟨_, _, h⟩)
            · exact .inl h
            · exact .inr h
        · rw [if_neg h3]
          simp only [List.mem_cons, List.not_mem_nil, or_false]
          constructor
          · exact fun h => .inl ⟨by omega, h2.2, h⟩
          · rintro (⟨_, _, h⟩ | ⟨h, _, _⟩)
            · exact h
            · omega
      · rw [if_neg h2]
        simp only [List.not_mem_nil, false_iff]
        rintro (⟨h, h', _⟩ | ⟨h, h', _⟩)
        · exact h2 ⟨by omega, h'⟩
        · exact h2 ⟨by omega, h'⟩
    rw [e1, e2, Option.mem_toList]
    simp only [or_assoc]
  · rw [if_neg h]
    simp only [List.not_mem_nil, false_iff]
    rintro ⟨h1, _⟩; omega

/-- **C80, violated.** Files are named after the top stage only: two flying parts whose top stages have the same name write the same files,
and the later one replaces the other. -/
theorem overwritten_violated (level : Nat) (dir top : Str) (join : Str → Str → Str) (expand : Str → Str) (h : 1 ≤ level) (fr fr' : Bool) :
    ∃ p, p ∈ logFiles level dir top true fr join expand none ∧ p ∈ logFiles level dir top true fr' join expand none :=
  ⟨join dir (top ++ "_timeStepLog.csv".toList), (logFiles_spec ..).2 ⟨h, .inl ⟨rfl, rfl⟩⟩, (logFiles_spec ..).2 ⟨h, .inl ⟨rfl, rfl⟩⟩⟩

end Mapleaf.Motion.Stepper
