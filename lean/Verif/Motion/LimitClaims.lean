import Verif.Motion.LimitCodeProps
import Verif.Motion.VectorProps
import Verif.Motion.StepperProps
import Mathlib.Analysis.SpecialFunctions.ExpDeriv

/-! # C93: refining the time step converges to the true motion -/

namespace Mapleaf.Motion.Lim
open Set Mapleaf.Motion.RK

/-! ## The tableaus -/

/-- all coefficients at most 1, all stages inside the step -/
def boundB (rows : Tableau ℚ) (b : List ℚ) : Bool :=
  rows.all (fun r => r.tail.all (fun x => decide (|x| ≤ 1)) && decide (0 ≤ r.headD 0 ∧ r.headD 0 ≤ 1)) && b.all (fun x => decide (|x| ≤ 1))

theorem getD_le (l : List ℚ) (h : ∀ x ∈ l, |x| ≤ 1) (j : ℕ) : |(castL l : List ℝ).getD j 0| ≤ 1 := by
  rw [castL_getD, List.getD_eq_getElem?_getD]
  cases hj : l[j]? with
  | none => simp
  | some x =>
    have := h x (List.mem_of_getElem? hj)
    simp only [Option.getD_some]
    exact_mod_cast this

theorem castL_headD (l : List ℚ) : (castL l : List ℝ).headD 0 = ((l.headD 0 : ℚ) : ℝ) := by cases l <;> simp [castL]

theorem bounded_of_B (rows : Tableau ℚ) (b : List ℚ) (h : boundB rows b = true) : (coefOf (castT rows) (castL b)).Bounded 1 := by
  simp only [boundB, Bool.and_eq_true, List.all_eq_true, decide_eq_true_eq] at h
  have hrow : ∀ i, (∀ x ∈ (rows.getD i []).tail, |x| ≤ 1) ∧ 0 ≤ (rows.getD i []).headD 0 ∧ (rows.getD i []).headD 0 ≤ 1 := fun i => by
    rw [List.getD_eq_getElem?_getD]
    cases hi : rows[i]? with
    | none => simp
    | some r => exact h.1 r (List.mem_of_getElem? hi)
  refine ⟨fun i j => ?_, fun i => getD_le b h.2 i, fun i => ?_⟩
  · cases i with
    | zero => simp [coefOf]
    | succ i =>
      simp only [coefOf, List.getD_cons_succ, castT_getD, castL_tail]
      exact getD_le _ (hrow i).1 j
  · cases i with
    | zero => simp [coefOf]
    | succ i =>
      simp only [coefOf, List.getD_cons_succ, castT_getD, castL_headD]
      exact ⟨by exact_mod_cast (hrow i).2.1, by exact_mod_cast (hrow i).2.2⟩

/-- no zeros among the times of the stages -/
def nodesB (tab : Tableau ℚ) : Bool := (tab.take (tab.length - 1)).all fun r => decide (r.headD 0 ≠ 0)

theorem patched_c (tab : Tableau ℚ) (h : nodesB tab = true) :
    (coefOf (rowsOf (patch tab)) (weightsOf (patch tab))).c = (coefOf (rowsOf tab) (weightsOf tab)).c := by
  simp only [nodesB, List.all_eq_true, decide_eq_true_eq] at h
  funext i
  cases i with
  | zero => simp [coefOf]
  | succ i =>
    simp only [coefOf, rowsOf, List.getD_cons_succ, patch_length, patch_take, castT_getD, patch_getD, castL_headD]
    rw [List.getD_eq_getElem?_getD]
    cases hi : (tab.take (tab.length - 1))[i]? with
    | none => simp
    | some r =>
      have := h r (List.mem_of_getElem? hi)
      cases r with
      | nil => simp
      | cons x r => simp only [List.headD_cons] at this; simp [this]

/-- the tableau of a method with the facts needed -/
structure Fit (tab : Tableau ℚ) (p : ℕ) : Prop where
  consistent : rowsConsistent 0 tab = true
  shape : shapeB 1 (patch tab) = true
  bound : (coefOf (rowsOf tab) (weightsOf tab)).Bounded 1
  bound' : (coefOf (rowsOf (patch tab)) (weightsOf (patch tab))).Bounded 1
  nodes : (coefOf (rowsOf (patch tab)) (weightsOf (patch tab))).c = (coefOf (rowsOf tab) (weightsOf tab)).c
  rows : (coefOf (rowsOf tab) (weightsOf tab)).Rows
  order : (coefOf (rowsOf tab) (weightsOf tab)).Order p

theorem fit_midpoint : Fit tabRK2Midpoint 2 where
  consistent := by decide +kernel
  shape := by decide +kernel
  bound := bounded_of_B _ _ (by decide +kernel)
  bound' := bounded_of_B _ _ (by decide +kernel)
  nodes := patched_c _ (by decide +kernel)
  rows := by
    intro i hi
    have : i < 2 := hi
    interval_cases i <;> norm_num [coefOf, rowsOf, weightsOf, tabRK2Midpoint, castT, castL, Finset.sum_range_succ]
  order := by
    constructor <;> intro h <;> first | omega |
      norm_num [Coef.dot, Coef.row, coefOf, rowsOf, weightsOf, tabRK2Midpoint, castT, castL, Finset.sum_range_succ]

theorem fit_heun : Fit tabRK2Heun 2 where
  consistent := by decide +kernel
  shape := by decide +kernel
  bound := bounded_of_B _ _ (by decide +kernel)
  bound' := bounded_of_B _ _ (by decide +kernel)
  nodes := patched_c _ (by decide +kernel)
  rows := by
    intro i hi
    have : i < 2 := hi
    interval_cases i <;> norm_num [coefOf, rowsOf, weightsOf, tabRK2Heun, castT, castL, Finset.sum_range_succ]
  order := by
    constructor <;> intro h <;> first | omega |
      norm_num [Coef.dot, Coef.row, coefOf, rowsOf, weightsOf, tabRK2Heun, castT, castL, Finset.sum_range_succ]

theorem fit_rk4 : Fit tabRK4 4 where
  consistent := by decide +kernel
  shape := by decide +kernel
  bound := bounded_of_B _ _ (by decide +kernel)
  bound' := bounded_of_B _ _ (by decide +kernel)
  nodes := patched_c _ (by decide +kernel)
  rows := by
    intro i hi
    have : i < 4 := hi
    interval_cases i <;> norm_num [coefOf, rowsOf, weightsOf, tabRK4, castT, castL, Finset.sum_range_succ]
  order := by
    constructor <;> intro h <;>
      norm_num [Coef.dot, Coef.row, coefOf, rowsOf, weightsOf, tabRK4, castT, castL, Finset.sum_range_succ]

theorem fit_rk438 : Fit tabRK438 4 where
  consistent := by decide +kernel
  shape := by decide +kernel
  bound := bounded_of_B _ _ (by decide +kernel)
  bound' := bounded_of_B _ _ (by decide +kernel)
  nodes := patched_c _ (by decide +kernel)
  rows := by
    intro i hi
    have : i < 4 := hi
    interval_cases i <;> norm_num [coefOf, rowsOf, weightsOf, tabRK438, castT, castL, Finset.sum_range_succ]
  order := by
    constructor <;> intro h <;>
      norm_num [Coef.dot, Coef.row, coefOf, rowsOf, weightsOf, tabRK438, castT, castL, Finset.sum_range_succ]

/-- no zeros among the weights -/
theorem patched_b (tab : Tableau ℚ) (h : (patch tab).getLast?.getD [] = tab.getLast?.getD []) :
    weightsOf (patch tab) = weightsOf tab := by unfold weightsOf; rw [h]

theorem fit_euler : (coefOf [] [1]).Bounded 1 ∧ (coefOf [] [1]).Rows ∧ (coefOf [] [1]).Order 1 := by
  refine ⟨?_, ?_, ?_⟩
  · have := bounded_of_B [] [1] (by decide +kernel)
    simpa [castT, castL] using this
  · intro i hi
    have : i < 1 := hi
    interval_cases i
    simp [coefOf]
  · constructor <;> intro h <;> first | omega | simp [Coef.dot, coefOf]

/-- the fixed-step methods with exact weights, and their orders -/
def exactMethods : List (String × ℕ) := [("Euler", 1), ("RK2Heun", 2), ("RK4", 4), ("RK4_3/8", 4)]

section claims
variable {E : Type} [NormedAddCommGroup E] [NormedSpace ℝ E] {f : ℝ → E → E} {y : ℝ → E} {a e : ℝ} {U : Set (ℝ × E)}

/-- Every such method of the code takes the steps of a Runge-Kutta method whose coefficients `aᵢⱼ` are within `1e-16` of one that satisfies the
order conditions. -/
theorem exact_methods (mp : String × ℕ) (hmp : mp ∈ exactMethods) : ∃ q q' : Coef, q.Bounded 1 ∧ q'.Bounded 1 ∧ q.Rows ∧ q.Order mp.2 ∧
    q'.s = q.s ∧ q'.c = q.c ∧ (∀ i j, |q'.A i j - q.A i j| ≤ 1 / 10 ^ 16) ∧ q'.b = q.b ∧ (mp.1 ≠ "RK4" → q' = q) ∧ 1 ≤ mp.2 ∧ mp.2 ≤ 4 ∧
    ∀ (f : ℝ → E → E) t x h, h ≠ 0 → ∃ r, classicalStep mp.1 f t x h = .ok r ∧ r.newValue = rk q' f t x h := by
  have table : ∀ (m : String) (p : ℕ) (tab : Tableau ℚ), classicalTableau m = .ok (some tab) → Fit tab p → weightsOf (patch tab) = weightsOf tab →
      (m ≠ "RK4" → patch tab = tab) → 1 ≤ p → p ≤ 4 → ∃ q q' : Coef, q.Bounded 1 ∧ q'.Bounded 1 ∧ q.Rows ∧ q.Order p ∧
        q'.s = q.s ∧ q'.c = q.c ∧ (∀ i j, |q'.A i j - q.A i j| ≤ 1 / 10 ^ 16) ∧ q'.b = q.b ∧ (m ≠ "RK4" → q' = q) ∧ 1 ≤ p ∧ p ≤ 4 ∧
        ∀ (f : ℝ → E → E) t x h, h ≠ 0 → ∃ r, classicalStep m f t x h = .ok r ∧ r.newValue = rk q' f t x h :=
    fun m p tab hm hf hw hx h1 h4 => ⟨coefOf (rowsOf tab) (weightsOf tab), coefOf (rowsOf (patch tab)) (weightsOf (patch tab)), hf.bound, hf.bound', hf.rows,
      hf.order, (patched_near tab).2.2, hf.nodes, (patched_near tab).1, by simp only [coefOf, hw], fun hne => by rw [hx hne], h1, h4,
      fun f t x h hh => classical_rk m tab hm hf.consistent hf.shape f t x h hh⟩
  simp only [exactMethods, List.mem_cons, List.not_mem_nil, or_false] at hmp
  rcases hmp with rfl | rfl | rfl | rfl
  · exact ⟨coefOf [] [1], coefOf [] [1], fit_euler.1, fit_euler.1, fit_euler.2.1, fit_euler.2.2, rfl, rfl, fun i j => by simp, rfl, fun _ => rfl, le_rfl, by norm_num,
      fun f t x h _ => euler_rk f t x h⟩
  · exact table "RK2Heun" 2 tabRK2Heun (by simp [classicalTableau]) fit_heun (patched_b _ (by decide +kernel)) (fun _ => by decide +kernel) (by norm_num) (by norm_num)
  · exact table "RK4" 4 tabRK4 (by simp [classicalTableau]) fit_rk4 (patched_b _ (by decide +kernel)) (fun h => absurd rfl h) (by norm_num) (by norm_num)
  · exact table "RK4_3/8" 4 tabRK438 (by simp [classicalTableau]) fit_rk438 (patched_b _ (by decide +kernel)) (fun _ => by decide +kernel) (by norm_num) (by norm_num)

open Stepper in
/-- **C93.** For every motion with a smooth right-hand side there are `C` and `h₀` such that every flight from its start, with any sequence of
steps of at most `h ≤ h₀`, runs without error and ends within `C hᵖ` of the motion, where `p` is 1 for Euler, 2 for Heun and 4 for the 3/8 rule
(the methods without zeros in their tableaus). -/
theorem classical_converges (mp : String × ℕ) (hmp : mp ∈ [("Euler", 1), ("RK2Heun", 2), ("RK4_3/8", 4)]) (M : Motion f y a e U) :
    ∃ C h₀ : ℝ, 0 ≤ C ∧ 0 < h₀ ∧ ∀ h ∈ Ioc 0 h₀, ∀ hs : List ℝ, (∀ s ∈ hs, 0 < s ∧ s ≤ h) → a + hs.sum ≤ e → ∀ l : E,
      ∃ rs b', timeSteps (fixedStep mp.1 f) ⟨a, y a, l⟩ hs = .ok (rs, b') ∧ b'.time = a + hs.sum ∧ ‖b'.state - y (a + hs.sum)‖ ≤ C * h ^ mp.2 := by
  have hne : mp.1 ≠ "RK4" := by
    simp only [List.mem_cons, List.not_mem_nil, or_false] at hmp
    rcases hmp with rfl | rfl | rfl <;> decide
  obtain ⟨q, q', hb, _, hr, ho, _, _, _, _, hex, hp1, hp4, hstep⟩ := exact_methods (E := E) mp (by
    simp only [exactMethods, List.mem_cons, List.not_mem_nil, or_false] at hmp ⊢; tauto)
  rw [hex hne] at hstep
  obtain ⟨C, h₀, δ₀, hC, hh₀, hδ₀, key⟩ := rk_converges M q zero_le_one hb hr mp.2 hp1 hp4 ho
  refine ⟨C, h₀, hC, hh₀, fun h hh hs hsteps hend l => ?_⟩
  obtain ⟨rs, b', k1, k2, k3⟩ := flight_march mp.1 q f (hstep f) hs (fun s hs' => (hsteps s hs').1.ne') ⟨a, y a, l⟩
  refine ⟨rs, b', k1, k2, ?_⟩
  rw [k3]
  have := key 0 ⟨le_rfl, zero_le_one⟩ 0 ⟨le_rfl, hδ₀.le⟩ q rfl rfl hb (fun i j => by simp) (fun i => by simp) h hh hs hsteps hend
  rwa [zero_mul, add_zero, add_zero] at this

open Stepper in
/-- **C93.** Without smoothness — a right-hand side that is Lipschitz in the state near the motion, and in time along it — the same flights end
within `C h` of the motion. -/
theorem classical_converges_rough {L ρ B Γ : ℝ} (mp : String × ℕ) (hmp : mp ∈ [("Euler", 1), ("RK2Heun", 2), ("RK4", 4), ("RK4_3/8", 4)])
    (M : Rough f y a e L ρ B Γ) :
    ∃ C h₀ : ℝ, 0 ≤ C ∧ 0 < h₀ ∧ ∀ h ∈ Ioc 0 h₀, ∀ hs : List ℝ, (∀ s ∈ hs, 0 < s ∧ s ≤ h) → a + hs.sum ≤ e → ∀ l : E,
      ∃ rs b', timeSteps (fixedStep mp.1 f) ⟨a, y a, l⟩ hs = .ok (rs, b') ∧ b'.time = a + hs.sum ∧ ‖b'.state - y (a + hs.sum)‖ ≤ C * h := by
  obtain ⟨q, q', hb, hb', hr, ho, hs1, hc1, hA, hw, _, hp1, hp4, hstep⟩ := exact_methods (E := E) mp hmp
  obtain ⟨C, h₀, δ₀, hC, hh₀, hδ₀, key⟩ := rk_first_order (R := 1) M q.s zero_le_one
  refine ⟨C, h₀, hC, hh₀, fun h hh hs hsteps hend l => ?_⟩
  obtain ⟨rs, b', k1, k2, k3⟩ := flight_march mp.1 q' f (hstep f) hs (fun s hs' => (hsteps s hs').1.ne') ⟨a, y a, l⟩
  refine ⟨rs, b', k1, k2, ?_⟩
  rw [k3]
  have hsum : ∑ i ∈ Finset.range q'.s, q'.b i = 1 := by
    have := ho.o1 hp1
    unfold Coef.dot at this
    simp only [mul_one] at this
    rw [hs1, hw, this]
  have := key 0 ⟨le_rfl, hδ₀.le⟩ q' hs1 hb' (by rw [hsum]; simp) h hh hs hsteps hend
  rwa [add_zero] at this

/-- steps with a tableau -/
noncomputable def tableauMarch (tab : Tableau ℝ) (f : ℝ → E → E) : ℝ → E → List ℝ → Except PyErr E
  | _, x, [] => .ok x
  | t, x, h :: hs =>
    match rkStep tab f t x h with
    | .error e => .error e
    | .ok r => tableauMarch tab f (t + h) r.newValue hs

/-- the tableau of the classical fourth-order method with its zeros replaced by `ε` -/
noncomputable def rk4 (ε : ℝ) : Tableau ℝ := [[1 / 2, 1 / 2], [1 / 2, ε, 1 / 2], [1, ε, ε, 1], [1 / 6, 1 / 3, 1 / 3, 1 / 6]]

/-- the code runs it with `ε = 1e-16` -/
theorem rk4_code (f : ℝ → E → E) (t : ℝ) (x : E) (h : ℝ) : classicalStep "RK4" f t x h = rkStep (rk4 (1 / 10 ^ 16)) f t x h := by
  have h1 : classicalTableau "RK4" = .ok (some tabRK4) := by simp [classicalTableau]
  unfold classicalStep
  rw [h1]
  dsimp only
  rw [← castT_def, checkTableau_cast tabRK4 (by decide +kernel)]
  dsimp only
  congr 1
  norm_num [castT, castL, patch, tabRK4, rk4]

theorem rk4_shape (ε : ℝ) (hε : ε ≠ 0) : Shape 1 (rk4 ε) := by
  refine ⟨by simp [rk4, Explicit], by simp [rk4], ?_, by simp [rk4]⟩
  intro r hr z hz
  simp only [rk4, List.mem_cons, List.not_mem_nil, or_false] at hr
  rcases hr with rfl | rfl | rfl | rfl <;> simp only [List.mem_cons, List.not_mem_nil, or_false] at hz
  · rcases hz with rfl | rfl <;> norm_num
  · rcases hz with rfl | rfl | rfl <;> first | exact hε | norm_num
  · rcases hz with rfl | rfl | rfl | rfl <;> first | exact hε | norm_num
  · rcases hz with rfl | rfl | rfl | rfl <;> norm_num

theorem rk4_rk (ε : ℝ) (hε : ε ≠ 0) (f : ℝ → E → E) (t : ℝ) (x : E) (h : ℝ) (hh : h ≠ 0) :
    ∃ r, rkStep (rk4 ε) f t x h = .ok r ∧
      r.newValue = rk (coefOf [[1 / 2, 1 / 2], [1 / 2, ε, 1 / 2], [1, ε, ε, 1]] [1 / 6, 1 / 3, 1 / 3, 1 / 6]) f t x h := by
  have hshape := rk4_shape ε hε
  obtain ⟨r, ks, b, h1, h2, h3, h4, _, _⟩ := rkStep_spec (rk4 ε) hshape f t x h hh
  have hb : b = [1 / 6, 1 / 3, 1 / 3, 1 / 6] := by
    have : some b = some [1 / 6, 1 / 3, 1 / 3, 1 / 6] := by rw [← h2]; rfl
    exact Option.some.inj this
  subst hb
  refine ⟨r, h1, ?_⟩
  have h3' : IsStages [[1 / 2, 1 / 2], [1 / 2, ε, 1 / 2], [1, ε, ε, 1]] f t x h (f t x) ks := h3
  rw [h4, isStages_iff _ [1 / 6, 1 / 3, 1 / 3, 1 / 6] (by simp [Explicit]) f t x h ks h3']
  exact congrArg (fun z => x + h • z) (wsum_incr [[1 / 2, 1 / 2], [1 / 2, ε, 1 / 2], [1, ε, ε, 1]] [1 / 6, 1 / 3, 1 / 3, 1 / 6] rfl f t x h)

/-- the midpoint tableau with its zero replaced by `ε` -/
noncomputable def midpoint (ε : ℝ) : Tableau ℝ := [[1 / 2, 1 / 2], [ε, 1]]

/-- the code runs it with `ε = 1e-16` -/
theorem midpoint_code (f : ℝ → E → E) (t : ℝ) (x : E) (h : ℝ) : classicalStep "RK2Midpoint" f t x h = rkStep (midpoint (1 / 10 ^ 16)) f t x h := by
  have h1 : classicalTableau "RK2Midpoint" = .ok (some tabRK2Midpoint) := by simp [classicalTableau]
  unfold classicalStep
  rw [h1]
  dsimp only
  rw [← castT_def, checkTableau_cast tabRK2Midpoint (by decide +kernel)]
  dsimp only
  congr 1
  norm_num [castT, castL, patch, tabRK2Midpoint, midpoint]

theorem midpoint_shape (ε : ℝ) (hε : ε ≠ 0) : Shape 1 (midpoint ε) := by
  refine ⟨by simp [midpoint, Explicit], by simp [midpoint], ?_, by simp [midpoint]⟩
  intro r hr z hz
  simp only [midpoint, List.mem_cons, List.not_mem_nil, or_false] at hr
  rcases hr with rfl | rfl <;> simp only [List.mem_cons, List.not_mem_nil, or_false, or_self] at hz
  · rw [hz]; norm_num
  · rcases hz with rfl | rfl
    · exact hε
    · exact one_ne_zero

theorem midpoint_rk (ε : ℝ) (hε : ε ≠ 0) (f : ℝ → E → E) (t : ℝ) (x : E) (h : ℝ) (hh : h ≠ 0) :
    ∃ r, rkStep (midpoint ε) f t x h = .ok r ∧ r.newValue = rk (coefOf [[1 / 2, 1 / 2]] [ε, 1]) f t x h := by
  have hshape := midpoint_shape ε hε
  obtain ⟨r, ks, b, h1, h2, h3, h4, _, _⟩ := rkStep_spec (midpoint ε) hshape f t x h hh
  have hb : b = [ε, 1] := by simpa [midpoint] using h2.symm
  subst hb
  refine ⟨r, h1, ?_⟩
  have h3' : IsStages [[1 / 2, 1 / 2]] f t x h (f t x) ks := h3
  rw [h4, isStages_iff _ [ε, 1] (by simp [Explicit]) f t x h ks h3']
  exact congrArg (fun z => x + h • z) (wsum_incr [[1 / 2, 1 / 2]] [ε, 1] rfl f t x h)

theorem midpoint_bounded (ε : ℝ) (hε : ε ∈ Ioc (0 : ℝ) 1) : (coefOf [[1 / 2, 1 / 2]] [ε, 1]).Bounded 1 := by
  have hb0 := fit_midpoint.bound
  rw [show coefOf (rowsOf tabRK2Midpoint) (weightsOf tabRK2Midpoint) = coefOf [[1 / 2, 1 / 2]] [0, 1] by
    congr 1 <;> norm_num [rowsOf, weightsOf, tabRK2Midpoint, castT, castL]] at hb0
  refine ⟨hb0.A, fun i => ?_, hb0.c⟩
  rcases i with _ | _ | i
  · simp only [coefOf, List.getD_cons_zero]; rw [abs_of_pos hε.1]; exact hε.2
  · simp [coefOf]
  · simp [coefOf]

/-- **C93, midpoint rule.** What is missing: the weights add up to `1 + ε` instead of 1, so the flights end within `C (h² + ε)` of the motion and
the error does not vanish with the step. The code has `ε = 1e-16` (`midpoint_code`). -/
theorem midpoint_converges_partial (M : Motion f y a e U) : ∃ C h₀ ε₀ : ℝ, 0 ≤ C ∧ 0 < h₀ ∧ 0 < ε₀ ∧ ∀ ε ∈ Ioc 0 ε₀, ∀ h ∈ Ioc 0 h₀,
    ∀ hs : List ℝ, (∀ s ∈ hs, 0 < s ∧ s ≤ h) → a + hs.sum ≤ e →
      ∃ x, tableauMarch (midpoint ε) f a (y a) hs = .ok x ∧ ‖x - y (a + hs.sum)‖ ≤ C * (h ^ 2 + ε) := by
  have hq : coefOf (rowsOf tabRK2Midpoint) (weightsOf tabRK2Midpoint) = coefOf [[1 / 2, 1 / 2]] [0, 1] := by
    congr 1 <;> norm_num [rowsOf, weightsOf, tabRK2Midpoint, castT, castL]
  obtain ⟨C, h₀, δ₀, hC, hh₀, hδ₀, key⟩ := rk_converges M _ zero_le_one fit_midpoint.bound fit_midpoint.rows 2 one_le_two (by norm_num) fit_midpoint.order
  rw [hq] at key
  refine ⟨C, h₀, min δ₀ 1, hC, hh₀, lt_min hδ₀ one_pos, fun ε hε h hh hs hsteps hend => ?_⟩
  have hb1 := midpoint_bounded ε ⟨hε.1, hε.2.trans (min_le_right _ _)⟩
  have hrun : ∀ (hs : List ℝ), (∀ s ∈ hs, 0 < s ∧ s ≤ h) → ∀ t x, tableauMarch (midpoint ε) f t x hs = .ok (march (rk (coefOf [[1 / 2, 1 / 2]] [ε, 1]) f) t x hs) := by
    intro hs
    induction hs with
    | nil => intro _ t x; rfl
    | cons s hs ih =>
      intro hsteps t x
      obtain ⟨r, h1, h2⟩ := midpoint_rk ε hε.1.ne' f t x s (hsteps s (by simp)).1.ne'
      rw [tableauMarch, h1]
      dsimp only
      rw [ih (fun z hz => hsteps z (by simp [hz])), h2, march]
  refine ⟨_, hrun hs hsteps a (y a), ?_⟩
  have := key 0 ⟨le_rfl, zero_le_one⟩ ε ⟨hε.1.le, hε.2.trans (min_le_left _ _)⟩ (coefOf [[1 / 2, 1 / 2]] [ε, 1]) rfl rfl hb1 (fun i j => by simp [coefOf])
    (fun i => by
      rcases i with _ | _ | i
      · simp [coefOf, abs_of_pos hε.1]
      · simpa [coefOf] using hε.1.le
      · simpa [coefOf] using hε.1.le) h hh hs hsteps hend
  simpa using this

theorem rk4_near (ε : ℝ) (hε : ε ∈ Ioc (0 : ℝ) 1) : ∀ i j, |(coefOf [[1 / 2, 1 / 2], [1 / 2, ε, 1 / 2], [1, ε, ε, 1]] [1 / 6, 1 / 3, 1 / 3, 1 / 6]).A i j -
      (coefOf [[1 / 2, 1 / 2], [1 / 2, 0, 1 / 2], [1, 0, 0, 1]] [1 / 6, 1 / 3, 1 / 3, 1 / 6]).A i j| ≤ ε := by
  intro i j
  have he := hε.1.le
  rcases i with _ | _ | _ | _ | i <;> rcases j with _ | _ | _ | j <;> simp [coefOf, abs_of_pos hε.1, he]

theorem rk4_zeros : coefOf (rowsOf tabRK4) (weightsOf tabRK4) = coefOf [[1 / 2, 1 / 2], [1 / 2, 0, 1 / 2], [1, 0, 0, 1]] [1 / 6, 1 / 3, 1 / 3, 1 / 6] := by
  congr 1 <;> norm_num [rowsOf, weightsOf, tabRK4, castT, castL]

theorem rk4_bounded (ε : ℝ) (hε : ε ∈ Ioc (0 : ℝ) 1) :
    (coefOf [[1 / 2, 1 / 2], [1 / 2, ε, 1 / 2], [1, ε, ε, 1]] [1 / 6, 1 / 3, 1 / 3, 1 / 6]).Bounded 1 := by
  have hb0 := fit_rk4.bound
  rw [rk4_zeros] at hb0
  refine ⟨fun i j => ?_, hb0.b, fun i => ?_⟩
  · have h1 : |(1 / 2 : ℝ)| ≤ 1 := by rw [abs_of_pos (by norm_num)]; norm_num
    have h2 : |ε| ≤ 1 := by rw [abs_of_pos hε.1]; exact hε.2
    rcases i with _ | _ | _ | _ | i <;> rcases j with _ | _ | _ | j <;> simp [coefOf] <;> first | exact h2 | norm_num [abs_of_pos]
  · have := hb0.c i
    rcases i with _ | _ | _ | _ | i <;> simpa [coefOf] using this

/-- **C93, classical fourth-order method.** What is missing: the code replaces the zeros of the tableau by `1e-16` (`rk4_code`). With `ε` in their
place, flights end within `C (h⁴ + ε h)` of the motion, where `C` does not depend on `ε`. -/
theorem rk4_converges_partial (M : Motion f y a e U) : ∃ C h₀ : ℝ, 0 ≤ C ∧ 0 < h₀ ∧ ∀ ε ∈ Ioc (0 : ℝ) 1, ∀ h ∈ Ioc 0 h₀,
    ∀ hs : List ℝ, (∀ s ∈ hs, 0 < s ∧ s ≤ h) → a + hs.sum ≤ e →
      ∃ x, tableauMarch (rk4 ε) f a (y a) hs = .ok x ∧ ‖x - y (a + hs.sum)‖ ≤ C * (h ^ 4 + ε * h) := by
  obtain ⟨C, h₀, δ₀, hC, hh₀, hδ₀, key⟩ := rk_converges M _ zero_le_one fit_rk4.bound fit_rk4.rows 4 (by norm_num) le_rfl fit_rk4.order
  rw [rk4_zeros] at key
  refine ⟨C, h₀, hC, hh₀, fun ε hε h hh hs hsteps hend => ?_⟩
  have near := rk4_near ε hε
  have hb1 := rk4_bounded ε hε
  have hrun : ∀ (hs : List ℝ), (∀ s ∈ hs, 0 < s ∧ s ≤ h) → ∀ t x, tableauMarch (rk4 ε) f t x hs =
      .ok (march (rk (coefOf [[1 / 2, 1 / 2], [1 / 2, ε, 1 / 2], [1, ε, ε, 1]] [1 / 6, 1 / 3, 1 / 3, 1 / 6]) f) t x hs) := by
    intro hs
    induction hs with
    | nil => intro _ t x; rfl
    | cons s hs ih =>
      intro hsteps t x
      obtain ⟨r, h1, h2⟩ := rk4_rk ε hε.1.ne' f t x s (hsteps s (by simp)).1.ne'
      rw [tableauMarch, h1]
      dsimp only
      rw [ih (fun z hz => hsteps z (by simp [hz])), h2, march]
  refine ⟨_, hrun hs hsteps a (y a), ?_⟩
  have := key ε ⟨hε.1.le, hε.2⟩ 0 ⟨le_rfl, hδ₀.le⟩
    (coefOf [[1 / 2, 1 / 2], [1 / 2, ε, 1 / 2], [1, ε, ε, 1]] [1 / 6, 1 / 3, 1 / 3, 1 / 6]) rfl (by funext i; rcases i with _ | _ | _ | _ | i <;> simp [coefOf]) hb1 near (fun i => by simp [coefOf]) h hh hs hsteps hend
  rwa [add_zero] at this

end claims

open Stepper in
/-- **C93, classical fourth-order method: the exact order fails.** Under a constant acceleration `a` a flight of `n` steps of length `dt` is right
in the velocity but ends `2/3·1e-16 (n dt) dt a` too far: the error is of the first order in the step. -/
theorem rk4_order_violated (a : V3 ℝ) (dt : ℝ) (hdt : dt ≠ 0) (n : ℕ) (b : Stepped (V3 ℝ × V3 ℝ) (V3 ℝ × V3 ℝ)) :
    ∃ rs b', timeSteps (fixedStep "RK4" (ballistic a)) b (List.replicate n dt) = .ok (rs, b') ∧
      b'.state.2 = b.state.2 + (n * dt) • a ∧
      b'.state.1 = b.state.1 + (n * dt) • b.state.2 + ((n * dt) ^ 2 / 2) • a + (2 / 3 / 10 ^ 16 * (n * dt) * dt) • a := by
  obtain ⟨rs, b', h1, _, h3, h4⟩ := ballistic_flight "RK4" (1 / 2 + 2 / 3 / 10 ^ 16) (by simp [factors]) a dt hdt n b
  refine ⟨rs, b', h1, h3, ?_⟩
  rw [h4]; push_cast; module

open Stepper in
/-- **C93, midpoint rule: the exact statement fails.** Under `y' = 1` every flight, however small the steps, ends `1e-16` of its length too far. -/
theorem midpoint_bias_violated (a : ℝ) (hs : List ℝ) (hh : ∀ s ∈ hs, 0 < s) (x l : ℝ) :
    ∃ rs b', timeSteps (fixedStep "RK2Midpoint" fun _ _ => (1 : ℝ)) ⟨a, x, l⟩ hs = .ok (rs, b') ∧ b'.state - (x + hs.sum) = 1 / 10 ^ 16 * hs.sum := by
  obtain ⟨rs, b', k1, _, k3⟩ := flight_march "RK2Midpoint" (coefOf [[1 / 2, 1 / 2]] [1 / 10 ^ 16, 1]) (fun _ _ => (1 : ℝ))
    (fun t z h h0 => by rw [midpoint_code]; exact midpoint_rk _ (by positivity) _ t z h h0) hs (fun s hs' => (hh s hs').ne') ⟨a, x, l⟩
  refine ⟨rs, b', k1, ?_⟩
  have hrk : ∀ t z h, rk (coefOf [[1 / 2, 1 / 2]] [1 / 10 ^ 16, 1]) (fun _ _ => (1 : ℝ)) t z h = z + h * (1 / 10 ^ 16 + 1) := by
    intro t z h
    have : incr (coefOf [[1 / 2, 1 / 2]] [1 / 10 ^ 16, 1]) (fun _ _ => (1 : ℝ)) t z h = 1 / 10 ^ 16 + 1 := by
      unfold incr
      simp only [stage_point]
      simp [coefOf, Finset.sum_range_succ]
    unfold rk
    rw [this, smul_eq_mul]
  have hm : ∀ (hs : List ℝ) t z, march (rk (coefOf [[1 / 2, 1 / 2]] [1 / 10 ^ 16, 1]) fun _ _ => (1 : ℝ)) t z hs = z + hs.sum * (1 / 10 ^ 16 + 1) := by
    intro hs
    induction hs with
    | nil => intro t z; simp [march]
    | cons s hs ih => intro t z; rw [march, ih, hrk, List.sum_cons]; ring
  rw [k3, hm]
  ring

/-! ## Falling bodies -/

/-- the length of vectors as a norm -/
@[reducible] noncomputable def vNorm : NormedAddCommGroup (V3 ℝ) :=
  letI : Norm (V3 ℝ) := ⟨V3.length⟩
  NormedAddCommGroup.ofCore (𝕜 := ℝ)
    { norm_nonneg := V3.length_nonneg
      norm_smul := fun c x => (V3.length_smul c x).trans (by rw [Real.norm_eq_abs]; rfl)
      norm_triangle := fun x z => (V3.length_laws x z 0).2.2.2.2.1
      norm_eq_zero_iff := V3.length_zero_iff }

attribute [local instance] vNorm

@[reducible] noncomputable def vSpace : NormedSpace ℝ (V3 ℝ) where
  norm_smul_le c x := le_of_eq ((V3.length_smul c x).trans (by rw [Real.norm_eq_abs]; rfl))

attribute [local instance] vSpace

open Stepper in
/-- **C93.** A body that is a point mass (3-DoF) under a force and a mass that depend smoothly on time, position and velocity: its simulated
positions and velocities converge to the true ones, with the order of the method. -/
theorem fall_converges (mp : String × ℕ) (hmp : mp ∈ [("Euler", 1), ("RK2Heun", 2), ("RK4_3/8", 4)])
    (force : ℝ → V3 ℝ × V3 ℝ → V3 ℝ) (mass : ℝ → V3 ℝ × V3 ℝ → ℝ) (pos vel : ℝ → V3 ℝ) (a e : ℝ) (U : Set (ℝ × V3 ℝ × V3 ℝ)) (hU : IsOpen U)
    (hforce : ContDiffOn ℝ 4 (fun p : ℝ × V3 ℝ × V3 ℝ => force p.1 p.2) U) (hmass : ContDiffOn ℝ 4 (fun p : ℝ × V3 ℝ × V3 ℝ => mass p.1 p.2) U)
    (hpos : ∀ p ∈ U, mass p.1 p.2 ≠ 0) (mem : ∀ t ∈ Icc a e, (t, pos t, vel t) ∈ U)
    (hv : ∀ t ∈ Icc a e, HasDerivWithinAt pos (vel t) (Icc a e) t)
    (ha : ∀ t ∈ Icc a e, HasDerivWithinAt vel ((1 / mass t (pos t, vel t)) • force t (pos t, vel t)) (Icc a e) t) :
    ∃ C h₀ : ℝ, 0 ≤ C ∧ 0 < h₀ ∧ ∀ h ∈ Ioc 0 h₀, ∀ hs : List ℝ, (∀ s ∈ hs, 0 < s ∧ s ≤ h) → a + hs.sum ≤ e → ∀ l,
      ∃ rs b', timeSteps (fixedStep mp.1 (fall force mass)) ⟨a, (pos a, vel a), l⟩ hs = .ok (rs, b') ∧ b'.time = a + hs.sum ∧
        (b'.state.1 - pos (a + hs.sum)).length ≤ C * h ^ mp.2 ∧
        (b'.state.2 - vel (a + hs.sum)).length ≤ C * h ^ mp.2 := by
  have M : Motion (fall force mass) (fun t => (pos t, vel t)) a e U := by
    refine ⟨hU, ?_, mem, fun t ht => (hv t ht).prodMk (ha t ht)⟩
    refine ContDiffOn.prodMk (contDiff_snd.comp contDiff_snd).contDiffOn ?_
    exact ContDiffOn.smul (contDiffOn_const.div hmass hpos) hforce
  obtain ⟨C, h₀, hC, hh, key⟩ := classical_converges mp hmp M
  refine ⟨C, h₀, hC, hh, fun h hh hs hsteps hend l => ?_⟩
  obtain ⟨rs, b', k1, k2, k3⟩ := key h hh hs hsteps hend l
  refine ⟨rs, b', k1, k2, ?_, ?_⟩
  · exact le_trans (norm_fst_le (b'.state - (pos (a + hs.sum), vel (a + hs.sum)))) k3
  · exact le_trans (norm_snd_le (b'.state - (pos (a + hs.sum), vel (a + hs.sum)))) k3

/-! ## Cases -/

/-- growth `y' = y` on `[0, 1]` -/
example : Motion (fun _ x : ℝ => x) Real.exp 0 1 univ where
  isOpen := isOpen_univ
  smooth := contDiff_snd.contDiffOn
  mem := fun _ _ => trivial
  sol := fun t _ => (Real.hasDerivAt_exp t).hasDerivWithinAt

/-- a right-hand side with a corner: `y' = |y|` -/
example : Rough (fun _ x : ℝ => |x|) Real.exp 0 1 1 1 (Real.exp 1) (Real.exp 1) where
  lip := fun t _ x z _ _ => by rw [one_mul]; exact abs_abs_sub_abs_le_abs_sub x z
  bound := fun t ht => by rw [norm_abs_eq_norm, Real.norm_of_nonneg (Real.exp_pos t).le]; exact Real.exp_le_exp.2 ht.2
  along := fun s hs t ht => by
    rw [abs_of_pos (Real.exp_pos s), abs_of_pos (Real.exp_pos t)]
    have := (convex_Icc (0 : ℝ) 1).norm_image_sub_le_of_norm_hasDerivWithin_le (f := Real.exp) (f' := Real.exp) (C := Real.exp 1)
      (fun x _ => (Real.hasDerivAt_exp x).hasDerivWithinAt)
      (fun x hx => by rw [Real.norm_of_nonneg (Real.exp_pos x).le]; exact Real.exp_le_exp.2 hx.2) ht hs
    rwa [← Real.norm_eq_abs (s - t)]
  sol := fun t _ => by rw [abs_of_pos (Real.exp_pos t)]; exact (Real.hasDerivAt_exp t).hasDerivWithinAt
  hL := zero_le_one
  hρ := one_pos
  hB := (Real.exp_pos 1).le
  hΓ := (Real.exp_pos 1).le

/-- a stone thrown up, with a mass that decreases in time: the hypotheses of `fall_converges` can be met -/
example (g : V3 ℝ) : ∃ pos vel : ℝ → V3 ℝ, (∀ t ∈ Icc (0 : ℝ) 1, HasDerivWithinAt pos (vel t) (Icc 0 1) t) ∧
    ∀ t ∈ Icc (0 : ℝ) 1, HasDerivWithinAt vel ((1 / (fun (t : ℝ) (_ : V3 ℝ × V3 ℝ) => 2 - t) t (pos t, vel t)) •
      (fun (t : ℝ) (_ : V3 ℝ × V3 ℝ) => (2 - t) • g) t (pos t, vel t)) (Icc 0 1) t := by
  refine ⟨fun t => (t ^ 2 / 2) • g, fun t => t • g, fun t _ => ?_, fun t ht => ?_⟩
  · have := (((hasDerivAt_pow 2 t).div_const 2).smul_const g)
    have h2 : HasDerivAt (fun t : ℝ => (t ^ 2 / 2) • g) (t • g) t := by simpa using this
    exact h2.hasDerivWithinAt
  · have h2 : (2 : ℝ) - t ≠ 0 := by linarith [ht.2]
    have h3 : HasDerivAt (fun t : ℝ => t • g) g t := by simpa using (hasDerivAt_id t).smul_const g
    dsimp only
    rw [smul_smul, one_div_mul_cancel h2, one_smul]
    exact h3.hasDerivWithinAt

end Mapleaf.Motion.Lim
