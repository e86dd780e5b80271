import Verif.Motion.IntegProps
import Verif.Log.LogProps
import Mathlib.Data.Nat.Factorial.Basic
import Mathlib.Tactic.IntervalCases
import Mathlib.Algebra.Order.BigOperators.Group.Finset

/-! # C20: the built-in methods; C60 and C12: reuse of derivatives -/

set_option linter.unusedSectionVars false

namespace Mapleaf.Motion.RK

/-! ## Facts about tableaus of rationals, by evaluation -/

/-- Decidable form of `Shape`. -/
def explicitB : Nat → Tableau ℚ → Bool
  | _, [] => true
  | n, r :: rs => decide (r.length = n + 2) && explicitB (n + 1) rs

def shapeB (e : ℕ) (tab : Tableau ℚ) : Bool :=
  explicitB 0 (tab.take (tab.length - e)) && (tab.drop (tab.length - e)).all (fun r => decide (r.length = tab.length - e + 1)) &&
  tab.all (fun r => r.all (fun x => decide (x ≠ 0))) && decide (e ≤ tab.length)

/-- Relative residuals of the quadrature conditions up to degree `p - 1`. -/
def momentsB (tol : ℚ) (p : ℕ) (b cs : List ℚ) : Bool :=
  (List.range p).all (fun j => decide (|moment b cs j * ((j : ℚ) + 1) - 1| ≤ tol))

/-- Relative residuals of the coefficients of the stability polynomial against those of the exponential. -/
def stabilityB (tol : ℚ) (p : ℕ) (rows : Tableau ℚ) (b : List ℚ) : Bool :=
  (List.range (p + 1)).all (fun j => match (stability rows b)[j]? with
    | some c => decide (|c * (j.factorial : ℚ) - 1| ≤ tol)
    | none => false)

def nodesInB (rows : Tableau ℚ) : Bool := (nodes rows).all (fun c => decide (0 ≤ c ∧ c ≤ 1))

/-- Everything needed of one method: `e` result rows, the row `b` has order `p`. -/
def goodB (tab : Tableau ℚ) (e : ℕ) (b : List ℚ) (p : ℕ) : Bool :=
  let rows := tab.take (tab.length - e)
  momentsB (1 / 10 ^ 14) p b (nodes rows) && stabilityB (1 / 10 ^ 14) p rows b && nodesInB rows

section cast
variable {K : Type} [Field K] [LinearOrder K] [IsStrictOrderedRing K]

def castL (l : List ℚ) : List K := l.map (fun q : ℚ => (q : K))
def castT (tab : Tableau ℚ) : Tableau K := tab.map castL

theorem castT_def (tab : Tableau ℚ) : (castT tab : Tableau K) = tab.map (fun r : List ℚ => r.map (fun q : ℚ => (q : K))) := rfl

theorem sum_castL (l : List ℚ) : (castL l : List K).sum = ((l.sum : ℚ) : K) := by
  induction l with
  | nil => simp [castL]
  | cons a l ih => simp only [castL, List.map_cons, List.sum_cons] at ih ⊢; rw [ih]; push_cast; rfl

theorem isclose_cast (a b : ℚ) : isclose (a : K) (b : K) = isclose a b := by
  unfold isclose
  apply decide_eq_decide.2
  have h : (((|a - b| : ℚ)) : K) ≤ (((1 / 1000000000) * max |a| |b| : ℚ) : K) ↔ _ := Rat.cast_le
  rw [← h, Rat.cast_mul, Rat.cast_max, Rat.cast_abs, Rat.cast_abs, Rat.cast_abs, Rat.cast_sub]
  norm_num

theorem rowsConsistent_cast (n : ℕ) (tab : Tableau ℚ) : rowsConsistent n (castT tab : Tableau K) = rowsConsistent n tab := by
  induction tab generalizing n with
  | nil => rfl
  | cons r rows ih =>
    have h1 : (castL r : List K).length = r.length := by simp [castL]
    have h2 : (castL r : List K).headD 0 = ((r.headD 0 : ℚ) : K) := by cases r <;> simp [castL]
    have h3 : (castL r : List K).tail = castL r.tail := by cases r <;> simp [castL]
    show rowsConsistent n (castL r :: castT rows) = _
    rw [rowsConsistent, rowsConsistent, ih, h1, h2, h3, sum_castL, sum_castL, isclose_cast, ← Rat.cast_one, isclose_cast]

theorem patch_cast (tab : Tableau ℚ) : patch (castT tab : Tableau K) = castT (patch tab) := by
  unfold patch castT castL
  rw [List.map_map, List.map_map]
  apply List.map_congr_left
  intro r _
  simp only [Function.comp, List.map_map]
  apply List.map_congr_left
  intro x _
  simp only [Function.comp, Rat.cast_eq_zero]
  split
  · push_cast; rfl
  · rfl

theorem checkTableau_cast (tab : Tableau ℚ) (h : rowsConsistent 0 tab = true) :
    checkTableau (castT tab : Tableau K) = .ok (castT (patch tab)) := by
  unfold checkTableau
  rw [rowsConsistent_cast, if_pos h, patch_cast]

theorem wsum_cast (b cs : List ℚ) : wsum (castL b : List K) (castL cs : List K) = ((wsum b cs : ℚ) : K) := by
  induction b generalizing cs with
  | nil => simp [wsum, castL]
  | cons w ws ih =>
    cases cs with
    | nil => simp [wsum, castL]
    | cons c cs =>
      have := ih cs
      simp only [castL, List.map_cons] at this ⊢
      rw [wsum_cons, wsum_cons, this]
      push_cast [smul_eq_mul]
      rfl

theorem moment_cast (b cs : List ℚ) (j : ℕ) : moment (castL b : List K) (castL cs) j = ((moment b cs j : ℚ) : K) := by
  unfold moment
  rw [← wsum_cast]
  congr 1
  simp [castL]

theorem nodes_cast (rows : Tableau ℚ) : nodes (castT rows : Tableau K) = castL (nodes rows) := by
  unfold nodes castT castL
  rw [List.map_cons, List.map_map, List.map_map]
  congr 1
  · simp
  · apply List.map_congr_left
    intro r _
    cases r <;> simp

theorem addL_cast (a b : List ℚ) : addL (castL a : List K) (castL b) = castL (addL a b) := by
  induction a generalizing b with
  | nil => cases b <;> simp [castL, addL]
  | cons x a ih =>
    cases b with
    | nil => simp [castL, addL]
    | cons y b =>
      have := ih b
      simp only [castL, List.map_cons, addL] at this ⊢
      rw [this]; push_cast; rfl

theorem lcombL_cast (ws : List ℚ) (ps : List (List ℚ)) :
    lcombL (castL ws : List K) (ps.map castL) = castL (lcombL ws ps) := by
  induction ws generalizing ps with
  | nil => cases ps <;> simp [lcombL, castL]
  | cons w ws ih =>
    cases ps with
    | nil => simp [lcombL, castL]
    | cons p ps =>
      have := ih ps
      have h1 : (castL (w :: ws) : List K) = (w : K) :: castL ws := rfl
      have h2 : (castL p : List K).map ((w : K) * ·) = castL (p.map (w * ·)) := by
        simp [castL, List.map_map, Function.comp_def]
      rw [h1, List.map_cons, lcombL, lcombL, this, h2, addL_cast]

theorem castL_tail (r : List ℚ) : (castL r : List K).tail = castL r.tail := by cases r <;> simp [castL]

theorem stagePolys_cast (rows : Tableau ℚ) (ps : List (List ℚ)) :
    stagePolys (castT rows : Tableau K) (ps.map castL) = (stagePolys rows ps).map castL := by
  induction rows generalizing ps with
  | nil => rfl
  | cons r rows ih =>
    show stagePolys (castL r :: castT rows) _ = _
    rw [stagePolys, stagePolys, ← ih, castL_tail, lcombL_cast, List.map_append]
    congr 2
    simp [castL]

theorem stability_cast (rows : Tableau ℚ) (b : List ℚ) :
    stability (castT rows : Tableau K) (castL b) = castL (stability rows b) := by
  unfold stability
  have : ([[1]] : List (List K)) = ([[1]] : List (List ℚ)).map castL := by simp [castL]
  rw [this, stagePolys_cast, lcombL_cast]
  simp [castL]

theorem explicit_cast (n : ℕ) (rows : Tableau ℚ) (h : explicitB n rows = true) : Explicit n (castT rows : Tableau K) := by
  induction rows generalizing n with
  | nil => exact trivial
  | cons r rows ih =>
    simp only [explicitB, Bool.and_eq_true, decide_eq_true_eq] at h
    exact ⟨by simpa [castL] using h.1, ih _ h.2⟩

theorem shape_cast (e : ℕ) (tab : Tableau ℚ) (h : shapeB e tab = true) : Shape e (castT tab : Tableau K) := by
  simp only [shapeB, Bool.and_eq_true, decide_eq_true_eq] at h
  obtain ⟨⟨⟨h1, h2⟩, h3⟩, h4⟩ := h
  have hl : (castT tab : Tableau K).length = tab.length := by simp [castT]
  constructor
  · rw [hl]
    have : (castT tab : Tableau K).take (tab.length - e) = castT (tab.take (tab.length - e)) := by simp [castT, List.map_take]
    rw [this]; exact explicit_cast 0 _ h1
  · rw [hl]
    intro r hr
    have : (castT tab : Tableau K).drop (tab.length - e) = castT (tab.drop (tab.length - e)) := by simp [castT, List.map_drop]
    rw [this] at hr
    obtain ⟨q, hq, rfl⟩ := List.mem_map.1 hr
    rw [List.all_eq_true] at h2
    simpa [castL] using h2 q hq
  · intro r hr x hx
    obtain ⟨q, hq, rfl⟩ := List.mem_map.1 hr
    obtain ⟨z, hz, rfl⟩ := List.mem_map.1 hx
    rw [List.all_eq_true] at h3
    have := h3 q hq
    rw [List.all_eq_true] at this
    simpa using this z hz
  · rw [hl]; exact h4

end cast

/-! ## Consequences for one method -/

section method
variable {K : Type} [Field K] [LinearOrder K] [IsStrictOrderedRing K]

/-- Accumulated size of the Taylor terms of a polynomial over a step. -/
noncomputable def taylorSize (P : Polynomial K) (t dt : K) : K :=
  ∑ j ∈ Finset.range P.natDegree, |(Polynomial.taylor t P).coeff (j + 1) * dt ^ (j + 1)|

theorem quadrature_bound (tab : Tableau ℚ) (e : ℕ) (b : List ℚ) (p : ℕ) (h : goodB tab e b p = true) (P : Polynomial K)
    (hP : P.natDegree ≤ p) (t dt : K) :
    |dt * wsum (castL b : List K) ((nodes (castT (tab.take (tab.length - e)))).map
        (fun c => (Polynomial.derivative P).eval (t + dt * c))) - (P.eval (t + dt) - P.eval t)|
      ≤ (1 / 10 ^ 14) * taylorSize P t dt := by
  simp only [goodB, Bool.and_eq_true] at h
  have hm := h.1.1
  unfold momentsB at hm
  rw [List.all_eq_true] at hm
  rw [quadrature_error, taylorSize, Finset.mul_sum]
  refine (Finset.abs_sum_le_sum_abs _ _).trans (Finset.sum_le_sum ?_)
  intro j hj
  have hjp : j < p := lt_of_lt_of_le (Finset.mem_range.1 hj) hP
  have hr := hm j (List.mem_range.2 hjp)
  rw [decide_eq_true_eq] at hr
  have hpos : (0 : K) < (j : K) + 1 := by positivity
  rw [nodes_cast, moment_cast]
  set μ := moment b (nodes (tab.take (tab.length - e))) j
  have hK : |((μ : ℚ) : K) * ((j : K) + 1) - 1| ≤ 1 / 10 ^ 14 := by
    have : ((|μ * ((j : ℚ) + 1) - 1| : ℚ) : K) ≤ ((1 / 10 ^ 14 : ℚ) : K) := by exact_mod_cast hr
    rw [Rat.cast_abs] at this
    push_cast at this
    exact this
  have e1 : (Polynomial.taylor t P).coeff (j + 1) * ((j : K) + 1) * dt ^ (j + 1) * ((μ : K) - 1 / ((j : K) + 1))
      = ((Polynomial.taylor t P).coeff (j + 1) * dt ^ (j + 1)) * ((μ : K) * ((j : K) + 1) - 1) := by
    field_simp
  rw [e1, abs_mul, mul_comm]
  exact mul_le_mul_of_nonneg_right hK (abs_nonneg _)

theorem stability_bound (tab : Tableau ℚ) (e : ℕ) (b : List ℚ) (p : ℕ) (h : goodB tab e b p = true) :
    ∀ j ≤ p, ∃ c, (stability (castT (tab.take (tab.length - e)) : Tableau K) (castL b))[j]? = some c ∧
      |c * (j.factorial : K) - 1| ≤ 1 / 10 ^ 14 := by
  simp only [goodB, Bool.and_eq_true] at h
  have hs := h.1.2
  unfold stabilityB at hs
  rw [List.all_eq_true] at hs
  intro j hj
  have := hs j (List.mem_range.2 (by omega))
  rw [stability_cast]
  cases hc : (stability (tab.take (tab.length - e)) b)[j]? with
  | none => rw [hc] at this; cases this
  | some c =>
    rw [hc] at this
    simp only [decide_eq_true_eq] at this
    refine ⟨(c : K), by simp [castL, hc], ?_⟩
    have h2 : ((|c * (j.factorial : ℚ) - 1| : ℚ) : K) ≤ ((1 / 10 ^ 14 : ℚ) : K) := by exact_mod_cast this
    rw [Rat.cast_abs] at h2
    push_cast at h2
    exact h2

theorem evals_inside {S : Type} [AddCommGroup S] [Module K S] (tab : Tableau ℚ) (e : ℕ) (b : List ℚ) (p : ℕ)
    (h : goodB tab e b p = true) (t : K) (y : S) (dt : K) (hdt : 0 ≤ dt) (ks : List S) :
    ∀ ev ∈ (t, y) :: newEvals t y dt (castT (tab.take (tab.length - e))) ks, t ≤ ev.1 ∧ ev.1 ≤ t + dt := by
  simp only [goodB, Bool.and_eq_true] at h
  have hn := h.2
  unfold nodesInB at hn
  rw [List.all_eq_true] at hn
  intro ev hev
  rcases List.mem_cons.1 hev with rfl | hev
  · exact ⟨le_refl _, by linarith⟩
  · obtain ⟨r, hr, rfl⟩ := List.mem_map.1 hev
    obtain ⟨q, hq, rfl⟩ := List.mem_map.1 hr
    have := hn (q.headD 0) (by
      unfold nodes; exact List.mem_cons_of_mem _ (List.mem_map.2 ⟨q, hq, rfl⟩))
    rw [decide_eq_true_eq] at this
    have e1 : (castL q : List K).headD 0 = ((q.headD 0 : ℚ) : K) := by cases q <;> simp [castL]
    dsimp only
    rw [e1]
    have h0 : (0 : K) ≤ ((q.headD 0 : ℚ) : K) := by exact_mod_cast this.1
    have h1 : ((q.headD 0 : ℚ) : K) ≤ 1 := by exact_mod_cast this.2
    constructor
    · have := mul_nonneg hdt h0; linarith
    · have := mul_le_mul_of_nonneg_left h1 hdt; linarith

end method

/-! ## The built-in methods -/

/-- The fixed-step methods and their orders. -/
def classicalMethods : List (String × ℕ) := [("Euler", 1), ("RK2Midpoint", 2), ("RK2Heun", 2), ("RK4", 4), ("RK4_3/8", 4)]

/-- The adaptive methods and the orders of the result and of the comparison result. -/
def adaptiveMethods : List (String × ℕ × ℕ) :=
  [("RK12Adaptive", 2, 1), ("RK23Adaptive", 3, 2), ("RK45Adaptive", 5, 4), ("RK78Adaptive", 8, 7)]

set_option maxRecDepth 100000 in
theorem classical_good : ∀ mp ∈ classicalMethods, mp.1 = "Euler" ∨ ∃ tab, classicalTableau mp.1 = .ok (some tab) ∧
    rowsConsistent 0 tab = true ∧ shapeB 1 (patch tab) = true ∧ goodB (patch tab) 1 ((patch tab).getLast?.getD []) mp.2 = true := by
  intro mp h
  simp only [classicalMethods, List.mem_cons, List.not_mem_nil, or_false] at h
  rcases h with rfl | rfl | rfl | rfl | rfl
  · exact .inl rfl
  · exact .inr ⟨tabRK2Midpoint, by simp [classicalTableau], by decide +kernel, by decide +kernel, by decide +kernel⟩
  · exact .inr ⟨tabRK2Heun, by simp [classicalTableau], by decide +kernel, by decide +kernel, by decide +kernel⟩
  · exact .inr ⟨tabRK4, by simp [classicalTableau], by decide +kernel, by decide +kernel, by decide +kernel⟩
  · exact .inr ⟨tabRK438, by simp [classicalTableau], by decide +kernel, by decide +kernel, by decide +kernel⟩

set_option maxRecDepth 100000 in
theorem adaptive_good : ∀ mp ∈ adaptiveMethods, ∃ tab fsal, adaptiveTableau mp.1 = .ok (tab, fsal) ∧
    rowsConsistent 0 tab = true ∧ shapeB 2 (patch tab) = true ∧
    goodB (patch tab) 2 ((patch tab).dropLast.getLast?.getD []) mp.2.1 = true ∧
    goodB (patch tab) 2 ((patch tab).getLast?.getD []) mp.2.2 = true := by
  intro mp h
  simp only [adaptiveMethods, List.mem_cons, List.not_mem_nil, or_false] at h
  rcases h with rfl | rfl | rfl | rfl
  · exact ⟨tabRK12, false, by simp [adaptiveTableau], by decide +kernel, by decide +kernel, by decide +kernel, by decide +kernel⟩
  · exact ⟨tabRK23, true, by simp [adaptiveTableau], by decide +kernel, by decide +kernel, by decide +kernel, by decide +kernel⟩
  · exact ⟨tabRK45, true, by simp [adaptiveTableau], by decide +kernel, by decide +kernel, by decide +kernel, by decide +kernel⟩
  · exact ⟨tabRK78, false, by simp [adaptiveTableau], by decide +kernel, by decide +kernel, by decide +kernel, by decide +kernel⟩

section final
variable {K S : Type} [Field K] [LinearOrder K] [IsStrictOrderedRing K] [AddCommGroup S] [Module K S]

theorem castT_take (tab : Tableau ℚ) (n : ℕ) : (castT tab : Tableau K).take n = castT (tab.take n) := by
  simp [castT, List.map_take]

theorem castT_length (tab : Tableau ℚ) : (castT tab : Tableau K).length = tab.length := by simp [castT]

theorem castT_getLast (tab : Tableau ℚ) (b : List K) (h : (castT tab : Tableau K).getLast? = some b) :
    b = castL (tab.getLast?.getD []) := by
  unfold castT at h
  rw [List.getLast?_map] at h
  cases hl : tab.getLast? with
  | none => rw [hl] at h; cases h
  | some r => rw [hl] at h; simp at h; rw [← h]; rfl

theorem castT_dropLast (tab : Tableau ℚ) : (castT tab : Tableau K).dropLast = castT tab.dropLast := by
  unfold castT; rw [List.map_dropLast]

/-- What running a fixed-step method means, for all methods with a tableau. -/
theorem classical_runs (m : String) (tab : Tableau ℚ) (hm : classicalTableau m = .ok (some tab))
    (hc : rowsConsistent 0 tab = true) (hs : shapeB 1 (patch tab) = true) (f : K → S → S) (t : K) (y : S) (dt : K) (hdt : dt ≠ 0) :
    ∃ r ks, classicalStep m f t y dt = .ok r ∧
      IsStages (castT ((patch tab).take ((patch tab).length - 1)) : Tableau K) f t y dt (f t y) ks ∧
      r.newValue = y + dt • wsum (castL ((patch tab).getLast?.getD []) : List K) ks ∧
      r.evals = (t, y) :: newEvals t y dt (castT ((patch tab).take ((patch tab).length - 1)) : Tableau K) ks := by
  have hshape : Shape 1 (castT (patch tab) : Tableau K) := shape_cast 1 (patch tab) hs
  obtain ⟨r, ks, b, h1, h2, h3, h4, _, h6⟩ := rkStep_spec (castT (patch tab) : Tableau K) hshape f t y dt hdt
  rw [castT_dropLast, List.dropLast_eq_take] at h3 h6
  refine ⟨r, ks, ?_, h3, ?_, h6⟩
  · unfold classicalStep
    rw [hm]
    dsimp only
    rw [← castT_def, checkTableau_cast tab hc]
    exact h1
  · rw [h4, castT_getLast _ _ h2]

/-- **C20.** Every fixed-step method integrates polynomial-in-time right-hand sides up to its order: the result differs
from the exact integral by at most `1e-14` of the Taylor terms (zero coefficients are replaced by `1e-16` in the code), for
every start, every step and every polynomial. -/
theorem classical_order (mp : String × ℕ) (hmp : mp ∈ classicalMethods) (P : Polynomial K) (hP : P.natDegree ≤ mp.2)
    (t y dt : K) (hdt : dt ≠ 0) :
    ∃ r, classicalStep mp.1 (fun t _ => (Polynomial.derivative P).eval t) t y dt = .ok r ∧
      |r.newValue - (y + (P.eval (t + dt) - P.eval t))| ≤ (1 / 10 ^ 14) * taylorSize P t dt := by
  rcases classical_good mp hmp with heq | ⟨tab, hm, hc, hs, hg⟩
  · refine ⟨_, by unfold classicalStep; rw [heq]; simp [classicalTableau]; rfl, ?_⟩
    have hp1 : mp.2 = 1 := by
      simp only [classicalMethods, List.mem_cons, List.not_mem_nil, or_false] at hmp
      rcases hmp with rfl | rfl | rfl | rfl | rfl <;> simp_all
    have hq := quadrature_error [1] [0] P t dt
    have hz : (∑ j ∈ Finset.range P.natDegree, (Polynomial.taylor t P).coeff (j + 1) * ((j : K) + 1) * dt ^ (j + 1) *
        (moment [1] [0] j - 1 / ((j : K) + 1))) = 0 := by
      apply Finset.sum_eq_zero
      intro j hj
      have : j = 0 := by have := Finset.mem_range.1 hj; omega
      subst this
      simp [moment, wsum]
    rw [hz] at hq
    have : (eulerStep (fun t _ => (Polynomial.derivative P).eval t) t y dt).newValue - (y + (P.eval (t + dt) - P.eval t)) = 0 := by
      unfold eulerStep
      simp [wsum] at hq ⊢
      linarith
    rw [this, abs_zero]
    exact mul_nonneg (by positivity) (Finset.sum_nonneg (fun _ _ => abs_nonneg _))
  · obtain ⟨r, ks, h1, h2, h3, _⟩ := classical_runs mp.1 tab hm hc hs (fun t _ => (Polynomial.derivative P).eval t) t y dt hdt
    refine ⟨r, h1, ?_⟩
    have hk := isStages_time h2
    rw [h3, hk]
    have := quadrature_bound (K := K) (patch tab) 1 _ mp.2 hg P hP t dt
    rw [smul_eq_mul]
    convert this using 2
    ring

/-- **C20.** For every linear equation `y' = L y` (any dimension) a fixed step multiplies the state by a polynomial in
`dt L` whose coefficients up to the method's order are those of the exponential series. -/
theorem classical_linear (mp : String × ℕ) (hmp : mp ∈ classicalMethods) (L : S →ₗ[K] S) (t : K) (y : S) (dt : K) (hdt : dt ≠ 0) :
    ∃ r cs, classicalStep mp.1 (fun _ v => L v) t y dt = .ok r ∧ r.newValue = evalPoly (dt • L) y cs ∧
      ∀ j ≤ mp.2, ∃ c, cs[j]? = some c ∧ |c * (j.factorial : K) - 1| ≤ 1 / 10 ^ 14 := by
  rcases classical_good mp hmp with heq | ⟨tab, hm, hc, hs, hg⟩
  · have hp1 : mp.2 = 1 := by
      simp only [classicalMethods, List.mem_cons, List.not_mem_nil, or_false] at hmp
      rcases hmp with rfl | rfl | rfl | rfl | rfl <;> simp_all
    refine ⟨_, [1, 1], by unfold classicalStep; rw [heq]; simp [classicalTableau]; rfl, ?_, ?_⟩
    · simp [eulerStep, evalPoly]
    · intro j hj
      rw [hp1] at hj
      interval_cases j
      · exact ⟨1, rfl, by simp⟩
      · exact ⟨1, rfl, by simp⟩
  · obtain ⟨r, ks, h1, h2, h3, _⟩ := classical_runs mp.1 tab hm hc hs (fun _ v => L v) t y dt hdt
    have hex : Explicit 0 (castT ((patch tab).take ((patch tab).length - 1)) : Tableau K) := by
      have := (shape_cast (K := K) 1 (patch tab) hs).explicit
      rwa [castT_length, castT_take] at this
    refine ⟨r, _, h1, ?_, stability_bound (patch tab) 1 _ mp.2 hg⟩
    rw [h3]
    exact step_linear L t y dt _ hex _ ks h2

/-- **C20.** The right-hand side is evaluated only at times inside the step. -/
theorem classical_times (mp : String × ℕ) (hmp : mp ∈ classicalMethods) (f : K → S → S) (t : K) (y : S) (dt : K) (hdt : 0 < dt) :
    ∃ r, classicalStep mp.1 f t y dt = .ok r ∧ ∀ ev ∈ r.evals, t ≤ ev.1 ∧ ev.1 ≤ t + dt := by
  rcases classical_good mp hmp with heq | ⟨tab, hm, hc, hs, hg⟩
  · refine ⟨_, by unfold classicalStep; rw [heq]; simp [classicalTableau]; rfl, ?_⟩
    intro ev hev
    simp [eulerStep] at hev
    subst hev
    exact ⟨le_refl _, by dsimp only; linarith⟩
  · obtain ⟨r, ks, h1, _, _, h4⟩ := classical_runs mp.1 tab hm hc hs f t y dt hdt.ne'
    refine ⟨r, h1, ?_⟩
    rw [h4]
    exact evals_inside (patch tab) 1 _ mp.2 hg t y dt hdt.le ks

/-- Tableau an adaptive integrator works with. -/
def adaptiveWorking (m : String) : Except PyErr (Tableau K × Bool) :=
  match adaptiveTableau m with
  | .error e => .error e
  | .ok (tab, fsal) => match checkTableau (castT tab : Tableau K) with
    | .error e => .error e
    | .ok tab' => .ok (tab', fsal)

theorem adaptive_runs (mag : S → K) (tab : Tableau ℚ) (hs : shapeB 2 (patch tab) = true) (cache : Option S) (f : K → S → S)
    (t : K) (y : S) (dt : K) :
    ∃ a ks, attempt mag (castT (patch tab) : Tableau K) cache f t y dt = .ok a ∧
      IsStages (castT ((patch tab).take ((patch tab).length - 2)) : Tableau K) f t y dt (cache.getD (f t y)) ks ∧
      a.newValue = y + dt • wsum (castL ((patch tab).dropLast.getLast?.getD []) : List K) ks ∧
      a.error = mag (dt • wsum (castL ((patch tab).dropLast.getLast?.getD []) : List K) ks - dt • wsum (castL ((patch tab).getLast?.getD []) : List K) ks) ∧
      ks.getLast? = some a.last ∧
      a.evals = (if cache.isSome then [] else [(t, y)]) ++
        newEvals t y dt (castT ((patch tab).take ((patch tab).length - 2)) : Tableau K) ks := by
  have hshape : Shape 2 (castT (patch tab) : Tableau K) := shape_cast 2 (patch tab) hs
  obtain ⟨a, ks, b, bc, h1, h2, h3, h4, h5, _, h7, h8, h9⟩ := attempt_spec mag (castT (patch tab) : Tableau K) hshape cache f t y dt
  rw [dropLast_dropLast, castT_length, castT_take] at h4 h9
  rw [castT_dropLast] at h2
  refine ⟨a, ks, h1, h4, ?_, ?_, h8, h9⟩
  · rw [h5, castT_getLast _ _ h2]
  · rw [h7, castT_getLast _ _ h2, castT_getLast _ _ h3]

/-- **C20.** Every adaptive method: both results integrate polynomial-in-time right-hand sides up to their orders, are
polynomials in `dt L` agreeing with the exponential series up to their orders for linear right-hand sides, the returned
result is the one of higher order, and evaluations lie inside the step. -/
theorem adaptive_order (mp : String × ℕ × ℕ) (hmp : mp ∈ adaptiveMethods) :
    ∃ tab : Tableau K, ∃ fsal, adaptiveWorking mp.1 = .ok (tab, fsal) ∧
      (∀ (P : Polynomial K) (t y dt : K) (mag : K → K), ∃ a coarse, attempt mag tab none (fun t _ => (Polynomial.derivative P).eval t) t y dt = .ok a ∧
        a.error = mag (a.newValue - coarse) ∧
        (P.natDegree ≤ mp.2.1 → |a.newValue - (y + (P.eval (t + dt) - P.eval t))| ≤ (1 / 10 ^ 14) * taylorSize P t dt) ∧
        (P.natDegree ≤ mp.2.2 → |coarse - (y + (P.eval (t + dt) - P.eval t))| ≤ (1 / 10 ^ 14) * taylorSize P t dt)) ∧
      (∀ (L : S →ₗ[K] S) (t : K) (y : S) (dt : K) (mag : S → K), ∃ a coarse cs cs', attempt mag tab none (fun _ v => L v) t y dt = .ok a ∧
        a.error = mag (a.newValue - coarse) ∧ a.newValue = evalPoly (dt • L) y cs ∧ coarse = evalPoly (dt • L) y cs' ∧
        (∀ j ≤ mp.2.1, ∃ c, cs[j]? = some c ∧ |c * (j.factorial : K) - 1| ≤ 1 / 10 ^ 14) ∧
        (∀ j ≤ mp.2.2, ∃ c, cs'[j]? = some c ∧ |c * (j.factorial : K) - 1| ≤ 1 / 10 ^ 14)) ∧
      (∀ (f : K → S → S) (t : K) (y : S) (dt : K) (mag : S → K) (cache : Option S), 0 ≤ dt →
        ∃ a, attempt mag tab cache f t y dt = .ok a ∧ ∀ ev ∈ a.evals, t ≤ ev.1 ∧ ev.1 ≤ t + dt) := by
  obtain ⟨tab, fsal, hm, hc, hs, hg1, hg2⟩ := adaptive_good mp hmp
  refine ⟨castT (patch tab), fsal, ?_, ?_, ?_, ?_⟩
  · unfold adaptiveWorking; rw [hm]; dsimp only; rw [checkTableau_cast tab hc]
  · intro P t y dt mag
    obtain ⟨a, ks, h1, h2, h3, h4, _, _⟩ := adaptive_runs mag tab hs none (fun t _ => (Polynomial.derivative P).eval t) t y dt
    have hk := isStages_time h2
    refine ⟨a, y + dt • wsum (castL ((patch tab).getLast?.getD []) : List K) ks, h1, ?_, ?_, ?_⟩
    · rw [h4, h3]; congr 1; ring
    · intro hP
      have := quadrature_bound (K := K) (patch tab) 2 _ mp.2.1 hg1 P hP t dt
      rw [h3, hk, smul_eq_mul]
      convert this using 2
      ring
    · intro hP
      have := quadrature_bound (K := K) (patch tab) 2 _ mp.2.2 hg2 P hP t dt
      rw [hk, smul_eq_mul]
      convert this using 2
      ring
  · intro L t y dt mag
    obtain ⟨a, ks, h1, h2, h3, h4, _, _⟩ := adaptive_runs mag tab hs none (fun _ v => L v) t y dt
    have hex : Explicit 0 (castT ((patch tab).take ((patch tab).length - 2)) : Tableau K) := by
      have := (shape_cast (K := K) 2 (patch tab) hs).explicit
      rwa [castT_length, castT_take] at this
    refine ⟨a, y + dt • wsum (castL ((patch tab).getLast?.getD []) : List K) ks, _, _, h1, ?_, ?_, step_linear L t y dt _ hex _ ks h2,
      stability_bound (patch tab) 2 _ mp.2.1 hg1, stability_bound (patch tab) 2 _ mp.2.2 hg2⟩
    · rw [h4, h3]; congr 1; abel
    · rw [h3]; exact step_linear L t y dt _ hex _ ks h2
  · intro f t y dt mag cache hdt
    obtain ⟨a, ks, h1, _, _, _, _, h6⟩ := adaptive_runs mag tab hs cache f t y dt
    refine ⟨a, h1, ?_⟩
    rw [h6]
    intro ev hev
    apply evals_inside (patch tab) 2 _ mp.2.1 hg1 t y dt hdt ks ev
    rcases List.mem_append.1 hev with h | h
    · split at h
      · cases h
      · rw [List.mem_singleton.1 h]; simp
    · exact List.mem_cons_of_mem _ h

end final

/-! ## All order conditions -/

/-- Rooted trees, built by grafting: `leaf` is the tree with one node, `graft u v` attaches `v` to the root of `u`. -/
inductive RTree
  | leaf
  | graft (u v : RTree)

/-- number of nodes -/
def RTree.order : RTree → ℕ
  | .leaf => 1
  | .graft u v => u.order + v.order

/-- density `γ`: for each node, the product of the sizes of the subtrees -/
def RTree.density : RTree → ℚ
  | .leaf => 1
  | .graft u v => ((u.order + v.order : ℕ) : ℚ) * (u.density / u.order) * v.density

def dotQ : List ℚ → List ℚ → ℚ
  | a :: as, b :: bs => a * b + dotQ as bs
  | _, _ => 0

/-- internal weights `Φᵢ` of a tree for the coefficients `A` -/
def RTree.weights (A : List (List ℚ)) : RTree → List ℚ
  | .leaf => A.map (fun _ => 1)
  | .graft u v => List.zipWith (fun x r => x * dotQ r (v.weights A)) (u.weights A) A

/-- relative residual of the order condition `∑ bᵢ Φᵢ = 1/γ` -/
def RTree.residual (A : List (List ℚ)) (b : List ℚ) (T : RTree) : ℚ := |dotQ b (T.weights A) * T.density - 1|

/-- the matrix `a` of a tableau with `e` result rows -/
def aMatrix (e : ℕ) (tab : Tableau ℚ) : List (List ℚ) := [] :: (tab.take (tab.length - e)).map List.tail

/-- all trees with at most `n` nodes -/
def treesUpTo : ℕ → List RTree
  | 0 => []
  | n + 1 => .leaf :: (treesUpTo n).flatMap (fun u =>
      ((treesUpTo n).filter (fun v => decide (u.order + v.order ≤ n + 1))).map (fun v => .graft u v))

theorem order_pos (T : RTree) : 0 < T.order := by
  induction T with
  | leaf => exact Nat.one_pos
  | graft u v hu _ => exact Nat.add_pos_left hu _

theorem mem_treesUpTo (n : ℕ) (T : RTree) (h : T.order ≤ n) : T ∈ treesUpTo n := by
  induction n generalizing T with
  | zero => exact absurd h (by have := order_pos T; omega)
  | succ n ih =>
    cases T with
    | leaf => simp [treesUpTo]
    | graft u v =>
      have hu := order_pos u
      have hv := order_pos v
      have h' : u.order + v.order ≤ n + 1 := h
      rw [treesUpTo]
      refine List.mem_cons_of_mem _ (List.mem_flatMap.2 ⟨u, ih u (by omega), List.mem_map.2 ⟨v, ?_, rfl⟩⟩)
      rw [List.mem_filter]
      exact ⟨ih v (by omega), by simpa using h'⟩

def conditionsB (e : ℕ) (tab : Tableau ℚ) (b : List ℚ) (p : ℕ) : Bool :=
  (treesUpTo p).all (fun T => decide (T.residual (aMatrix e tab) b ≤ 1 / 10 ^ 14))

theorem conditions_of_B (e : ℕ) (tab : Tableau ℚ) (b : List ℚ) (p : ℕ) (h : conditionsB e tab b p = true) (T : RTree)
    (hT : T.order ≤ p) : T.residual (aMatrix e tab) b ≤ 1 / 10 ^ 14 := by
  unfold conditionsB at h
  rw [List.all_eq_true] at h
  simpa using h T (mem_treesUpTo p T hT)

set_option maxRecDepth 100000 in
/-- **C20.** The tableaus in use satisfy the Runge-Kutta order conditions of every rooted tree with up to `p` nodes
(`p` the advertised order, for both results of the adaptive methods) to within `1e-14`. -/
theorem order_conditions (T : RTree) :
    (∀ mp ∈ classicalMethods, T.order ≤ mp.2 → mp.1 = "Euler" ∨ ∃ tab, classicalTableau mp.1 = .ok (some tab) ∧
      T.residual (aMatrix 1 (patch tab)) ((patch tab).getLast?.getD []) ≤ 1 / 10 ^ 14) ∧
    (∀ mp ∈ adaptiveMethods, ∃ tab fsal, adaptiveTableau mp.1 = .ok (tab, fsal) ∧
      (T.order ≤ mp.2.1 → T.residual (aMatrix 2 (patch tab)) ((patch tab).dropLast.getLast?.getD []) ≤ 1 / 10 ^ 14) ∧
      (T.order ≤ mp.2.2 → T.residual (aMatrix 2 (patch tab)) ((patch tab).getLast?.getD []) ≤ 1 / 10 ^ 14)) := by
  constructor
  · intro mp h hT
    simp only [classicalMethods, List.mem_cons, List.not_mem_nil, or_false] at h
    rcases h with rfl | rfl | rfl | rfl | rfl
    · exact .inl rfl
    · exact .inr ⟨tabRK2Midpoint, by simp [classicalTableau], conditions_of_B 1 _ _ 2 (by decide +kernel) T hT⟩
    · exact .inr ⟨tabRK2Heun, by simp [classicalTableau], conditions_of_B 1 _ _ 2 (by decide +kernel) T hT⟩
    · exact .inr ⟨tabRK4, by simp [classicalTableau], conditions_of_B 1 _ _ 4 (by decide +kernel) T hT⟩
    · exact .inr ⟨tabRK438, by simp [classicalTableau], conditions_of_B 1 _ _ 4 (by decide +kernel) T hT⟩
  · intro mp h
    simp only [adaptiveMethods, List.mem_cons, List.not_mem_nil, or_false] at h
    rcases h with rfl | rfl | rfl | rfl
    · exact ⟨tabRK12, false, by simp [adaptiveTableau], conditions_of_B 2 _ _ 2 (by decide +kernel) T, conditions_of_B 2 _ _ 1 (by decide +kernel) T⟩
    · exact ⟨tabRK23, true, by simp [adaptiveTableau], conditions_of_B 2 _ _ 3 (by decide +kernel) T, conditions_of_B 2 _ _ 2 (by decide +kernel) T⟩
    · exact ⟨tabRK45, true, by simp [adaptiveTableau], conditions_of_B 2 _ _ 5 (by decide +kernel) T, conditions_of_B 2 _ _ 4 (by decide +kernel) T⟩
    · exact ⟨tabRK78, false, by simp [adaptiveTableau], conditions_of_B 2 _ _ 8 (by decide +kernel) T, conditions_of_B 2 _ _ 7 (by decide +kernel) T⟩

/-! ## C60: reuse of the last derivative -/

section fsal
variable {K S : Type} [Field K] [LinearOrder K] [IsStrictOrderedRing K] [AddCommGroup S] [Module K S]

/-- The last stage row of a tableau that reuses its last derivative is at the end of the step and equals the result row up
to its last coefficient `ε`. -/
def fsalB (tab : Tableau ℚ) (ε : ℚ) : Bool :=
  match tab.dropLast.dropLast.getLast?, tab.dropLast.getLast? with
  | some (c :: as), some b => decide (c = 1) && decide (b = as ++ [ε])
  | _, _ => false

theorem wsum_append (ws vs : List K) (ks js : List S) (h : ws.length = ks.length) :
    wsum (ws ++ vs) (ks ++ js) = wsum ws ks + wsum vs js := by
  induction ws generalizing ks with
  | nil => cases ks with
    | nil => simp [wsum]
    | cons _ _ => simp at h
  | cons w ws ih => cases ks with
    | nil => simp at h
    | cons k ks => rw [List.cons_append, List.cons_append, wsum_cons, wsum_cons, ih ks (by simpa using h), add_assoc]

theorem fsal_last (mag : S → K) (tab : Tableau ℚ) (ε : ℚ) (hs : shapeB 2 (patch tab) = true) (hf : fsalB (patch tab) ε = true)
    (cache : Option S) (f : K → S → S) (t : K) (y : S) (dt : K) :
    ∃ a, attempt mag (castT (patch tab)) cache f t y dt = .ok a ∧
      a.last = f (t + dt) (a.newValue - (dt * (ε : K)) • a.last) := by
  obtain ⟨a, ks, h1, h2, h3, _, h5, _⟩ := adaptive_runs (K := K) mag tab hs cache f t y dt
  refine ⟨a, h1, ?_⟩
  set T := patch tab with hT
  unfold fsalB at hf
  cases hr : T.dropLast.dropLast.getLast? with
  | none => rw [hr] at hf; cases hf
  | some r =>
    cases r with
    | nil => rw [hr] at hf; cases hf
    | cons c as =>
      cases hb : T.dropLast.getLast? with
      | none => rw [hr, hb] at hf; cases hf
      | some b =>
        rw [hr, hb] at hf
        simp only [Bool.and_eq_true, decide_eq_true_eq] at hf
        obtain ⟨rfl, rfl⟩ := hf
        rw [← dropLast_dropLast] at h2
        have hne : T.dropLast.dropLast ≠ [] := by intro h; rw [h] at hr; cases hr
        have hsplit : T.dropLast.dropLast = T.dropLast.dropLast.dropLast ++ [1 :: as] := by
          rw [List.getLast?_eq_some_getLast hne] at hr
          injection hr with hr
          rw [← hr]; exact (List.dropLast_append_getLast hne).symm
        -- the last stage
        have hks : ks = ks.dropLast ++ [a.last] := by
          have hne2 : ks ≠ [] := by rw [h2]; simp
          rw [List.getLast?_eq_some_getLast hne2] at h5
          injection h5 with h5
          rw [← h5]; exact (List.dropLast_append_getLast hne2).symm
        have hlast : a.last = f (t + dt * 1) (y + dt • wsum (castL as : List K) ks) := by
          have h2' := h2
          unfold IsStages at h2'
          rw [hsplit] at h2'
          unfold castT at h2'
          rw [List.map_append, List.map_append, ← List.cons_append] at h2'
          have := congrArg List.getLast? h2'
          rw [h5] at this
          simp only [List.map_cons, List.map_nil, List.getLast?_concat, Option.some.injEq, castL, List.headD_cons,
            List.tail_cons, Rat.cast_one] at this
          exact this
        have hbl : (as ++ [ε]).length = T.length - 2 + 1 := by
          have hsh := (shape_cast (K := K) 2 T hs).result
          have := hsh (castL (as ++ [ε])) (by
            have hh : T.dropLast = T.dropLast.dropLast ++ [as ++ [ε]] := by
              have hne3 : T.dropLast ≠ [] := by intro h; rw [h] at hb; cases hb
              rw [List.getLast?_eq_some_getLast hne3] at hb
              injection hb with hb
              rw [← hb]; exact (List.dropLast_append_getLast hne3).symm
            have hne4 : T ≠ [] := by intro h; rw [h] at hb; cases hb
            have hl : T = T.dropLast ++ [T.getLast hne4] := (List.dropLast_append_getLast hne4).symm
            rw [castT_length]
            unfold castT
            rw [← List.map_drop]
            apply List.mem_map_of_mem
            have hlen : T.dropLast.dropLast.length = T.length - 2 := by simp; omega
            rw [← hlen]
            nth_rewrite 2 [hl]
            rw [hh, List.append_assoc]
            simp)
          rw [castT_length] at this
          simpa [castL] using this
        have hkl : ks.length = T.length - 2 + 1 := by
          rw [h2]; simp [castT]; omega
        have hal : as.length = ks.dropLast.length := by
          simp at hbl ⊢; omega
        have hwa : wsum (castL as : List K) ks = wsum (castL as : List K) ks.dropLast := by
          nth_rewrite 1 [hks]
          rw [wsum_append_right _ _ _ (by simp only [castL, List.length_map]; exact hal.le)]
        have hnew : a.newValue - (dt * (ε : K)) • a.last = y + dt • wsum (castL as : List K) ks := by
          rw [h3, hb, Option.getD_some, hwa]
          have : wsum (castL (as ++ [ε]) : List K) ks = wsum (castL as : List K) ks.dropLast + (ε : K) • a.last := by
            nth_rewrite 1 [hks]
            have : (castL (as ++ [ε]) : List K) = castL as ++ [(ε : K)] := by simp [castL]
            rw [this, wsum_append _ _ _ _ (by simpa [castL] using hal)]
            simp [wsum]
          rw [this, smul_add, smul_smul]
          abel
        rw [hnew]
        nth_rewrite 1 [hlast]
        rw [mul_one]

set_option maxRecDepth 100000 in
/-- **C60, part that holds.** For both methods that reuse derivatives (RK23, RK45), whatever the cache was, the derivative
kept from a step is the right-hand side at the end time of that step and at the returned state moved by `1e-16 dt` times
itself (the replaced zero coefficient): continuing from exactly there with the same right-hand side reuses a correct value.
Missing: the tiny shift, and any change of state or right-hand side between steps (see `fsal_stale_violated`). -/
theorem fsal_partial (mag : S → K) (cache : Option S) (f : K → S → S) (t : K) (y : S) (dt : K) :
    ∀ m tab, adaptiveTableau m = .ok (tab, true) →
      ∃ a, attempt mag (castT (patch tab)) cache f t y dt = .ok a ∧
        a.last = f (t + dt) (a.newValue - (dt * (((1 / 10 ^ 16 : ℚ) : ℚ) : K)) • a.last) ∧
        newCache true cache a = some a.last := by
  intro m tab hm
  have : tab = tabRK23 ∨ tab = tabRK45 := by
    unfold adaptiveTableau at hm
    split at hm
    · simp at hm
    · split at hm
      · injection hm with hm; injection hm with h1 _; exact .inl h1.symm
      · split at hm
        · injection hm with hm; injection hm with h1 _; exact .inr h1.symm
        · split at hm
          · simp at hm
          · cases hm
  rcases this with rfl | rfl
  · obtain ⟨a, h1, h2⟩ := fsal_last mag tabRK23 (1 / 10 ^ 16) (by decide +kernel) (by decide +kernel) cache f t y dt
    exact ⟨a, h1, h2, rfl⟩
  · obtain ⟨a, h1, h2⟩ := fsal_last mag tabRK45 (1 / 10 ^ 16) (by decide +kernel) (by decide +kernel) cache f t y dt
    exact ⟨a, h1, h2, rfl⟩

/-- The reused derivative replaces the first stage whatever the present state and right-hand side are. -/
theorem cache_used (mag : S → K) (tab : Tableau ℚ) (hs : shapeB 2 (patch tab) = true) (k : S) (f : K → S → S) (t : K) (y : S) (dt : K) :
    ∃ a ks, attempt mag (castT (patch tab) : Tableau K) (some k) f t y dt = .ok a ∧
      IsStages (castT ((patch tab).take ((patch tab).length - 2)) : Tableau K) f t y dt k ks ∧
      a.newValue = y + dt • wsum (castL ((patch tab).dropLast.getLast?.getD []) : List K) ks := by
  obtain ⟨a, ks, h1, h2, h3, _⟩ := adaptive_runs (K := K) mag tab hs (some k) f t y dt
  exact ⟨a, ks, h1, h2, h3⟩

end fsal

/-- new value of an attempt, if it succeeds -/
def Attempt.value? {K S : Type} : Except PyErr (Attempt K S) → Option S
  | .ok a => some a.newValue
  | .error _ => none

set_option maxRecDepth 100000 in
/-- **C60 violated.** `y' = y` with RK23: after a step from 1 the state is set to 0 (as an event between steps may do). The
next step should stay at 0 but moves, because the old derivative is reused; without reuse it stays at 0. -/
theorem fsal_stale_violated :
    ∃ a, attempt (fun x : ℚ => |x|) (patch tabRK23) none (fun _ y => y) 0 1 1 = .ok a ∧
      Attempt.value? (attempt (fun x : ℚ => |x|) (patch tabRK23) (newCache true none a) (fun _ y => y) 1 0 1) ≠ some 0 ∧
      Attempt.value? (attempt (fun x : ℚ => |x|) (patch tabRK23) none (fun _ y => y) 1 0 1) = some 0 := by
  have key : (match attempt (fun x : ℚ => |x|) (patch tabRK23) none (fun _ y => y) 0 1 1 with
      | .ok a => decide (Attempt.value? (attempt (fun x : ℚ => |x|) (patch tabRK23) (newCache true none a) (fun _ y => y) 1 0 1) ≠ some 0)
      | .error _ => false) = true := by decide +kernel
  cases h : attempt (fun x : ℚ => |x|) (patch tabRK23) none (fun _ y => y) 0 1 1 with
  | error e => rw [h] at key; cases key
  | ok a =>
    rw [h] at key
    exact ⟨a, rfl, of_decide_eq_true key, by decide +kernel⟩

/-! ## C12: evaluations of a discarded attempt -/

section discard
variable {K S : Type} [Field K] [LinearOrder K] [IsStrictOrderedRing K] [AddCommGroup S] [Module K S]

set_option maxRecDepth 100000 in
/-- **C12.** Number of right-hand-side evaluations of an attempt: the number of rows the simulator removes for a discarded
attempt is right exactly when no derivative was reused. -/
theorem discard_count (mag : S → K) (cache : Option S) (f : K → S → S) (t : K) (y : S) (dt : K) (level : ℕ) (hl : 2 ≤ level) :
    ∀ m tab fsal, adaptiveTableau m = .ok (tab, fsal) →
      ∃ a, attempt mag (castT (patch tab)) cache f t y dt = .ok a ∧
        (cache = none → discardRows level m tab = a.evals.length) ∧
        (cache ≠ none → discardRows level m tab = a.evals.length + 1) := by
  intro m tab fsal hm
  have hsh : shapeB 2 (patch tab) = true ∧ discardRows level m tab = tab.length - 1 ∧ 2 ≤ tab.length := by
    unfold adaptiveTableau at hm
    split at hm
    · rename_i h
      injection hm with hm; injection hm with h1 _; subst h1
      exact ⟨by decide +kernel, by unfold discardRows; rw [if_pos hl, if_pos h]; rfl, by decide⟩
    · rename_i h0
      have hd : discardRows level m tab = tab.length - 1 := by unfold discardRows; rw [if_pos hl, if_neg h0]
      split at hm
      · injection hm with hm; injection hm with h1 _; subst h1; exact ⟨by decide +kernel, hd, by decide⟩
      · split at hm
        · injection hm with hm; injection hm with h1 _; subst h1; exact ⟨by decide +kernel, hd, by decide⟩
        · split at hm
          · injection hm with hm; injection hm with h1 _; subst h1; exact ⟨by decide +kernel, hd, by decide⟩
          · cases hm
  obtain ⟨hs, hd, hlen⟩ := hsh
  obtain ⟨a, ks, h1, _, _, _, _, h6⟩ := adaptive_runs (K := K) mag tab hs cache f t y dt
  have hpl : (patch tab).length = tab.length := by simp [patch]
  have hel : a.evals.length = (if cache.isSome then 0 else 1) + (tab.length - 2) := by
    rw [h6]
    simp only [List.length_append, newEvals, castT, List.length_map, List.length_take, hpl]
    congr 1
    · split <;> rfl
    · omega
  refine ⟨a, h1, ?_, ?_⟩
  · rintro rfl; rw [hd, hel]; simp; omega
  · intro hc
    cases cache with
    | none => exact absurd rfl hc
    | some k => rw [hd, hel]; simp; omega

/-- **C12 violated.** With RK45, once a first step has been accepted, discarding an attempt removes one row more than the
attempt wrote. -/
theorem discard_reuse_violated (mag : S → K) (k : S) (f : K → S → S) (t : K) (y : S) (dt : K) :
    ∃ a, attempt mag (castT (patch tabRK45)) (some k) f t y dt = .ok a ∧
      discardRows 2 "RK45Adaptive" tabRK45 = a.evals.length + 1 := by
  obtain ⟨a, h1, _, h3⟩ := discard_count mag (some k) f t y dt 2 (le_refl 2) "RK45Adaptive" tabRK45 true (by simp [adaptiveTableau])
  exact ⟨a, h1, h3 (by simp)⟩

theorem run_append' {τ α : Type} [LinearOrder τ] (a b : List (LogM.Op τ α)) (L : LogM.Log τ α) :
    LogM.run (a ++ b) L = match LogM.run a L with
      | .ok L' => LogM.run b L'
      | .error e => .error e := by
  induction a generalizing L with
  | nil => rfl
  | cons o os ih =>
    simp only [List.cons_append, LogM.run]
    cases h : LogM.step L o with
    | ok L' => exact ih L'
    | error e => rfl

set_option maxRecDepth 100000 in
/-- **C12 violated.** RK78 evaluates the right-hand side at decreasing times within a step. A derivative log, which gets a
new row at each evaluation, raises an error in the middle of the first step, whatever was logged before. -/
theorem rk78_log_violated {α : Type} (mag : S → ℚ) [Module ℚ S] (f : ℚ → S → S) (t : ℚ) (y : S) (dt : ℚ) (hdt : 0 < dt)
    (L : LogM.Log ℚ α) :
    ∃ a, attempt mag (patch tabRK78) none f t y dt = .ok a ∧
      ∃ e, LogM.run (a.evals.map (fun ev => LogM.Op.newRow ev.1)) L = .error e := by
  obtain ⟨a, ks, h1, _, _, _, _, h6⟩ := adaptive_runs (K := ℚ) mag tabRK78 (by decide +kernel) none f t y dt
  have hc : (castT (patch tabRK78) : Tableau ℚ) = patch tabRK78 := by decide +kernel
  rw [hc] at h1
  refine ⟨a, h1, ?_⟩
  -- evaluation times
  have hev : a.evals.map (fun ev => LogM.Op.newRow (α := α) ev.1)
      = ((nodes ((patch tabRK78).take ((patch tabRK78).length - 2))).map (fun c => LogM.Op.newRow (t + dt * c))) := by
    rw [h6]
    simp [newEvals, nodes, castT, castL, List.map_map, Function.comp_def]
  rw [hev]
  have hn : nodes ((patch tabRK78).take ((patch tabRK78).length - 2))
      = [0, 1/18, 1/12, 1/8, 5/16] ++ ([3/8, 59/400] ++ [93/200, 5490023248/9719169821, 13/20, 1201146811/1299019798, 1, 1]) := by
    decide +kernel
  rw [hn, List.map_append, run_append']
  cases h : LogM.run (([0, 1/18, 1/12, 1/8, 5/16] : List ℚ).map (fun c => LogM.Op.newRow (t + dt * c))) L with
  | error e => exact ⟨e, rfl⟩
  | ok L1 =>
    dsimp only
    rw [List.map_append, run_append']
    simp only [List.map_cons, List.map_nil, LogM.run, LogM.step]
    cases h2 : LogM.newLogRow L1 (t + dt * (3 / 8)) with
    | error e => exact ⟨e, rfl⟩
    | ok L2 =>
      dsimp only
      have hlast : L2.times.getLast? = some (t + dt * (3 / 8)) := by
        unfold LogM.newLogRow at h2
        split at h2
        · cases h2
        · split at h2
          · split at h2
            · cases h2
            · injection h2 with h2; rw [← h2]; simp
          · injection h2 with h2; rw [← h2]; simp
      have : ∃ e, LogM.newLogRow L2 (t + dt * (59 / 400)) = .error e := by
        unfold LogM.newLogRow
        cases hcmp : LogM.complete L2 with
        | error e => exact ⟨e, rfl⟩
        | ok L3 =>
          have ht : L3.times = L2.times := by
            unfold LogM.complete at hcmp
            split at hcmp
            · cases hcmp
            · injection hcmp with hcmp; rw [← hcmp]
          dsimp only
          rw [ht, hlast]
          dsimp only
          rw [if_pos (by nlinarith)]
          exact ⟨_, rfl⟩
      obtain ⟨e, he⟩ := this
      rw [he]
      exact ⟨e, rfl⟩

end discard

/-! ### Examples -/

/-- RK4 integrates y' = 3t² from 0 to 2: 8. -/
example : (match classicalStep (K := ℚ) (S := ℚ) "RK2Heun" (fun t _ => 2 * t) 0 0 3 with
    | .ok r => r.newValue
    | .error _ => 0) = 9 := by decide +kernel
example : ("RK4", 4) ∈ classicalMethods ∧ ("RK45Adaptive", 5, 4) ∈ adaptiveMethods := by decide
/-- The tree with a root and three leaves has four nodes and density 4. -/
example : (RTree.graft (.graft (.graft .leaf .leaf) .leaf) .leaf).order = 4 ∧
    (RTree.graft (.graft (.graft .leaf .leaf) .leaf) .leaf).density = 4 := by decide +kernel

end Mapleaf.Motion.RK
