import Verif.Motion.LimitFirstProps
import Verif.Motion.StepperProps

/-! # C93: the integrators of the code as Runge-Kutta methods -/

namespace Mapleaf.Motion.Lim
open Set Mapleaf.Motion.RK

/-- the coefficients of a tableau: rows `cᵢ, aᵢ₁, …` from the second stage on, and a row of weights -/
def coefOf (rows : Tableau ℝ) (b : List ℝ) : Coef where
  s := rows.length + 1
  A i j := (([0] :: rows).getD i []).tail.getD j 0
  b i := b.getD i 0
  c i := (([0] :: rows).getD i []).headD 0

section link
variable {E : Type} [NormedAddCommGroup E] [NormedSpace ℝ E]

theorem explicit_row (rows : Tableau ℝ) (n i : ℕ) (h : Explicit n rows) (hi : i < rows.length) : (rows.getD i []).length = n + i + 2 := by
  induction rows generalizing n i with
  | nil => simp at hi
  | cons r rows ih =>
    cases i with
    | zero => simpa using h.1
    | succ i =>
      have := ih (n + 1) i h.2 (by simpa using hi)
      simp only [List.getD_cons_succ, this]
      omega

/-- a weighted sum over lists as a sum over indices -/
theorem wsum_range (ws : List ℝ) (g : ℕ → E) (m n : ℕ) (hm : ws.length ≤ m) (hn : m ≤ n) :
    wsum ws ((List.range n).map g) = ∑ j ∈ Finset.range m, ws.getD j 0 • g j := by
  induction ws generalizing g m n with
  | nil => simp [wsum]
  | cons w ws ih =>
    obtain ⟨m, rfl⟩ : ∃ k, m = k + 1 := ⟨m - 1, by simp at hm; omega⟩
    obtain ⟨n, rfl⟩ : ∃ k, n = k + 1 := ⟨n - 1, by omega⟩
    rw [Finset.sum_range_succ', List.range_succ_eq_map, List.map_cons, List.map_map]
    have := ih (g ∘ Nat.succ) m n (by simpa using hm) (by omega)
    unfold wsum at this ⊢
    rw [List.zipWith_cons_cons, List.sum_cons, this, add_comm]
    simp

theorem wsum_first (w : ℝ) (k : E) : wsum [w] [k] = w • k := by simp [wsum]

/-- The stages of the code are those of the method. -/
theorem isStages_iff (rows : Tableau ℝ) (b : List ℝ) (hex : Explicit 0 rows) (f : ℝ → E → E) (t : ℝ) (y : E) (h : ℝ) (ks : List E)
    (hk : IsStages rows f t y h (f t y) ks) : ks = (List.range (rows.length + 1)).map (stage (coefOf rows b) f t y h) := by
  refine isStages_unique hex hk ?_
  unfold IsStages
  apply List.ext_getElem
  · simp
  · intro i h1 h2
    have hi : i < rows.length + 1 := by simpa using h1
    rw [List.getElem_map, List.getElem_range, stage_point]
    cases i with
    | zero => simp [coefOf, point]
    | succ i =>
      have hi' : i < rows.length := by omega
      have hget : rows[i] = rows.getD i [] := by rw [List.getD_eq_getElem?_getD, List.getElem?_eq_getElem hi']; rfl
      have hlen : rows[i].tail.length = i + 1 := by
        rw [List.length_tail, hget, explicit_row rows 0 i hex hi']
        omega
      rw [List.getElem_cons_succ, List.getElem_map]
      have hw := wsum_range rows[i].tail (stage (coefOf rows b) f t y h) (i + 1) (rows.length + 1) (by omega) (by omega)
      rw [hw, hget]
      unfold point
      simp only [coefOf, List.getD_cons_succ]

theorem wsum_incr (rows : Tableau ℝ) (b : List ℝ) (hb : b.length = rows.length + 1) (f : ℝ → E → E) (t : ℝ) (y : E) (h : ℝ) :
    wsum b ((List.range (rows.length + 1)).map (stage (coefOf rows b) f t y h)) = incr (coefOf rows b) f t y h := by
  rw [wsum_range b _ (rows.length + 1) (rows.length + 1) (by omega) le_rfl]
  rfl

/-- rows and weights of the tableau of a fixed-step method, before the zeros are replaced -/
noncomputable def rowsOf (tab : Tableau ℚ) : Tableau ℝ := castT (tab.take (tab.length - 1))
noncomputable def weightsOf (tab : Tableau ℚ) : List ℝ := castL (tab.getLast?.getD [])

/-- One step of the code is a step of the Runge-Kutta method given by the patched tableau. -/
theorem classical_rk (m : String) (tab : Tableau ℚ) (hm : classicalTableau m = .ok (some tab)) (hc : rowsConsistent 0 tab = true)
    (hs : shapeB 1 (patch tab) = true) (f : ℝ → E → E) (t : ℝ) (y : E) (h : ℝ) (hh : h ≠ 0) :
    ∃ r, classicalStep m f t y h = .ok r ∧ r.newValue = rk (coefOf (rowsOf (patch tab)) (weightsOf (patch tab))) f t y h := by
  obtain ⟨r, ks, h1, h2, h3, _⟩ := classical_runs m tab hm hc hs f t y h hh
  have hshape : Shape 1 (castT (patch tab) : Tableau ℝ) := shape_cast 1 (patch tab) hs
  have hex : Explicit 0 (rowsOf (patch tab)) := by
    have := hshape.explicit
    rwa [castT_length, castT_take] at this
  refine ⟨r, h1, ?_⟩
  have hlen : (weightsOf (patch tab)).length = (rowsOf (patch tab)).length + 1 := by
    have hne : patch tab ≠ [] := by
      intro h0
      have := hshape.enough
      rw [h0] at this
      simp [castT] at this
    have hl : (patch tab).getLast?.getD [] = (patch tab).getLast hne := by rw [List.getLast?_eq_some_getLast hne]; rfl
    have hpos : 0 < (patch tab).length := List.length_pos_iff.2 hne
    have hmem : castL ((patch tab).getLast hne) ∈ (castT (patch tab) : Tableau ℝ).drop ((castT (patch tab) : Tableau ℝ).length - 1) := by
      rw [castT_length, castT, ← List.map_drop, List.drop_length_sub_one hne]
      simp
    have := hshape.result _ hmem
    unfold weightsOf rowsOf
    rw [hl, this, castT_length, castT_length, List.length_take, Nat.min_eq_left (by omega)]
  rw [h3, isStages_iff _ (weightsOf (patch tab)) hex f t y h ks h2]
  exact congrArg (fun z => y + h • z) (wsum_incr (rowsOf (patch tab)) (weightsOf (patch tab)) hlen f t y h)

/-- Euler's method as a Runge-Kutta method -/
theorem euler_rk (f : ℝ → E → E) (t : ℝ) (y : E) (h : ℝ) :
    ∃ r, classicalStep "Euler" f t y h = .ok r ∧ r.newValue = rk (coefOf [] [1]) f t y h := by
  refine ⟨_, by unfold classicalStep; simp [classicalTableau]; rfl, ?_⟩
  have h1 : incr (coefOf [] [1]) f t y h = stage (coefOf [] [1]) f t y h 0 := by simp [incr, coefOf]
  have h2 : stage (coefOf [] [1]) f t y h 0 = f t y := by
    rw [stage_point]
    simp [point, coefOf]
  unfold rk eulerStep
  rw [h1, h2]

open Stepper in
/-- A flight of the code with a method whose steps are those of `q` visits the states of `q`. -/
theorem flight_march (m : String) (q : Coef) (f : ℝ → E → E)
    (hq : ∀ t x h, h ≠ 0 → ∃ r, classicalStep m f t x h = .ok r ∧ r.newValue = rk q f t x h) (hs : List ℝ) (hh : ∀ h ∈ hs, h ≠ 0) (b : Stepped E E) :
    ∃ rs b', timeSteps (fixedStep m f) b hs = .ok (rs, b') ∧ b'.time = b.time + hs.sum ∧ b'.state = march (rk q f) b.time b.state hs := by
  induction hs generalizing b with
  | nil => exact ⟨[], b, rfl, by simp, rfl⟩
  | cons h hs ih =>
    obtain ⟨r, h1, h2⟩ := hq b.time b.state h (hh h (by simp))
    obtain ⟨rs, b', k1, k2, k3⟩ := ih (fun z hz => hh z (by simp [hz])) ⟨b.time + h, r.newValue, r.derivative⟩
    refine ⟨⟨r.newValue, h, r.derivative⟩ :: rs, b', ?_, ?_, ?_⟩
    · unfold timeSteps timeStep
      have : fixedStep m f b.state b.time h = .ok ⟨r.newValue, h, r.derivative⟩ := by simp [fixedStep, h1]
      rw [this]
      dsimp only
      rw [k1]
    · rw [k2, List.sum_cons]; ring
    · rw [k3, march, h2]

end link

/-! ## The replaced zeros -/

theorem patch_near (x : ℚ) : |((if x = 0 then 1 / 10 ^ 16 else x : ℚ) : ℝ) - (x : ℝ)| ≤ 1 / 10 ^ 16 := by
  split
  · next h => subst h; push_cast; rw [sub_zero, abs_of_pos (by positivity)]
  · simp

theorem castL_getD (l : List ℚ) (j : ℕ) : (castL l : List ℝ).getD j 0 = ((l.getD j 0 : ℚ) : ℝ) := by
  rw [castL, List.getD_eq_getElem?_getD, List.getElem?_map, List.getD_eq_getElem?_getD]
  cases l[j]? <;> simp

theorem castT_getD (tab : Tableau ℚ) (i : ℕ) : (castT tab : Tableau ℝ).getD i [] = castL (tab.getD i []) := by
  rw [castT, List.getD_eq_getElem?_getD, List.getElem?_map, List.getD_eq_getElem?_getD]
  cases tab[i]? <;> simp [castL]

theorem patch_getD (tab : Tableau ℚ) (i : ℕ) : (patch tab).getD i [] = (tab.getD i []).map fun x => if x = 0 then 1 / 10 ^ 16 else x := by
  rw [patch, List.getD_eq_getElem?_getD, List.getElem?_map, List.getD_eq_getElem?_getD]
  cases tab[i]? <;> simp

theorem map_near (l : List ℚ) (j : ℕ) :
    |(castL (l.map fun x => if x = 0 then 1 / 10 ^ 16 else x) : List ℝ).getD j 0 - (castL l : List ℝ).getD j 0| ≤ 1 / 10 ^ 16 := by
  rw [castL_getD, castL_getD, List.getD_eq_getElem?_getD, List.getElem?_map, List.getD_eq_getElem?_getD]
  cases h : l[j]? with
  | none => simp
  | some x => simpa using patch_near x

theorem patch_take (tab : Tableau ℚ) (n : ℕ) : (patch tab).take n = patch (tab.take n) := by unfold patch; rw [List.map_take]

theorem patch_length (tab : Tableau ℚ) : (patch tab).length = tab.length := by simp [patch]

/-- Replacing the zeros changes no coefficient by more than `1e-16`. -/
theorem patched_near (tab : Tableau ℚ) : (∀ i j, |(coefOf (rowsOf (patch tab)) (weightsOf (patch tab))).A i j -
      (coefOf (rowsOf tab) (weightsOf tab)).A i j| ≤ 1 / 10 ^ 16) ∧
    (∀ i, |(coefOf (rowsOf (patch tab)) (weightsOf (patch tab))).b i - (coefOf (rowsOf tab) (weightsOf tab)).b i| ≤ 1 / 10 ^ 16) ∧
    (coefOf (rowsOf (patch tab)) (weightsOf (patch tab))).s = (coefOf (rowsOf tab) (weightsOf tab)).s := by
  refine ⟨fun i j => ?_, fun i => ?_, ?_⟩
  · cases i with
    | zero => simp [coefOf]
    | succ i =>
      simp only [coefOf, rowsOf, List.getD_cons_succ, patch_length, patch_take, castT_getD, patch_getD]
      rw [castL_tail, castL_tail, ← List.map_tail]
      exact map_near _ j
  · have : (patch tab).getLast?.getD [] = (tab.getLast?.getD []).map fun x => if x = 0 then 1 / 10 ^ 16 else x := by
      unfold patch
      rw [List.getLast?_map]
      cases tab.getLast? <;> simp
    simp only [coefOf, weightsOf, this]
    exact map_near _ i
  · simp [coefOf, rowsOf, patch_length, castT_length, List.length_take]

end Mapleaf.Motion.Lim
