import Verif.Motion.InterpModel
import Mathlib.LinearAlgebra.AffineSpace.AffineMap
import Mathlib.Algebra.Polynomial.Derivative
import Mathlib.Algebra.Polynomial.Eval.Degree
import Mathlib.Tactic.Linarith
import Mathlib.Tactic.FieldSimp
import Mathlib.Tactic.Ring
import Mathlib.Tactic.LinearCombination
import Mathlib.Tactic.NormNum
import Mathlib.Tactic.FinCases

/-!
# C23, C24: interpolation
-/

namespace Mapleaf.Motion

theorem pyGet_nat {α : Type} (l : List α) (i : Nat) (h : i < l.length) : pyGet l (i : Int) = .ok l[i] := by
  unfold pyGet
  have h1 : ¬ ((i : Int) < 0) := by omega
  simp [h1, List.getElem?_eq_getElem h]

theorem pyGet_neg_one {α : Type} (l : List α) (h : l ≠ []) : pyGet l (-1) = .ok (l.getLast h) := by
  have hl : 0 < l.length := List.length_pos_of_ne_nil h
  unfold pyGet
  have h1 : ¬ ((-1 : Int) + l.length < 0) := by omega
  have h2 : ((-1 : Int) + l.length).toNat = l.length - 1 := by omega
  simp only [show (-1 : Int) < 0 by decide, if_true, if_neg h1, h2]
  rw [List.getElem?_eq_getElem (by omega), List.getLast_eq_getElem]

section
variable {K : Type} [Field K] [LinearOrder K]

theorem bisectLoop_spec (a : List K) (x : K) (hs : a.Pairwise (· ≤ ·)) (n : Nat) :
    ∀ lo hi, lo ≤ hi → hi ≤ a.length → hi - lo ≤ n → (∀ i (h : i < a.length), i < lo → a[i] ≤ x) →
      (∀ i (h : i < a.length), hi ≤ i → x < a[i]) →
      lo ≤ bisectLoop a x n lo hi ∧ bisectLoop a x n lo hi ≤ hi ∧
        (∀ i (h : i < a.length), i < bisectLoop a x n lo hi → a[i] ≤ x) ∧
        (∀ i (h : i < a.length), bisectLoop a x n lo hi ≤ i → x < a[i]) := by
  have hle : ∀ i j (hi : i < a.length) (hj : j < a.length), i ≤ j → a[i] ≤ a[j] := by
    intro i j hi hj hij
    rcases hij.lt_or_eq with h | h
    · exact List.pairwise_iff_getElem.1 hs i j hi hj h
    · subst h; exact le_refl _
  induction n with
  | zero =>
    intro lo hi h1 h2 h3 h4 h5
    have : lo = hi := by omega
    subst this
    exact ⟨le_refl _, le_refl _, h4, h5⟩
  | succ n ih =>
    intro lo hi h1 h2 h3 h4 h5
    unfold bisectLoop
    by_cases hlt : lo < hi
    · rw [if_pos hlt]
      have hm1 : lo ≤ (lo + hi) / 2 := by omega
      have hm2 : (lo + hi) / 2 < hi := by omega
      have hm3 : (lo + hi) / 2 < a.length := by omega
      simp only [List.getElem?_eq_getElem hm3]
      by_cases hx : x < a[(lo + hi) / 2]
      · rw [if_pos hx]
        obtain ⟨r1, r2, r3, r4⟩ := ih lo ((lo + hi) / 2) hm1 (by omega) (by omega) h4
          (fun i h hi' => lt_of_lt_of_le hx (hle _ _ _ _ hi'))
        exact ⟨r1, by omega, r3, r4⟩
      · rw [if_neg hx]
        obtain ⟨r1, r2, r3, r4⟩ := ih ((lo + hi) / 2 + 1) hi (by omega) h2 (by omega)
          (fun i h hi' => le_trans (hle _ _ _ _ (by omega)) (not_lt.1 hx)) h5
        exact ⟨by omega, r2, r3, r4⟩
    · rw [if_neg hlt]
      have : lo = hi := by omega
      subst this
      exact ⟨le_refl _, le_refl _, h4, h5⟩

/-- **C23.** The binary search: for a sorted list it returns the number of elements at or below `x`, as the unique split
point. -/
theorem bisect_spec (a : List K) (x : K) (hs : a.Pairwise (· ≤ ·)) :
    bisect a x ≤ a.length ∧ (∀ i (h : i < a.length), i < bisect a x ↔ a[i] ≤ x) ∧
    bisect a x = (a.filter (· ≤ x)).length := by
  obtain ⟨_, h2, h3, h4⟩ := bisectLoop_spec a x hs a.length 0 a.length (by omega) (by omega) (by omega)
    (fun i _ h => absurd h (by omega)) (fun i h h' => absurd h (by omega))
  have hiff : ∀ i (h : i < a.length), i < bisect a x ↔ a[i] ≤ x := by
    intro i h
    constructor
    · exact h3 i h
    · intro h'; by_contra hc; exact absurd (h4 i h (by unfold bisect at hc; omega)) (not_lt.2 h')
  refine ⟨h2, hiff, ?_⟩
  have hb : bisect a x ≤ a.length := h2
  generalize bisect a x = b at hiff hb
  conv_rhs => rw [← List.take_append_drop b a]
  rw [List.filter_append, List.length_append]
  have e1 : (a.take b).filter (· ≤ x) = a.take b := by
    rw [List.filter_eq_self]
    intro y hy
    obtain ⟨i, hi, rfl⟩ := List.getElem_of_mem hy
    have : i < b := by simp at hi; omega
    simp only [List.getElem_take, decide_eq_true_eq]
    exact (hiff i _).1 this
  have e2 : (a.drop b).filter (· ≤ x) = [] := by
    rw [List.filter_eq_nil_iff]
    intro y hy
    obtain ⟨i, hi, rfl⟩ := List.getElem_of_mem hy
    simp only [List.getElem_drop, decide_eq_true_eq]
    intro hc
    have := (hiff (b + i) (by simp at hi; omega)).2 hc
    omega
  rw [e1, e2]
  simp [hb]

variable {V : Type} [AddCommGroup V] [Module K V]

theorem strict_le {X : List K} (h : X.Pairwise (· < ·)) : X.Pairwise (· ≤ ·) := h.imp (fun h => h.le)

theorem strict_index {X : List K} (h : X.Pairwise (· < ·)) {i j : Nat} (hi : i < X.length) (hj : j < X.length) :
    X[i] ≤ X[j] ↔ i ≤ j := by
  have key : ∀ i j (hi : i < X.length) (hj : j < X.length), i < j → X[i] < X[j] := fun i j hi hj hij =>
    List.pairwise_iff_getElem.1 h i j hi hj hij
  constructor
  · intro hle; by_contra hc
    exact absurd (key j i hj hi (by omega)) (not_lt.2 hle)
  · intro hle
    rcases hle.lt_or_eq with h' | h'
    · exact (key i j hi hj h').le
    · subst h'; exact le_refl _

theorem bisect_eq_of {X : List K} (hs : X.Pairwise (· ≤ ·)) {x : K} {b : Nat} (hb : b ≤ X.length)
    (h1 : ∀ i (h : i < X.length), i < b → X[i] ≤ x) (h2 : ∀ i (h : i < X.length), b ≤ i → x < X[i]) :
    bisect X x = b := by
  obtain ⟨hl, hiff, _⟩ := bisect_spec X x hs
  rcases Nat.lt_trichotomy (bisect X x) b with h | h | h
  · have := (hiff (bisect X x) (by omega)).2 (h1 _ (by omega) h); omega
  · exact h
  · have h' : b < X.length := by omega
    exact absurd ((hiff b h').1 h) (not_le.2 (h2 b h' (le_refl _)))

/-- At or past the last abscissa -/
theorem linInterp_above (X : List K) (Y : List V) (x : K) (hs : X.Pairwise (· < ·)) (hn : X ≠ [])
    (hl : X.length = Y.length) (hx : X.getLast hn ≤ x) :
    ∃ h : Y ≠ [], linInterp X Y x = .ok (Y.getLast h) := by
  have hpos : 0 < X.length := List.length_pos_of_ne_nil hn
  have hY : Y ≠ [] := by intro h; rw [h] at hl; simp at hl; exact hn hl
  refine ⟨hY, ?_⟩
  have hb : bisect X x = X.length := by
    apply bisect_eq_of (strict_le hs) (le_refl _)
    · intro i h _
      refine le_trans ?_ hx
      rw [List.getLast_eq_getElem, strict_index hs]
      omega
    · intro i h h'; omega
  unfold linInterp
  simp only [hb, ge_iff_le, le_refl, if_true]
  have : ((X.length : Int) - 1) = ((X.length - 1 : Nat) : Int) := by omega
  rw [this, pyGet_nat Y _ (by omega), List.getLast_eq_getElem]
  congr 2
  omega

/-- Strictly below the first abscissa -/
theorem linInterp_below (X : List K) (Y : List V) (x : K) (hs : X.Pairwise (· < ·)) (hn : X ≠ [])
    (hl : X.length = Y.length) (hx : x < X.head hn) :
    ∃ h : Y ≠ [], linInterp X Y x = .ok (Y.head h) := by
  have hpos : 0 < X.length := List.length_pos_of_ne_nil hn
  have hY : Y ≠ [] := by intro h; rw [h] at hl; simp at hl; exact hn hl
  refine ⟨hY, ?_⟩
  have hb : bisect X x = 0 := by
    apply bisect_eq_of (strict_le hs) (Nat.zero_le _)
    · intro i h h'; omega
    · intro i h _
      refine lt_of_lt_of_le hx ?_
      rw [List.head_eq_getElem, strict_index hs]
      omega
  unfold linInterp
  have h0 : ¬ (0 ≥ X.length) := by omega
  simp only [hb, if_neg h0, Nat.zero_lt_one, if_true]
  have := pyGet_nat Y 0 (by omega)
  rw [Nat.cast_zero] at this
  rw [this, List.head_eq_getElem]

/-- **C23.** On every interval of the table, ends included, the result is the straight line through the two neighbouring
points (Mathlib's `AffineMap.lineMap`). In particular tabulated abscissae give tabulated values. -/
theorem linInterp_between [IsStrictOrderedRing K] (X : List K) (Y : List V) (x : K) (i : Nat) (hs : X.Pairwise (· < ·))
    (hl : X.length = Y.length) (hi : i + 1 < X.length) (h1 : X[i] ≤ x) (h2 : x ≤ X[i + 1]) :
    linInterp X Y x = .ok (AffineMap.lineMap (Y[i]'(by omega)) (Y[i + 1]'(by omega)) ((x - X[i]) / (X[i + 1] - X[i]))) := by
  have hd : X[i] < X[i + 1] := List.pairwise_iff_getElem.1 hs i (i + 1) (by omega) hi (by omega)
  have inner : ∀ (j : Nat) (hj : j + 1 < X.length) (y : K), X[j] ≤ y → y < X[j + 1] →
      linInterp X Y y = .ok (AffineMap.lineMap (Y[j]'(by omega)) (Y[j + 1]'(by omega)) ((y - X[j]) / (X[j + 1] - X[j]))) := by
    intro j hj y hy1 hy2
    have hdj : X[j] < X[j + 1] := lt_of_le_of_lt hy1 hy2
    have hb : bisect X y = j + 1 := by
      apply bisect_eq_of (strict_le hs) (by omega)
      · intro k hk hk'
        refine le_trans ?_ hy1
        rw [strict_index hs]; omega
      · intro k hk hk'
        refine lt_of_lt_of_le hy2 ?_
        rw [strict_index hs]; omega
    unfold linInterp
    have c1 : ¬ (j + 1 ≥ X.length) := by omega
    have c2 : ¬ (j + 1 < 1) := by omega
    have e : (((j + 1 : Nat) : Int) - 1) = (j : Int) := by omega
    simp only [hb, if_neg c1, if_neg c2, e]
    rw [pyGet_nat X (j + 1) (by omega), pyGet_nat X j (by omega), pyGet_nat Y (j + 1) (by omega),
      pyGet_nat Y j (by omega)]
    have c3 : ¬ (X[j + 1] - X[j] = 0) := fun h => absurd (sub_eq_zero.1 h) hdj.ne'
    simp only [if_neg c3]
    rfl
  rcases h2.lt_or_eq with h | h
  · exact inner i hi x h1 h
  · subst h
    have hdiv : (X[i + 1] - X[i]) / (X[i + 1] - X[i]) = 1 := div_self (sub_ne_zero.2 hd.ne')
    rw [hdiv, AffineMap.lineMap_apply_one]
    by_cases hlast : i + 2 < X.length
    · have hd' : X[i + 1] < X[i + 2] := List.pairwise_iff_getElem.1 hs (i + 1) (i + 2) (by omega) hlast (by omega)
      rw [inner (i + 1) hlast _ (le_refl _) hd']
      simp
    · have hn : X ≠ [] := by intro h; rw [h] at hi; simp at hi
      obtain ⟨hY, h⟩ := linInterp_above X Y X[i + 1] hs hn hl (by
        rw [List.getLast_eq_getElem, strict_index hs]; omega)
      rw [h, List.getLast_eq_getElem]
      congr 2
      omega

/-- **C23.** The whole specification. For a strictly increasing non-empty table: no errors; the tabulated value at every
tabulated abscissa; the first value below and the last value above the table; linear in between
(`linInterp_between`). -/
theorem linInterp_spec [IsStrictOrderedRing K] (X : List K) (Y : List V) (hs : X.Pairwise (· < ·)) (hn : X ≠ [])
    (hl : X.length = Y.length) :
    (∀ i (h : i < X.length), linInterp X Y X[i] = .ok (Y[i]'(by omega))) ∧
    (∀ x, x ≤ X.head hn → ∃ h : Y ≠ [], linInterp X Y x = .ok (Y.head h)) ∧
    (∀ x, X.getLast hn ≤ x → ∃ h : Y ≠ [], linInterp X Y x = .ok (Y.getLast h)) := by
  have hpos : 0 < X.length := List.length_pos_of_ne_nil hn
  have hY : Y ≠ [] := by intro h; rw [h] at hl; simp at hl; exact hn hl
  have hnode : ∀ i (h : i < X.length), linInterp X Y X[i] = .ok (Y[i]'(by omega)) := by
    intro i h
    by_cases hi : i + 1 < X.length
    · have hd : X[i] < X[i + 1] := List.pairwise_iff_getElem.1 hs i (i + 1) h hi (by omega)
      rw [linInterp_between X Y X[i] i hs hl hi (le_refl _) hd.le]
      simp
    · obtain ⟨_, h'⟩ := linInterp_above X Y X[i] hs hn hl (by
        rw [List.getLast_eq_getElem, strict_index hs]; omega)
      rw [h', List.getLast_eq_getElem]
      congr 2
      omega
  refine ⟨hnode, ?_, fun x hx => linInterp_above X Y x hs hn hl hx⟩
  intro x hx
  rcases hx.lt_or_eq with h | h
  · exact linInterp_below X Y x hs hn hl h
  · refine ⟨hY, ?_⟩
    subst h
    have := hnode 0 hpos
    rw [List.head_eq_getElem, List.head_eq_getElem]
    exact this

/-- **C23.** Scalar tables: the result lies between the two neighbouring values. -/
theorem linInterp_bounded [IsStrictOrderedRing K] (X Y : List K) (x : K) (i : Nat) (hs : X.Pairwise (· < ·))
    (hl : X.length = Y.length) (hi : i + 1 < X.length) (h1 : X[i] ≤ x) (h2 : x ≤ X[i + 1]) :
    ∃ y, linInterp X Y x = .ok y ∧ min (Y[i]'(by omega)) (Y[i + 1]'(by omega)) ≤ y ∧
      y ≤ max (Y[i]'(by omega)) (Y[i + 1]'(by omega)) := by
  have hd : X[i] < X[i + 1] := List.pairwise_iff_getElem.1 hs i (i + 1) (by omega) hi (by omega)
  refine ⟨_, linInterp_between X Y x i hs hl hi h1 h2, ?_⟩
  have hp : 0 < X[i + 1] - X[i] := sub_pos.2 hd
  have hw0 : 0 ≤ (x - X[i]) / (X[i + 1] - X[i]) := div_nonneg (sub_nonneg.2 h1) hp.le
  have hw1 : (x - X[i]) / (X[i + 1] - X[i]) ≤ 1 := by rw [div_le_one hp]; linarith
  generalize (x - X[i]) / (X[i + 1] - X[i]) = w at hw0 hw1
  generalize Y[i]'(by omega) = a
  generalize Y[i + 1]'(by omega) = b
  rw [AffineMap.lineMap_apply]
  simp only [vsub_eq_sub, smul_eq_mul, vadd_eq_add]
  rcases le_total a b with h | h
  · rw [min_eq_left h, max_eq_right h]
    constructor <;> nlinarith
  · rw [min_eq_right h, max_eq_left h]
    constructor <;> nlinarith

/-- **C23.** Repeated abscissae do no harm: for any non-decreasing non-empty table with as many values, no query
fails. -/
theorem linInterp_total (X : List K) (Y : List V) (hs : X.Pairwise (· ≤ ·)) (hn : X ≠ [])
    (hl : X.length = Y.length) (x : K) : ∃ y, linInterp X Y x = .ok y := by
  have hpos : 0 < X.length := List.length_pos_of_ne_nil hn
  obtain ⟨hb, hiff, _⟩ := bisect_spec X x hs
  unfold linInterp
  generalize bisect X x = b at hb hiff
  dsimp only
  by_cases c1 : b ≥ X.length
  · rw [if_pos c1]
    have : ((X.length : Int) - 1) = ((X.length - 1 : Nat) : Int) := by omega
    exact ⟨_, by rw [this, pyGet_nat Y _ (by omega)]⟩
  · rw [if_neg c1]
    by_cases c2 : b < 1
    · rw [if_pos c2]
      have := pyGet_nat Y 0 (by omega)
      exact ⟨_, this⟩
    · rw [if_neg c2]
      have e : ((b : Int) - 1) = ((b - 1 : Nat) : Int) := by omega
      rw [e, pyGet_nat X b (by omega), pyGet_nat X (b - 1) (by omega), pyGet_nat Y b (by omega),
        pyGet_nat Y (b - 1) (by omega)]
      have h1 := (hiff (b - 1) (by omega)).1 (by omega)
      have h2 : x < X[b] := by
        have := (hiff b (by omega)).not.1 (by omega)
        exact not_le.1 this
      have c3 : ¬ (X[b] - X[b - 1] = 0) := fun h => absurd (sub_eq_zero.1 h) (lt_of_le_of_lt h1 h2).ne'
      simp only [if_neg c3]
      exact ⟨_, rfl⟩

/-- **C23.** The weight form: the weights add to 1, lie between 0 and 1, and combining the values at the two (Python)
indices with them gives the same result as `linInterp`, for every query point. -/
theorem linInterpWeights_spec [IsStrictOrderedRing K] (X : List K) (Y : List V) (hs : X.Pairwise (· < ·)) (hn : X ≠ [])
    (hl : X.length = Y.length) (x : K) :
    ∃ i j : Int, ∃ wi wj : K, ∃ yi yj : V, linInterpWeights X x = .ok (i, wi, j, wj) ∧ wi + wj = 1 ∧ 0 ≤ wi ∧ 0 ≤ wj ∧
      pyGet Y i = .ok yi ∧ pyGet Y j = .ok yj ∧ linInterp X Y x = .ok (wi • yi + wj • yj) := by
  have hpos : 0 < X.length := List.length_pos_of_ne_nil hn
  have hY : Y ≠ [] := by intro h; rw [h] at hl; simp at hl; exact hn hl
  obtain ⟨hb, hiff, _⟩ := bisect_spec X x (strict_le hs)
  unfold linInterp linInterpWeights
  generalize bisect X x = b at hb hiff
  dsimp only
  by_cases c1 : b ≥ X.length
  · rw [if_pos c1, if_pos c1]
    have e : ((X.length : Int) - 1) = ((Y.length - 1 : Nat) : Int) := by omega
    have h0 := pyGet_nat Y 0 (by omega)
    refine ⟨0, -1, 0, 1, Y[0]'(by omega), Y.getLast hY, rfl, by simp, le_refl _, zero_le_one, h0, pyGet_neg_one Y hY, ?_⟩
    rw [e, pyGet_nat Y _ (by omega), List.getLast_eq_getElem]
    simp
  · rw [if_neg c1, if_neg c1]
    by_cases c2 : b < 1
    · rw [if_pos c2, if_pos c2]
      have h0 := pyGet_nat Y 0 (by omega)
      refine ⟨0, 0, 1, 0, Y[0]'(by omega), Y[0]'(by omega), rfl, by simp, zero_le_one, le_refl _, h0, h0, ?_⟩
      simp only [one_smul, zero_smul, add_zero]
      exact h0
    · rw [if_neg c2, if_neg c2]
      have e : ((b : Int) - 1) = ((b - 1 : Nat) : Int) := by omega
      rw [e, pyGet_nat X b (by omega), pyGet_nat X (b - 1) (by omega), pyGet_nat Y b (by omega),
        pyGet_nat Y (b - 1) (by omega)]
      have h1 := (hiff (b - 1) (by omega)).1 (by omega)
      have h2 : x < X[b] := by
        have := (hiff b (by omega)).not.1 (by omega)
        exact not_le.1 this
      have hd := lt_of_le_of_lt h1 h2
      have c3 : ¬ (X[b] - X[b - 1] = 0) := fun h => absurd (sub_eq_zero.1 h) hd.ne'
      have hp : 0 < X[b] - X[b - 1] := sub_pos.2 hd
      simp only [if_neg c3]
      refine ⟨_, _, _, _, Y[b - 1]'(by omega), Y[b]'(by omega), rfl, by ring, ?_, div_nonneg (sub_nonneg.2 h1) hp.le,
        pyGet_nat Y _ (by omega), pyGet_nat Y _ (by omega), ?_⟩
      · rw [sub_nonneg, div_le_one hp]; linarith
      · congr 1
        rw [sub_smul, one_smul, smul_sub]
        abel

example : linInterp ([0, 1, 3] : List ℚ) ([5, 7, 1] : List ℚ) 2 = .ok 4 := by decide +kernel
example : linInterp ([0, 1, 3] : List ℚ) ([5, 7, 1] : List ℚ) 3 = .ok 1 := by decide +kernel

end

/-! ## Cubic interpolation -/

section
variable {K : Type} [Field K] [DecidableEq K]
open Polynomial

theorem cubicMatrix_det (X1 X2 : K) : (cubicMatrix X1 X2).det = -(X2 - X1) ^ 4 := by
  unfold cubicMatrix
  rw [Matrix.det_succ_row_zero]
  simp [Fin.sum_univ_succ, Matrix.det_fin_three, Matrix.submatrix, Fin.succAbove]
  ring

/-- The polynomial with the given coefficients. -/
noncomputable def cubicPoly (c : Fin 4 → K) : K[X] := C (c 0) + C (c 1) * X + C (c 2) * X ^ 2 + C (c 3) * X ^ 3

theorem cubicMatrix_mulVec (X1 X2 : K) (c : Fin 4 → K) :
    (cubicMatrix X1 X2).mulVec c =
      ![(cubicPoly c).eval X1, (cubicPoly c).eval X2, (derivative (cubicPoly c)).eval X1, (derivative (cubicPoly c)).eval X2] := by
  ext i
  fin_cases i <;> simp [cubicMatrix, cubicPoly, Matrix.mulVec, dotProduct, Fin.sum_univ_succ] <;> ring

/-- **C24.** Equal abscissae raise; for different ones the coefficients are exactly the coefficients of the cubic with the
requested values and slopes: they match them, and no other cubic does. -/
theorem cubicCoefficients_spec (X1 X2 Y1 Y2 d1 d2 : K) :
    (cubicCoefficients X1 X2 Y1 Y2 d1 d2 = .error .valueError ↔ X1 = X2) ∧
    ∀ c, cubicCoefficients X1 X2 Y1 Y2 d1 d2 = .ok c ↔ X1 ≠ X2 ∧
      (cubicPoly c).eval X1 = Y1 ∧ (cubicPoly c).eval X2 = Y2 ∧
      (derivative (cubicPoly c)).eval X1 = d1 ∧ (derivative (cubicPoly c)).eval X2 = d2 := by
  have hdet : (cubicMatrix X1 X2).det = 0 ↔ X1 = X2 := by
    rw [cubicMatrix_det, neg_eq_zero, pow_eq_zero_iff (by norm_num), sub_eq_zero]
    exact eq_comm
  unfold cubicCoefficients getInvAMatrix
  by_cases h : X1 = X2
  · rw [if_pos (hdet.2 h)]
    simp [h]
  · have hd : (cubicMatrix X1 X2).det ≠ 0 := fun h' => h (hdet.1 h')
    rw [if_neg hd]
    have hu : IsUnit (cubicMatrix X1 X2).det := isUnit_iff_ne_zero.2 hd
    refine ⟨by simp [h], ?_⟩
    intro c
    simp only [Except.ok.injEq]
    have hsolve : (cubicMatrix X1 X2)⁻¹.mulVec ![Y1, Y2, d1, d2] = c ↔ (cubicMatrix X1 X2).mulVec c = ![Y1, Y2, d1, d2] := by
      constructor
      · intro e
        rw [← e, Matrix.mulVec_mulVec, Matrix.mul_nonsing_inv _ hu, Matrix.one_mulVec]
      · intro e
        rw [← e, Matrix.mulVec_mulVec, Matrix.nonsing_inv_mul _ hu, Matrix.one_mulVec]
    rw [hsolve, cubicMatrix_mulVec]
    constructor
    · intro e
      exact ⟨h, by simpa using congrFun e 0, by simpa using congrFun e 1, by simpa using congrFun e 2,
        by simpa using congrFun e 3⟩
    · rintro ⟨_, e1, e2, e3, e4⟩
      rw [e1, e2, e3, e4]

/-- **C24.** Every cubic polynomial is reproduced from its values and slopes at two different points. -/
theorem cubic_reproduced (X1 X2 : K) (h : X1 ≠ X2) (p : K[X]) (hp : p.natDegree ≤ 3) :
    cubicCoefficients X1 X2 (p.eval X1) (p.eval X2) ((derivative p).eval X1) ((derivative p).eval X2) =
      .ok (fun i => p.coeff i) := by
  have hpoly : cubicPoly (fun i : Fin 4 => p.coeff i) = p := by
    conv_rhs => rw [p.as_sum_range' 4 (by omega)]
    simp [cubicPoly, Finset.sum_range_succ, ← C_mul_X_pow_eq_monomial]
  rw [(cubicCoefficients_spec ..).2, hpoly]
  exact ⟨h, rfl, rfl, rfl, rfl⟩

/-- **C24.** `cubicInterp` itself: fails exactly for a zero increment or equal abscissae; otherwise it is the value of the
cubic through the two data points whose slopes there are the finite differences of its arguments. It passes through the
data points, and it reproduces straight lines. -/
theorem cubicInterp_spec (X1 X2 Y1 Y2 Y1p Y2p dx : K) :
    ((∃ x e, cubicInterp x X1 X2 Y1 Y2 Y1p Y2p dx = .error e) ↔ dx = 0 ∨ X1 = X2) ∧
    (dx ≠ 0 → X1 ≠ X2 → ∃ p : K[X], p.natDegree ≤ 3 ∧ (∀ x, cubicInterp x X1 X2 Y1 Y2 Y1p Y2p dx = .ok (p.eval x)) ∧
      p.eval X1 = Y1 ∧ p.eval X2 = Y2 ∧ (derivative p).eval X1 = (Y1p - Y1) / dx ∧
      (derivative p).eval X2 = (Y2p - Y2) / dx) ∧
    (dx ≠ 0 → X1 ≠ X2 → ∀ a b x : K, cubicInterp x X1 X2 (a + b * X1) (a + b * X2) (a + b * (X1 + dx)) (a + b * (X2 + dx)) dx
      = .ok (a + b * x)) := by
  have key : ∀ Y1 Y2 d1 d2 : K, X1 ≠ X2 → ∃ c, cubicCoefficients X1 X2 Y1 Y2 d1 d2 = .ok c := by
    intro Y1 Y2 d1 d2 h
    rcases hc : cubicCoefficients X1 X2 Y1 Y2 d1 d2 with e | c
    · have hd : (cubicMatrix X1 X2).det ≠ 0 := by
        rw [cubicMatrix_det, neg_ne_zero]
        exact pow_ne_zero _ (sub_ne_zero.2 (Ne.symm h))
      unfold cubicCoefficients getInvAMatrix at hc
      rw [if_neg hd] at hc
      cases hc
    · exact ⟨c, rfl⟩
  have deg : ∀ c : Fin 4 → K, (cubicPoly c).natDegree ≤ 3 := by
    intro c; unfold cubicPoly; compute_degree
  have main : dx ≠ 0 → X1 ≠ X2 → ∀ Y1 Y2 Y1p Y2p : K, ∃ p : K[X], p.natDegree ≤ 3 ∧
      (∀ x, cubicInterp x X1 X2 Y1 Y2 Y1p Y2p dx = .ok (p.eval x)) ∧
      p.eval X1 = Y1 ∧ p.eval X2 = Y2 ∧ (derivative p).eval X1 = (Y1p - Y1) / dx ∧
      (derivative p).eval X2 = (Y2p - Y2) / dx := by
    intro hdx hX Y1 Y2 Y1p Y2p
    obtain ⟨c, hc⟩ := key Y1 Y2 ((Y1p - Y1) / dx) ((Y2p - Y2) / dx) hX
    obtain ⟨_, e1, e2, e3, e4⟩ := ((cubicCoefficients_spec ..).2 c).1 hc
    refine ⟨cubicPoly c, deg c, ?_, e1, e2, e3, e4⟩
    intro x
    unfold cubicInterp
    rw [if_neg hdx, hc]
    simp [cubicPoly]
  refine ⟨?_, fun h h' => main h h' _ _ _ _, ?_⟩
  · constructor
    · rintro ⟨x, e, h⟩
      by_contra hc
      rw [not_or] at hc
      obtain ⟨p, _, hp, _⟩ := main hc.1 hc.2 Y1 Y2 Y1p Y2p
      rw [hp x] at h; cases h
    · rintro (h | h)
      · exact ⟨0, .zeroDivision, by unfold cubicInterp; rw [if_pos h]⟩
      · by_cases hdx : dx = 0
        · exact ⟨0, .zeroDivision, by unfold cubicInterp; rw [if_pos hdx]⟩
        · refine ⟨0, .valueError, ?_⟩
          unfold cubicInterp
          rw [if_neg hdx, (cubicCoefficients_spec X1 X2 _ _ _ _).1.2 h]
  · intro hdx hX a b x
    unfold cubicInterp
    rw [if_neg hdx]
    have e1 : (a + b * (X1 + dx) - (a + b * X1)) / dx = b := by field_simp; ring
    have e2 : (a + b * (X2 + dx) - (a + b * X2)) / dx = b := by field_simp; ring
    rw [e1, e2]
    have := cubic_reproduced X1 X2 hX (C a + C b * X) (by compute_degree; norm_num)
    simp only [eval_add, eval_C, eval_mul, eval_X, derivative_add, derivative_C, derivative_mul, derivative_X, zero_mul,
      mul_one, zero_add] at this
    rw [this]
    simp [coeff_X, coeff_C]

/-- **C24 violated.** Curved data are not reproduced, because the slopes are finite differences with the given increment:
the parabola x² sampled at 0 and 1 with increment 1/2 gives 7/64 at 1/4, where it is 1/16. -/
theorem cubicInterp_parabola_violated :
    cubicInterp (1/4 : ℚ) 0 1 (0 ^ 2) (1 ^ 2) ((0 + 1/2) ^ 2) ((1 + 1/2) ^ 2) (1/2) = .ok (7/64) ∧
    (7/64 : ℚ) ≠ (1/4) ^ 2 := by
  refine ⟨?_, by norm_num⟩
  have hc : cubicCoefficients (0 : ℚ) 1 0 1 (1/2) (5/2) = .ok ![0, 1/2, -1/2, 1] := by
    rw [(cubicCoefficients_spec ..).2]
    have e0 : (![0, 1/2, -1/2, 1] : Fin 4 → ℚ) 0 = 0 := rfl
    have e1 : (![0, 1/2, -1/2, 1] : Fin 4 → ℚ) 1 = 1/2 := rfl
    have e2 : (![0, 1/2, -1/2, 1] : Fin 4 → ℚ) 2 = -1/2 := rfl
    have e3 : (![0, 1/2, -1/2, 1] : Fin 4 → ℚ) 3 = 1 := rfl
    unfold cubicPoly
    rw [e0, e1, e2, e3]
    norm_num
  have e2 : (![0, 1/2, -1/2, 1] : Fin 4 → ℚ) 2 = -1/2 := rfl
  have e3 : (![0, 1/2, -1/2, 1] : Fin 4 → ℚ) 3 = 1 := rfl
  unfold cubicInterp
  rw [show (((0 : ℚ) + 1/2) ^ 2 - 0 ^ 2) / (1/2) = 1/2 by norm_num,
    show (((1 : ℚ) + 1/2) ^ 2 - 1 ^ 2) / (1/2) = 5/2 by norm_num, show (0 : ℚ) ^ 2 = 0 by norm_num,
    show (1 : ℚ) ^ 2 = 1 by norm_num, if_neg (by norm_num), hc]
  simp only [e2, e3]
  norm_num

end

end Mapleaf.Motion
