import Verif.Motion.LimitProps
import Verif.Motion.LimitJetProps

/-! # C93: the error of one step, for autonomous systems -/

set_option maxSynthPendingDepth 3

namespace Mapleaf.Motion.Lim
open Set

section orders
variable {X : Type} [NormedAddCommGroup X] [NormedSpace ℝ X]

/-- `u t h` is at most a constant times `hᵐ`, uniformly for all steps from `t` to `t + h` inside `[a, e]` -/
def UO (a e : ℝ) (m : ℕ) (u : ℝ → ℝ → X) : Prop :=
  ∃ C h₀ : ℝ, 0 < h₀ ∧ h₀ ≤ 1 ∧ 0 ≤ C ∧ ∀ t ∈ Icc a e, ∀ h ∈ Icc 0 h₀, t + h ≤ e → ‖u t h‖ ≤ C * h ^ m

variable {a e : ℝ} {m n k : ℕ} {u v w : ℝ → ℝ → X}

theorem UO.congr (hu : UO a e m u) (h : ∀ t s, u t s = v t s) : UO a e m v := by
  have : u = v := funext fun t => funext (h t)
  exact this ▸ hu

theorem UO.add (hu : UO a e m u) (hv : UO a e m v) : UO a e m fun t h => u t h + v t h := by
  obtain ⟨C, h₀, p1, p2, p3, p4⟩ := hu
  obtain ⟨D, g₀, q1, q2, q3, q4⟩ := hv
  refine ⟨C + D, min h₀ g₀, lt_min p1 q1, (min_le_left _ _).trans p2, add_nonneg p3 q3, fun t ht h hh hte => ?_⟩
  rw [add_mul]
  exact (norm_add_le _ _).trans (add_le_add (p4 t ht h ⟨hh.1, hh.2.trans (min_le_left _ _)⟩ hte) (q4 t ht h ⟨hh.1, hh.2.trans (min_le_right _ _)⟩ hte))

theorem UO.smul (r : ℝ) (hu : UO a e m u) : UO a e m fun t h => r • u t h := by
  obtain ⟨C, h₀, p1, p2, p3, p4⟩ := hu
  refine ⟨|r| * C, h₀, p1, p2, by positivity, fun t ht h hh hte => ?_⟩
  rw [norm_smul, Real.norm_eq_abs, mul_assoc]
  exact mul_le_mul_of_nonneg_left (p4 t ht h hh hte) (abs_nonneg r)

theorem UO.sub (hu : UO a e m u) (hv : UO a e m v) : UO a e m fun t h => u t h - v t h :=
  (hu.add (hv.smul (-1))).congr fun t s => by rw [neg_one_smul, sub_eq_add_neg]

theorem UO.zero : UO a e m fun _ _ => (0 : X) := ⟨0, 1, one_pos, le_rfl, le_rfl, fun t _ h _ _ => by simp⟩

theorem UO.sum (ι : Finset ℕ) {u : ℕ → ℝ → ℝ → X} (hu : ∀ i ∈ ι, UO a e m (u i)) : UO a e m fun t h => ∑ i ∈ ι, u i t h := by
  induction ι using Finset.induction_on with
  | empty => exact UO.zero.congr fun t s => by simp
  | insert i ι hi ih =>
    exact ((hu i (by simp)).add (ih fun j hj => hu j (by simp [hj]))).congr fun t s => by rw [Finset.sum_insert hi]

theorem UO.mono (hu : UO a e n u) (h : m ≤ n) : UO a e m u := by
  obtain ⟨C, h₀, p1, p2, p3, p4⟩ := hu
  refine ⟨C, h₀, p1, p2, p3, fun t ht s hs hte => (p4 t ht s hs hte).trans ?_⟩
  exact mul_le_mul_of_nonneg_left (pow_le_pow_of_le_one hs.1 (hs.2.trans p2) h) p3

theorem UO.hpow (k : ℕ) (hu : UO a e m u) : UO a e (m + k) fun t h => h ^ k • u t h := by
  obtain ⟨C, h₀, p1, p2, p3, p4⟩ := hu
  refine ⟨C, h₀, p1, p2, p3, fun t ht s hs hte => ?_⟩
  rw [norm_smul, Real.norm_eq_abs, abs_of_nonneg (pow_nonneg hs.1 k), pow_add]
  have := mul_le_mul_of_nonneg_left (p4 t ht s hs hte) (pow_nonneg hs.1 k)
  nlinarith

/-- bounded along the motion -/
def BO {W : Type} [NormedAddCommGroup W] (a e : ℝ) (w : ℝ → W) : Prop := ∃ M, ∀ t ∈ Icc a e, ‖w t‖ ≤ M

theorem BO.coef {w : ℝ → X} (hw : BO a e w) : UO a e 0 fun t _ => w t := by
  obtain ⟨M, hM⟩ := hw
  exact ⟨|M|, 1, one_pos, le_rfl, abs_nonneg _, fun t ht h _ _ => by simpa using (hM t ht).trans (le_abs_self M)⟩

/-- a term `hᵏ w` is of order `k` -/
theorem BO.term {w : ℝ → X} (hw : BO a e w) (k : ℕ) (h : m ≤ k) : UO a e m fun t h => h ^ k • w t :=
  ((hw.coef.hpow k).mono (by omega : m ≤ 0 + k))

theorem BO.add {w z : ℝ → X} (hw : BO a e w) (hz : BO a e z) : BO a e fun t => w t + z t := by
  obtain ⟨M, hM⟩ := hw
  obtain ⟨N, hN⟩ := hz
  exact ⟨M + N, fun t ht => (norm_add_le _ _).trans (add_le_add (hM t ht) (hN t ht))⟩

theorem BO.smul {w : ℝ → X} (r : ℝ) (hw : BO a e w) : BO a e fun t => r • w t := by
  obtain ⟨M, hM⟩ := hw
  exact ⟨|r| * M, fun t ht => by rw [norm_smul, Real.norm_eq_abs]; exact mul_le_mul_of_nonneg_left (hM t ht) (abs_nonneg r)⟩

theorem BO.app {Z : Type} [NormedAddCommGroup Z] [NormedSpace ℝ Z] {D : ℝ → X →L[ℝ] Z} {w : ℝ → X} (hD : BO a e D) (hw : BO a e w) :
    BO a e fun t => D t (w t) := by
  obtain ⟨M, hM⟩ := hD
  obtain ⟨N, hN⟩ := hw
  exact ⟨M * N, fun t ht => (ContinuousLinearMap.le_opNorm _ _).trans
    (mul_le_mul (hM t ht) (hN t ht) (norm_nonneg _) ((norm_nonneg _).trans (hM t ht)))⟩

theorem UO.lin {D : ℝ → X →L[ℝ] X} (hD : BO a e D) (hu : UO a e m u) : UO a e m fun t h => D t (u t h) := by
  obtain ⟨M, hM⟩ := hD
  obtain ⟨C, h₀, p1, p2, p3, p4⟩ := hu
  refine ⟨|M| * C, h₀, p1, p2, by positivity, fun t ht h hh hte => (ContinuousLinearMap.le_opNorm _ _).trans ?_⟩
  rw [mul_assoc]
  exact mul_le_mul ((hM t ht).trans (le_abs_self M)) (p4 t ht h hh hte) (norm_nonneg _) (abs_nonneg M)

theorem UO.bil {D : ℝ → X →L[ℝ] X →L[ℝ] X} (hD : BO a e D) (hu : UO a e m u) (hv : UO a e n v) :
    UO a e (m + n) fun t h => D t (u t h) (v t h) := by
  obtain ⟨M, hM⟩ := hD
  obtain ⟨C, h₀, p1, p2, p3, p4⟩ := hu
  obtain ⟨C', g₀, q1, q2, q3, q4⟩ := hv
  refine ⟨|M| * C * C', min h₀ g₀, lt_min p1 q1, (min_le_left _ _).trans p2, by positivity, fun t ht h hh hte => ?_⟩
  have e1 := p4 t ht h ⟨hh.1, hh.2.trans (min_le_left _ _)⟩ hte
  have e2 := q4 t ht h ⟨hh.1, hh.2.trans (min_le_right _ _)⟩ hte
  calc ‖D t (u t h) (v t h)‖ ≤ ‖D t‖ * ‖u t h‖ * ‖v t h‖ := ContinuousLinearMap.le_opNorm₂ _ _ _
    _ ≤ |M| * (C * h ^ m) * (C' * h ^ n) := by
      have := pow_nonneg hh.1 m
      exact mul_le_mul (mul_le_mul ((hM t ht).trans (le_abs_self M)) e1 (norm_nonneg _) (abs_nonneg M)) e2 (norm_nonneg _) (by positivity)
    _ = |M| * C * C' * h ^ (m + n) := by rw [pow_add]; ring

theorem UO.tri {D : ℝ → X →L[ℝ] X →L[ℝ] X →L[ℝ] X} (hD : BO a e D) (hu : UO a e m u) (hv : UO a e n v) (hw : UO a e k w) :
    UO a e (m + n + k) fun t h => D t (u t h) (v t h) (w t h) := by
  obtain ⟨M, hM⟩ := hD
  obtain ⟨C, h₀, p1, p2, p3, p4⟩ := hu
  obtain ⟨C', g₀, q1, q2, q3, q4⟩ := hv
  obtain ⟨C'', f₀, r1, r2, r3, r4⟩ := hw
  refine ⟨|M| * C * C' * C'', min h₀ (min g₀ f₀), lt_min p1 (lt_min q1 r1), (min_le_left _ _).trans p2, by positivity, fun t ht h hh hte => ?_⟩
  have e1 := p4 t ht h ⟨hh.1, hh.2.trans (min_le_left _ _)⟩ hte
  have e2 := q4 t ht h ⟨hh.1, hh.2.trans ((min_le_right _ _).trans (min_le_left _ _))⟩ hte
  have e3 := r4 t ht h ⟨hh.1, hh.2.trans ((min_le_right _ _).trans (min_le_right _ _))⟩ hte
  have p5 := pow_nonneg hh.1 m
  have p6 := pow_nonneg hh.1 n
  calc ‖D t (u t h) (v t h) (w t h)‖ ≤ ‖D t (u t h)‖ * ‖v t h‖ * ‖w t h‖ := ContinuousLinearMap.le_opNorm₂ _ _ _
    _ ≤ (‖D t‖ * ‖u t h‖) * ‖v t h‖ * ‖w t h‖ := by
      gcongr
      exact ContinuousLinearMap.le_opNorm _ _
    _ ≤ |M| * (C * h ^ m) * (C' * h ^ n) * (C'' * h ^ k) := by
      exact mul_le_mul (mul_le_mul (mul_le_mul ((hM t ht).trans (le_abs_self M)) e1 (norm_nonneg _) (abs_nonneg M)) e2 (norm_nonneg _)
        (by positivity)) e3 (norm_nonneg _) (by positivity)
    _ = |M| * C * C' * C'' * h ^ (m + n + k) := by rw [pow_add, pow_add]; ring

/-- Taylor coefficients of the right-hand side `G` along the motion `Y` -/
structure Jet (G : X → X) (Y : ℝ → X) (a e : ℝ) (D1 : ℝ → X →L[ℝ] X) (D2 : ℝ → X →L[ℝ] X →L[ℝ] X) (D3 : ℝ → X →L[ℝ] X →L[ℝ] X →L[ℝ] X) : Prop where
  b0 : BO a e fun t => G (Y t)
  b1 : BO a e D1
  b2 : BO a e D2
  b3 : BO a e D3
  rem : ∃ ρ M : ℝ, 0 < ρ ∧ 0 ≤ M ∧ ∀ t ∈ Icc a e, ∀ v : X, ‖v‖ ≤ ρ →
    ‖G (Y t + v) - G (Y t) - D1 t v - (1 / 2 : ℝ) • D2 t v v - (1 / 6 : ℝ) • D3 t v v v‖ ≤ M * ‖v‖ ^ 4
  sol : ∀ t ∈ Icc a e, HasDerivWithinAt Y (G (Y t)) (Icc a e) t

variable {G : X → X} {Y : ℝ → X} {D1 : ℝ → X →L[ℝ] X} {D2 : ℝ → X →L[ℝ] X →L[ℝ] X} {D3 : ℝ → X →L[ℝ] X →L[ℝ] X →L[ℝ] X}

theorem quad_id (B : X →L[ℝ] X →L[ℝ] X) (x y z v : X) (hv : v = x + y + z) :
    B v v = B x x + (B x y + B y x) + (B y y + B z v + B (x + y) z) := by
  rw [hv]
  simp only [map_add, ContinuousLinearMap.add_apply]
  abel

theorem cub_id (T : X →L[ℝ] X →L[ℝ] X →L[ℝ] X) (x z v : X) (hv : v = x + z) :
    T v v v = T x x x + (T z v v + T x z v + T x x z) := by
  rw [hv]
  simp only [map_add, ContinuousLinearMap.add_apply]
  abel

theorem bil_smul (B : X →L[ℝ] X →L[ℝ] X) (r s : ℝ) (x y : X) : B (r • x) (s • y) = (r * s) • B x y := by
  rw [map_smul, map_smul, ContinuousLinearMap.smul_apply, smul_smul, mul_comm]

theorem tri_smul (T : X →L[ℝ] X →L[ℝ] X →L[ℝ] X) (r : ℝ) (x : X) : T (r • x) (r • x) (r • x) = r ^ 3 • T x x x := by
  simp only [map_smul, ContinuousLinearMap.smul_apply, smul_smul]
  congr 1
  ring

/-- the bookkeeping of `substitute` -/
theorem substitute_id (g0 g l r x1 x2 x3 v q2 c3 q12 q22 c111 restq restc : X) (h : ℝ) (hl : l = h • x1 + h ^ 2 • x2 + h ^ 3 • x3 + r)
    (hq : q2 = h ^ 2 • q12 + h ^ 3 • q22 + restq) (hc : c3 = h ^ 3 • c111 + restc) :
    (g - g0 - l - (1 / 2 : ℝ) • q2 - (1 / 6 : ℝ) • c3) + r + (1 / 2 : ℝ) • restq + (1 / 6 : ℝ) • restc =
      g - (g0 + h • x1 + h ^ 2 • (x2 + (1 / 2 : ℝ) • q12) + h ^ 3 • (x3 + (1 / 2 : ℝ) • q22 + (1 / 6 : ℝ) • c111)) := by
  rw [hl, hq, hc]
  module

/-- Substituting `v = h u₁ + h² u₂ + h³ u₃ + O(hⁿ)` into the right-hand side. -/
theorem substitute (J : Jet G Y a e D1 D2 D3) (hn : 1 ≤ n) (hn4 : n ≤ 4) {u1 u2 u3 : ℝ → X} (h1 : BO a e u1) (h2 : BO a e u2) (h3 : BO a e u3)
    {r : ℝ → ℝ → X} (hr : UO a e n r) (hv : ∀ t h, v t h = h • u1 t + h ^ 2 • u2 t + h ^ 3 • u3 t + r t h) :
    UO a e n fun t h => G (Y t + v t h) - (G (Y t) + h • D1 t (u1 t) + h ^ 2 • (D1 t (u2 t) + (1 / 2 : ℝ) • D2 t (u1 t) (u1 t)) +
      h ^ 3 • (D1 t (u3 t) + (1 / 2 : ℝ) • (D2 t (u1 t) (u2 t) + D2 t (u2 t) (u1 t)) + (1 / 6 : ℝ) • D3 t (u1 t) (u1 t) (u1 t))) := by
  have t1 : UO a e 1 fun t h => h • u1 t := (h1.term (m := 1) 1 le_rfl).congr fun t s => by rw [pow_one]
  have t2 : UO a e 2 fun t h => h ^ 2 • u2 t := h2.term 2 le_rfl
  have t3 : UO a e 3 fun t h => h ^ 3 • u3 t := h3.term 3 le_rfl
  have V1 : UO a e 1 v := (((t1.add (t2.mono one_le_two)).add (t3.mono (by norm_num))).add (hr.mono hn)).congr fun t s => (hv t s).symm
  -- the remainder of Taylor's formula
  have R4 : UO a e 4 fun t h => G (Y t + v t h) - G (Y t) - D1 t (v t h) - (1 / 2 : ℝ) • D2 t (v t h) (v t h) -
      (1 / 6 : ℝ) • D3 t (v t h) (v t h) (v t h) := by
    obtain ⟨ρ, M, hρ, hM, hrem⟩ := J.rem
    obtain ⟨C, h₀, p1, p2, p3, p4⟩ := V1
    refine ⟨M * C ^ 4, min h₀ (ρ / (C + 1)), lt_min p1 (by positivity), (min_le_left _ _).trans p2, by positivity, fun t ht h hh hte => ?_⟩
    have e1 := p4 t ht h ⟨hh.1, hh.2.trans (min_le_left _ _)⟩ hte
    rw [pow_one] at e1
    have e2 : C * h ≤ ρ := by
      have : h ≤ ρ / (C + 1) := hh.2.trans (min_le_right _ _)
      rw [le_div_iff₀ (by positivity)] at this
      nlinarith [hh.1]
    refine (hrem t ht _ (e1.trans e2)).trans ?_
    rw [mul_assoc, ← mul_pow]
    exact mul_le_mul_of_nonneg_left (pow_le_pow_left₀ (norm_nonneg _) e1 4) hM
  have L : UO a e n fun t h => D1 t (r t h) := hr.lin J.b1
  -- second order terms
  have S : UO a e (min 3 n) fun t h => h ^ 3 • u3 t + r t h := (t3.mono (min_le_left _ _)).add (hr.mono (min_le_right _ _))
  have Q : UO a e n fun t h => D2 t (h ^ 2 • u2 t) (h ^ 2 • u2 t) + D2 t (h ^ 3 • u3 t + r t h) (v t h) +
      D2 t (h • u1 t + h ^ 2 • u2 t) (h ^ 3 • u3 t + r t h) := by
    refine (((UO.bil J.b2 t2 t2).mono (by omega)).add ((UO.bil J.b2 S V1).mono (by omega))).add ((UO.bil J.b2 (t1.add (t2.mono one_le_two)) S).mono (by omega))
  -- third order terms
  have S' : UO a e (min 2 n) fun t h => h ^ 2 • u2 t + (h ^ 3 • u3 t + r t h) :=
    (t2.mono (min_le_left _ _)).add (S.mono (by omega))
  have T : UO a e n fun t h => D3 t (h ^ 2 • u2 t + (h ^ 3 • u3 t + r t h)) (v t h) (v t h) +
      D3 t (h • u1 t) (h ^ 2 • u2 t + (h ^ 3 • u3 t + r t h)) (v t h) + D3 t (h • u1 t) (h • u1 t) (h ^ 2 • u2 t + (h ^ 3 • u3 t + r t h)) :=
    (((UO.tri J.b3 S' V1 V1).mono (by omega)).add ((UO.tri J.b3 t1 S' V1).mono (by omega))).add ((UO.tri J.b3 t1 t1 S').mono (by omega))
  refine ((((R4.mono hn4).add L).add (Q.smul (1 / 2))).add (T.smul (1 / 6))).congr fun t h => ?_
  refine substitute_id _ _ (D1 t (v t h)) _ _ _ _ (v t h) (D2 t (v t h) (v t h)) (D3 t (v t h) (v t h) (v t h)) _ _ _ _ _ h ?_ ?_ ?_
  · rw [hv t h, map_add, map_add, map_add, map_smul, map_smul, map_smul]
  · rw [quad_id (D2 t) (h • u1 t) (h ^ 2 • u2 t) (h ^ 3 • u3 t + r t h) (v t h) (by rw [hv t h]; abel), bil_smul, bil_smul, bil_smul, smul_add,
      show h * h = h ^ 2 by ring, show h * h ^ 2 = h ^ 3 by ring, show h ^ 2 * h = h ^ 3 by ring]
  · rw [cub_id (D3 t) (h • u1 t) (h ^ 2 • u2 t + (h ^ 3 • u3 t + r t h)) (v t h) (by rw [hv t h]; abel), tri_smul]

end orders

end Mapleaf.Motion.Lim
