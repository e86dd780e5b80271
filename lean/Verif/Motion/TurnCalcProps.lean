import Verif.Motion.TurnOrderProps
import Mathlib.Analysis.SpecialFunctions.Exponential
import Mathlib.Analysis.Calculus.Deriv.Mul
import Mathlib.Analysis.Calculus.Deriv.Comp
import Mathlib.Analysis.Calculus.Deriv.Pow

/-! # C94: short pieces of a motion, and exponentials of small elements -/

namespace Mapleaf.Motion.Turn
open Set Mapleaf.Motion.Lim Filter Topology

section taylor
variable {F : Type} [NormedAddCommGroup F] [NormedSpace ℝ F] {f φ : ℝ → F} {a e Γ t h : ℝ}

theorem shift_deriv (hd : ∀ t ∈ Icc a e, HasDerivWithinAt f (φ t) (Icc a e) t) (ht : t ∈ Icc a e) (hte : t + h ≤ e) (s : ℝ)
    (hs : s ∈ Icc 0 h) : HasDerivWithinAt (fun s => f (t + s)) (φ (t + s)) (Icc 0 h) s := by
  have hmem : t + s ∈ Icc a e := ⟨by linarith [ht.1, hs.1], by linarith [hs.2]⟩
  have := (hd (t + s) hmem).scomp s (((hasDerivAt_id s).const_add t).hasDerivWithinAt (s := Icc 0 h)) (fun z hz =>
    (⟨by simp only [id]; linarith [ht.1, hz.1], by simp only [id]; linarith [hz.2]⟩ : t + id z ∈ Icc a e))
  simpa [Function.comp_def] using this

/-- a function with a Lipschitz derivative is its tangent, up to second order -/
theorem taylor_first (hd : ∀ t ∈ Icc a e, HasDerivWithinAt f (φ t) (Icc a e) t) (hΓ : 0 ≤ Γ)
    (hl : ∀ s ∈ Icc a e, ∀ t ∈ Icc a e, ‖φ s - φ t‖ ≤ Γ * |s - t|) (ht : t ∈ Icc a e) (h0 : 0 ≤ h) (hte : t + h ≤ e) :
    ‖f (t + h) - f t - h • φ t‖ ≤ Γ * h ^ 2 := by
  have hdd : ∀ s ∈ Icc (0 : ℝ) h, HasDerivWithinAt (fun s => f (t + s) - s • φ t) (φ (t + s) - φ t) (Icc 0 h) s := by
    intro s hs
    have h1 : HasDerivWithinAt (fun s : ℝ => s • φ t) (φ t) (Icc 0 h) s := by
      simpa using ((hasDerivAt_id s).smul_const (φ t)).hasDerivWithinAt
    exact (shift_deriv hd ht hte s hs).sub h1
  have := norm_image_sub_le_of_norm_deriv_le_segment' hdd (C := Γ * h) (fun s hs => by
    have hmem : t + s ∈ Icc a e := ⟨by linarith [ht.1, hs.1], by linarith [hs.2]⟩
    refine (hl _ hmem _ ht).trans (mul_le_mul_of_nonneg_left ?_ hΓ)
    rw [add_sub_cancel_left, abs_of_nonneg hs.1]
    exact hs.2.le) h ⟨h0, le_rfl⟩
  simp only [add_zero, zero_smul, sub_zero] at this
  rw [show f (t + h) - f t - h • φ t = f (t + h) - h • φ t - f t by abel]
  refine this.trans (le_of_eq (by ring))

/-- integrating an expansion of the derivative -/
theorem taylor_second {ψ : ℝ → F} (hd : ∀ t ∈ Icc a e, HasDerivWithinAt f (φ t) (Icc a e) t) (hΓ : 0 ≤ Γ) (ht : t ∈ Icc a e) (h0 : 0 ≤ h)
    (hte : t + h ≤ e) (hx : ∀ s, 0 ≤ s → s ≤ h → ‖φ (t + s) - φ t - s • ψ t‖ ≤ Γ * s ^ 2) :
    ‖f (t + h) - f t - (h • φ t + (h ^ 2 / 2) • ψ t)‖ ≤ Γ * h ^ 3 := by
  have hdd : ∀ s ∈ Icc (0 : ℝ) h, HasDerivWithinAt (fun s => f (t + s) - (s • φ t + (s ^ 2 / 2) • ψ t)) (φ (t + s) - (φ t + s • ψ t)) (Icc 0 h) s := by
    intro s hs
    have h1 : HasDerivAt (fun s : ℝ => s • φ t) (φ t) s := by simpa using (hasDerivAt_id s).smul_const (φ t)
    have h2 : HasDerivAt (fun s : ℝ => (s ^ 2 / 2) • ψ t) (s • ψ t) s := by
      simpa using ((hasDerivAt_pow 2 s).div_const 2).smul_const (ψ t)
    exact (shift_deriv hd ht hte s hs).sub (h1.add h2).hasDerivWithinAt
  have := norm_image_sub_le_of_norm_deriv_le_segment' hdd (C := Γ * h ^ 2) (fun s hs => by
    rw [← sub_sub]
    exact (hx s hs.1 hs.2.le).trans (mul_le_mul_of_nonneg_left (pow_le_pow_left₀ hs.1 hs.2.le 2) hΓ)) h ⟨h0, le_rfl⟩
  simp only [add_zero, zero_smul, sub_zero, ne_eq, OfNat.ofNat_ne_zero, not_false_eq_true, zero_pow, zero_div] at this
  rw [show f (t + h) - f t - (h • φ t + (h ^ 2 / 2) • ψ t) = f (t + h) - (h • φ t + (h ^ 2 / 2) • ψ t) - f t by abel]
  refine this.trans (le_of_eq (by ring))

/-- a function with a bounded derivative is Lipschitz -/
theorem lip_of_bound (hd : ∀ t ∈ Icc a e, HasDerivWithinAt f (φ t) (Icc a e) t) (hb : ∀ t ∈ Icc a e, ‖φ t‖ ≤ Γ) :
    ∀ s ∈ Icc a e, ∀ t ∈ Icc a e, ‖f s - f t‖ ≤ Γ * |s - t| := by
  intro s hs t ht
  have := (convex_Icc a e).norm_image_sub_le_of_norm_hasDerivWithin_le hd hb ht hs
  rwa [Real.norm_eq_abs] at this

end taylor

section exp
variable (A : Type) [NormedRing A] [NormedAlgebra ℝ A] [CompleteSpace A]
open NormedSpace

/-- near zero the exponential brings differences to at most their double -/
theorem exp_lip : ∃ η : ℝ, 0 < η ∧ ∀ u v : A, ‖u‖ ≤ η → ‖v‖ ≤ η → ‖exp u - exp v‖ ≤ 2 * ‖u - v‖ := by
  have h := (hasStrictFDerivAt_exp_zero (𝕂 := ℝ) (𝔸 := A)).isLittleO.def one_pos
  rw [nhds_prod_eq, Metric.nhds_basis_closedBall.prod_self.eventually_iff] at h
  obtain ⟨η, hη, h⟩ := h
  refine ⟨η, hη, fun u v hu hv => ?_⟩
  have := h (x := (u, v)) ⟨by simpa using hu, by simpa using hv⟩
  simp only [ContinuousLinearMap.one_apply, one_mul] at this
  have h2 : ‖exp u - exp v‖ ≤ ‖u - v‖ + ‖exp u - exp v - (u - v)‖ := norm_le_norm_add_norm_sub' _ _
  linarith

theorem exp_order (n : ℕ) : ∃ C η : ℝ, 0 ≤ C ∧ 0 < η ∧ ∀ u : A, ‖u‖ ≤ η → ‖exp u - (expSeries ℝ A).partialSum n u‖ ≤ C * ‖u‖ ^ n := by
  have h := (exp_hasFPowerSeriesAt_zero (𝕂 := ℝ) (𝔸 := A)).isBigO_sub_partialSum_pow n
  obtain ⟨C, hC, h⟩ := h.exists_nonneg
  have h := h.bound
  rw [Metric.nhds_basis_closedBall.eventually_iff] at h
  obtain ⟨η, hη, h⟩ := h
  refine ⟨C, η, hC, hη, fun u hu => ?_⟩
  have := h (x := u) (by simpa using hu)
  simpa using this

theorem exp_partial_two (u : A) : (expSeries ℝ A).partialSum 2 u = 1 + u := by
  simp [FormalMultilinearSeries.partialSum, Finset.sum_range_succ, expSeries_apply_eq]

theorem exp_partial_three (u : A) : (expSeries ℝ A).partialSum 3 u = 1 + u + (1 / 2 : ℝ) • (u * u) := by
  simp [FormalMultilinearSeries.partialSum, Finset.sum_range_succ, expSeries_apply_eq, sq]

theorem exp_partial_four (u : A) : (expSeries ℝ A).partialSum 4 u = 1 + u + (1 / 2 : ℝ) • (u * u) + (1 / 6 : ℝ) • (u * u * u) := by
  simp [FormalMultilinearSeries.partialSum, Finset.sum_range_succ, expSeries_apply_eq, sq, pow_succ, Nat.factorial]

end exp

section turn
variable {A : Type} [NormedRing A] [NormedAlgebra ℝ A] [CompleteSpace A] {q ω ω' : ℝ → A} {a e B Γ : ℝ}
open NormedSpace

theorem turn_lip (hd : ∀ t ∈ Icc a e, HasDerivWithinAt q (ω t * q t) (Icc a e) t) (h1 : ∀ t ∈ Icc a e, ‖q t‖ ≤ 1) (hB : 0 ≤ B)
    (hω : ∀ t ∈ Icc a e, ‖ω t‖ ≤ B) : ∀ s ∈ Icc a e, ∀ t ∈ Icc a e, ‖q s - q t‖ ≤ B * |s - t| :=
  lip_of_bound hd fun t ht => (norm_mul_le _ _).trans ((mul_le_mul (hω t ht) (h1 t ht) (norm_nonneg _) hB).trans (mul_one B).le)

/-- products of bounded Lipschitz functions -/
theorem mul_lip {f g : ℝ → A} {F G Cf Cg : ℝ} (hF : 0 ≤ F) (hG : 0 ≤ G) (hf : ∀ t ∈ Icc a e, ‖f t‖ ≤ F) (hg : ∀ t ∈ Icc a e, ‖g t‖ ≤ G)
    (lf : ∀ s ∈ Icc a e, ∀ t ∈ Icc a e, ‖f s - f t‖ ≤ Cf * |s - t|) (lg : ∀ s ∈ Icc a e, ∀ t ∈ Icc a e, ‖g s - g t‖ ≤ Cg * |s - t|) :
    ∀ s ∈ Icc a e, ∀ t ∈ Icc a e, ‖f s * g s - f t * g t‖ ≤ (Cf * G + F * Cg) * |s - t| := by
  intro s hs t ht
  rw [show f s * g s - f t * g t = (f s - f t) * g s + f t * (g s - g t) by noncomm_ring]
  have e1 := (norm_mul_le (f s - f t) (g s)).trans (mul_le_mul (lf s hs t ht) (hg s hs) (norm_nonneg _) ((norm_nonneg _).trans (lf s hs t ht)))
  have e2 := (norm_mul_le (f t) (g s - g t)).trans (mul_le_mul (hf t ht) (lg s hs t ht) (norm_nonneg _) hF)
  refine (norm_add_le _ _).trans ((add_le_add e1 e2).trans (le_of_eq (by ring)))

/-- a turning motion is a turn by its rate, up to second order -/
theorem turn_tangent (hd : ∀ t ∈ Icc a e, HasDerivWithinAt q (ω t * q t) (Icc a e) t) (h1 : ∀ t ∈ Icc a e, ‖q t‖ ≤ 1) (hB : 0 ≤ B)
    (hω : ∀ t ∈ Icc a e, ‖ω t‖ ≤ B) (hΓ : 0 ≤ Γ) (hl : ∀ s ∈ Icc a e, ∀ t ∈ Icc a e, ‖ω s - ω t‖ ≤ Γ * |s - t|) :
    ∃ C η : ℝ, 0 ≤ C ∧ 0 < η ∧ ∀ t ∈ Icc a e, ∀ h, 0 ≤ h → h ≤ η → t + h ≤ e → ‖q (t + h) - exp (h • ω t) * q t‖ ≤ C * h ^ 2 := by
  obtain ⟨C, η, hC, hη, key⟩ := exp_order A 2
  refine ⟨(Γ * 1 + B * B) + C * B ^ 2, η / (B + 1), by positivity, by positivity, fun t ht h h0 hh hte => ?_⟩
  have hv : ‖h • ω t‖ ≤ h * B := by
    rw [norm_smul, Real.norm_eq_abs, abs_of_nonneg h0]
    exact mul_le_mul_of_nonneg_left (hω t ht) h0
  have hvη : ‖h • ω t‖ ≤ η := by
    rw [le_div_iff₀ (by positivity)] at hh
    linarith
  have e1 := taylor_first hd (by positivity) (mul_lip hB zero_le_one hω h1 hl (turn_lip hd h1 hB hω)) ht h0 hte
  have e2 := key (h • ω t) hvη
  rw [exp_partial_two] at e2
  have e3 : ‖(exp (h • ω t) - (1 + h • ω t)) * q t‖ ≤ C * B ^ 2 * h ^ 2 := by
    refine (norm_mul_le _ _).trans ((mul_le_mul e2 (h1 t ht) (norm_nonneg _) (by positivity)).trans ?_)
    rw [mul_one, mul_assoc, ← mul_pow, mul_comm B h]
    exact mul_le_mul_of_nonneg_left (pow_le_pow_left₀ (norm_nonneg _) hv 2) hC
  have e4 : q (t + h) - exp (h • ω t) * q t = (q (t + h) - q t - h • (ω t * q t)) - (exp (h • ω t) - (1 + h • ω t)) * q t := by
    rw [sub_mul, add_mul, one_mul, smul_mul_assoc]
    abel
  rw [e4]
  refine (norm_sub_le _ _).trans ((add_le_add e1 e3).trans (le_of_eq (by ring)))

/-- a turning motion is a turn by the first two terms of its rate, up to third order -/
theorem turn_tangent2 (hd : ∀ t ∈ Icc a e, HasDerivWithinAt q (ω t * q t) (Icc a e) t) (h1 : ∀ t ∈ Icc a e, ‖q t‖ ≤ 1) (hB : 0 ≤ B)
    (hω : ∀ t ∈ Icc a e, ‖ω t‖ ≤ B) (hΓ : 0 ≤ Γ) (hdω : ∀ t ∈ Icc a e, HasDerivWithinAt ω (ω' t) (Icc a e) t) (hb' : ∀ t ∈ Icc a e, ‖ω' t‖ ≤ Γ)
    (hl' : ∀ s ∈ Icc a e, ∀ t ∈ Icc a e, ‖ω' s - ω' t‖ ≤ Γ * |s - t|) :
    ∃ C η : ℝ, 0 ≤ C ∧ 0 < η ∧ ∀ t ∈ Icc a e, ∀ h, 0 ≤ h → h ≤ η → t + h ≤ e →
      ‖q (t + h) - exp (h • ω t + (h ^ 2 / 2) • ω' t) * q t‖ ≤ C * h ^ 3 := by
  obtain ⟨C, η, hC, hη, key⟩ := exp_order A 3
  have hl := lip_of_bound hdω hb'
  have lq := turn_lip hd h1 hB hω
  have lφ := mul_lip hB zero_le_one hω h1 hl lq
  have bφ : ∀ t ∈ Icc a e, ‖ω t * q t‖ ≤ B := fun t ht =>
    (norm_mul_le _ _).trans ((mul_le_mul (hω t ht) (h1 t ht) (norm_nonneg _) hB).trans (mul_one B).le)
  have lψ1 := mul_lip hΓ zero_le_one hb' h1 hl' lq
  have lψ2 := mul_lip hB hB hω bφ hl lφ
  set M := (Γ * 1 + Γ * B) + (Γ * B + B * (Γ * 1 + B * B)) with hM
  have hM0 : 0 ≤ M := by positivity
  have lψ : ∀ s ∈ Icc a e, ∀ t ∈ Icc a e, ‖(ω' s * q s + ω s * (ω s * q s)) - (ω' t * q t + ω t * (ω t * q t))‖ ≤ M * |s - t| := by
    intro s hs t ht
    rw [add_sub_add_comm]
    refine (norm_add_le _ _).trans ((add_le_add (lψ1 s hs t ht) (lψ2 s hs t ht)).trans (le_of_eq (by rw [hM]; ring)))
  have dφ : ∀ t ∈ Icc a e, HasDerivWithinAt (fun t => ω t * q t) (ω' t * q t + ω t * (ω t * q t)) (Icc a e) t := fun t ht => (hdω t ht).mul (hd t ht)
  refine ⟨M + (C * (B + Γ) ^ 3 + Γ * (B + Γ)), min 1 (η / (B + Γ + 1)), by positivity, lt_min one_pos (by positivity), fun t ht h h0 hh hte => ?_⟩
  have hle1 : h ≤ 1 := hh.trans (min_le_left _ _)
  have hle2 : h ≤ η / (B + Γ + 1) := hh.trans (min_le_right _ _)
  rw [le_div_iff₀ (by positivity)] at hle2
  set v := h • ω t + (h ^ 2 / 2) • ω' t with hv
  have n1 : ‖h • ω t‖ ≤ h * B := by
    rw [norm_smul, Real.norm_eq_abs, abs_of_nonneg h0]
    exact mul_le_mul_of_nonneg_left (hω t ht) h0
  have n2 : ‖(h ^ 2 / 2) • ω' t‖ ≤ h ^ 2 / 2 * Γ := by
    rw [norm_smul, Real.norm_eq_abs, abs_of_nonneg (by positivity)]
    exact mul_le_mul_of_nonneg_left (hb' t ht) (by positivity)
  have hsq : h ^ 2 / 2 ≤ h := by
    have := mul_le_mul_of_nonneg_left hle1 h0
    rw [← sq, mul_one] at this
    linarith [sq_nonneg h]
  have hvn : ‖v‖ ≤ h * (B + Γ) := by
    refine (norm_add_le _ _).trans ((add_le_add n1 (n2.trans (mul_le_mul_of_nonneg_right hsq hΓ))).trans (le_of_eq (by ring)))
  have hvη : ‖v‖ ≤ η := by linarith
  have e1 := taylor_second (ψ := fun t => ω' t * q t + ω t * (ω t * q t)) hd hM0 ht h0 hte (fun s hs0 hs1 =>
    taylor_first dφ hM0 lψ ht hs0 (by linarith))
  have e2 := key v hvη
  rw [exp_partial_three] at e2
  have e3 : ‖(exp v - (1 + v + (1 / 2 : ℝ) • (v * v))) * q t‖ ≤ C * (B + Γ) ^ 3 * h ^ 3 := by
    refine (norm_mul_le _ _).trans ((mul_le_mul e2 (h1 t ht) (norm_nonneg _) (by positivity)).trans ?_)
    rw [mul_one, mul_assoc, ← mul_pow, mul_comm (B + Γ) h]
    exact mul_le_mul_of_nonneg_left (pow_le_pow_left₀ (norm_nonneg _) hvn 3) hC
  have e5 : ‖((1 / 2 : ℝ) • (v * ((h ^ 2 / 2) • ω' t) + ((h ^ 2 / 2) • ω' t) * (h • ω t))) * q t‖ ≤ Γ * (B + Γ) * h ^ 3 := by
    refine (norm_mul_le _ _).trans (((mul_le_mul_of_nonneg_left (h1 t ht) (norm_nonneg _)).trans (mul_one _).le).trans ?_)
    rw [norm_smul, Real.norm_eq_abs, abs_of_pos (by norm_num : (0 : ℝ) < 1 / 2)]
    have p1 := (norm_mul_le v ((h ^ 2 / 2) • ω' t)).trans (mul_le_mul hvn n2 (norm_nonneg _) (by positivity))
    have p2 := (norm_mul_le ((h ^ 2 / 2) • ω' t) (h • ω t)).trans (mul_le_mul n2 n1 (norm_nonneg _) (by positivity))
    have p3 := (norm_add_le (v * ((h ^ 2 / 2) • ω' t)) (((h ^ 2 / 2) • ω' t) * (h • ω t))).trans (add_le_add p1 p2)
    have p4 : 0 ≤ h ^ 3 * Γ * (B + Γ) := by positivity
    have p5 : 0 ≤ h ^ 3 * Γ * Γ := by positivity
    calc _ ≤ 1 / 2 * (h * (B + Γ) * (h ^ 2 / 2 * Γ) + h ^ 2 / 2 * Γ * (h * B)) := mul_le_mul_of_nonneg_left p3 (by norm_num)
      _ ≤ _ := by linarith
  have e4 : q (t + h) - exp v * q t = (q (t + h) - q t - (h • (ω t * q t) + (h ^ 2 / 2) • (ω' t * q t + ω t * (ω t * q t)))) -
      (exp v - (1 + v + (1 / 2 : ℝ) • (v * v))) * q t - ((1 / 2 : ℝ) • (v * ((h ^ 2 / 2) • ω' t) + ((h ^ 2 / 2) • ω' t) * (h • ω t))) * q t := by
    have e6 : (1 / 2 : ℝ) • (v * v) = (1 / 2 : ℝ) • (v * ((h ^ 2 / 2) • ω' t) + ((h ^ 2 / 2) • ω' t) * (h • ω t)) + (h ^ 2 / 2) • (ω t * ω t) := by
      rw [hv]
      simp only [mul_add, add_mul, smul_mul_assoc, mul_smul_comm, smul_add, smul_smul]
      module
    rw [e6, hv]
    simp only [sub_mul, add_mul, one_mul, smul_mul_assoc, mul_assoc, smul_add]
    abel
  rw [e4]
  refine (norm_sub_le _ _).trans ((add_le_add ((norm_sub_le _ _).trans (add_le_add e1 e3)) e5).trans (le_of_eq (by ring)))

end turn

end Mapleaf.Motion.Turn
