import Verif.Motion.LimitMotionProps

/-! # C93: convergence without smoothness, to the first order -/

namespace Mapleaf.Motion.Lim
open Set

section first
variable {E : Type} [NormedAddCommGroup E] [NormedSpace ℝ E] {f : ℝ → E → E} {y : ℝ → E} {a e L ρ B R Γ : ℝ}

/-- `y` is a motion on `[a, e]` around which the right-hand side is only Lipschitz: in the state, and in time along the motion. -/
structure Rough (f : ℝ → E → E) (y : ℝ → E) (a e L ρ B Γ : ℝ) : Prop where
  lip : ∀ t ∈ Icc a e, ∀ x z, ‖x - y t‖ ≤ ρ → ‖z - y t‖ ≤ ρ → ‖f t x - f t z‖ ≤ L * ‖x - z‖
  bound : ∀ t ∈ Icc a e, ‖f t (y t)‖ ≤ B
  along : ∀ s ∈ Icc a e, ∀ t ∈ Icc a e, ‖f s (y s) - f t (y t)‖ ≤ Γ * |s - t|
  sol : ∀ t ∈ Icc a e, HasDerivWithinAt y (f t (y t)) (Icc a e) t
  hL : 0 ≤ L
  hρ : 0 < ρ
  hB : 0 ≤ B
  hΓ : 0 ≤ Γ

theorem Rough.tube (M : Rough f y a e L ρ B Γ) : Tube f y a e L ρ B where
  lip := M.lip
  bound := M.bound
  path := fun s hs t ht => by
    have := (convex_Icc a e).norm_image_sub_le_of_norm_hasDerivWithin_le M.sol M.bound ht hs
    rwa [Real.norm_eq_abs] at this
  hL := M.hL
  hρ := M.hρ
  hB := M.hB

/-- One step of the motion is its derivative, up to the square of the step. -/
theorem Rough.tangent (M : Rough f y a e L ρ B Γ) {t h : ℝ} (ht : t ∈ Icc a e) (h0 : 0 ≤ h) (hte : t + h ≤ e) :
    ‖y (t + h) - y t - h • f t (y t)‖ ≤ Γ * h * h := by
  have hsub : Icc t (t + h) ⊆ Icc a e := Icc_subset_Icc ht.1 hte
  have hd : ∀ s ∈ Icc t (t + h), HasDerivWithinAt (fun s => y s - s • f t (y t)) (f s (y s) - f t (y t)) (Icc t (t + h)) s := fun s hs => by
    have e2 : HasDerivAt (fun s : ℝ => s • f t (y t)) (f t (y t)) s := by simpa using (hasDerivAt_id s).smul_const (f t (y t))
    exact ((M.sol s (hsub hs)).mono hsub).sub e2.hasDerivWithinAt
  have := norm_image_sub_le_of_norm_deriv_le_segment' hd (C := Γ * h) (fun s hs => by
    refine (M.along s (hsub ⟨hs.1, hs.2.le⟩) t ht).trans (mul_le_mul_of_nonneg_left ?_ M.hΓ)
    rw [abs_of_nonneg (by linarith [hs.1])]
    linarith [hs.2]) (t + h) ⟨by linarith, le_rfl⟩
  rw [show y (t + h) - (t + h) • f t (y t) - (y t - t • f t (y t)) = y (t + h) - y t - h • f t (y t) by module, show t + h - t = h by ring] at this
  exact this

/-- The error of one step is of the second order, but for the defect of the weights. -/
theorem Rough.local_error (M : Rough f y a e L ρ B Γ) (q : Coef) (hR : 0 ≤ R) (hq : q.Bounded R) {t h δ : ℝ} (ht : t ∈ Icc a e) (h0 : 0 ≤ h)
    (hte : t + h ≤ e) (hsmall : h * (q.s * R * (B + L * ρ) + B) ≤ ρ / 2) (hδ : |∑ i ∈ Finset.range q.s, q.b i - 1| ≤ δ) :
    ‖rk q f t (y t) h - y (t + h)‖ ≤ h * (h * (q.s * R * (L * (q.s * R * (B + L * ρ) + B) + Γ) + Γ) + δ * B) := by
  have H := M.tube
  have hL := M.hL
  have hB := M.hB
  have hρ := M.hρ
  have hΓ := M.hΓ
  have hK : 0 ≤ B + L * ρ := by positivity
  have hx : ‖y t - y t‖ ≤ ρ / 2 := by simpa using (half_pos H.hρ).le
  have ins := inside H q hR hq ht h0 hte hsmall hx
  have hstage : ∀ i < q.s, ‖stage q f t (y t) h i - f t (y t)‖ ≤ h * (L * (q.s * R * (B + L * ρ) + B) + Γ) := by
    intro i hi
    have hci := hq.c i
    have hti : t + h * q.c i ∈ Icc a e := ⟨by have := mul_nonneg h0 hci.1; linarith [ht.1], by nlinarith [hci.2]⟩
    have habs : |t + h * q.c i - t| ≤ h := by
      rw [add_sub_cancel_left, abs_of_nonneg (mul_nonneg h0 hci.1)]
      nlinarith [hci.2]
    have hp : ‖point q f t (y t) h i - y (t + h * q.c i)‖ ≤ h * (q.s * R * (B + L * ρ) + B) := by
      have e1 : point q f t (y t) h i - y (t + h * q.c i) =
          h • (∑ j ∈ Finset.range i, q.A i j • stage q f t (y t) h j) - (y (t + h * q.c i) - y t) := by unfold point; abel
      rw [e1]
      refine (norm_sub_le _ _).trans ?_
      rw [norm_smul, Real.norm_eq_abs, abs_of_nonneg h0]
      have e2 := sum_le_card (u := stage q f t (y t) h) (w := q.A i) hi.le hR hK (hq.A i) (fun j hj => (ins j (by omega)).2)
      have e3 := (H.path _ hti t ht).trans (mul_le_mul_of_nonneg_left habs hB)
      have e4 := mul_le_mul_of_nonneg_left e2 h0
      linarith
    have e5 := (M.lip _ hti _ _ (ins i hi.le).1 (by simpa using hρ.le)).trans (mul_le_mul_of_nonneg_left hp hL)
    have e6 := (M.along _ hti t ht).trans (mul_le_mul_of_nonneg_left habs hΓ)
    rw [stage_point]
    refine (norm_sub_le_norm_sub_add_norm_sub _ (f (t + h * q.c i) (y (t + h * q.c i))) _).trans ((add_le_add e5 e6).trans (le_of_eq (by ring)))
  have e1 : rk q f t (y t) h - y (t + h) = h • (∑ i ∈ Finset.range q.s, q.b i • (stage q f t (y t) h i - f t (y t)) +
      (∑ i ∈ Finset.range q.s, q.b i - 1) • f t (y t)) - (y (t + h) - y t - h • f t (y t)) := by
    unfold rk incr
    simp only [smul_sub, Finset.sum_sub_distrib, sub_smul, ← Finset.sum_smul]
    module
  have e2 := sum_le_card (u := fun i => stage q f t (y t) h i - f t (y t)) (w := q.b) (le_refl q.s) hR
    (K := h * (L * (q.s * R * (B + L * ρ) + B) + Γ)) (by positivity) hq.b hstage
  have e3 : ‖(∑ i ∈ Finset.range q.s, q.b i - 1) • f t (y t)‖ ≤ δ * B := by
    rw [norm_smul, Real.norm_eq_abs]
    exact mul_le_mul hδ (M.bound t ht) (norm_nonneg _) ((abs_nonneg _).trans hδ)
  rw [e1]
  refine (norm_sub_le _ _).trans ?_
  rw [norm_smul, Real.norm_eq_abs, abs_of_nonneg h0]
  have e4 := mul_le_mul_of_nonneg_left ((norm_add_le _ _).trans (add_le_add e2 e3)) h0
  have e5 := M.tangent ht h0 hte
  refine (add_le_add e4 e5).trans (le_of_eq (by ring))

/-- **C93, first order.** Around a motion with a merely Lipschitz right-hand side, every explicit method with `s` stages whose weights add up
to 1 within `δ ≤ δ₀` stays within `C (h + δ)` of the motion, for any sequence of steps of at most `h ≤ h₀`. -/
theorem rk_first_order (M : Rough f y a e L ρ B Γ) (s : ℕ) (hR : 0 ≤ R) : ∃ C h₀ δ₀ : ℝ, 0 ≤ C ∧ 0 < h₀ ∧ 0 < δ₀ ∧
    ∀ δ ∈ Icc 0 δ₀, ∀ q : Coef, q.s = s → q.Bounded R → |∑ i ∈ Finset.range q.s, q.b i - 1| ≤ δ →
      ∀ h ∈ Ioc 0 h₀, ∀ hs : List ℝ, (∀ s ∈ hs, s ∈ Ioc 0 h) → a + hs.sum ≤ e →
        ‖march (rk q f) a (y a) hs - y (a + hs.sum)‖ ≤ C * (h + δ) := by
  have H := M.tube
  have hL := M.hL
  have hB := M.hB
  have hρ := M.hρ
  have hΓ := M.hΓ
  have hΛ := lam_nonneg s hR hL
  set Kb := s * R * (B + L * ρ) + B with hKb
  have hKb0 : 0 ≤ Kb := by positivity
  set D := s * R * (L * Kb + Γ) + Γ + B with hD
  have hD0 : 0 ≤ D := by positivity
  set T := |e - a| with hT
  set X := D * T * Real.exp (lam s R L * T) with hX
  have hX0 : 0 ≤ X := by positivity
  have hδ : 0 < ρ / (4 * (X + 1)) := by positivity
  refine ⟨X, min 1 (min (ρ / (2 * (Kb + 1))) (ρ / (4 * (X + 1)))), ρ / (4 * (X + 1)), hX0, lt_min one_pos (lt_min (by positivity) hδ), hδ, ?_⟩
  intro δ hδ' q hqs hq hsum h hh hs hsteps hend
  subst hqs
  have hle1 : h ≤ 1 := hh.2.trans (min_le_left _ _)
  have hhK : h * Kb ≤ ρ / 2 := by
    have : h ≤ ρ / (2 * (Kb + 1)) := hh.2.trans ((min_le_right _ _).trans (min_le_left _ _))
    rw [le_div_iff₀ (by positivity)] at this
    linarith [hh.1]
  have hhX : h ≤ ρ / (4 * (X + 1)) := hh.2.trans ((min_le_right _ _).trans (min_le_right _ _))
  have hh0 := hh.1.le
  have hδ0 := hδ'.1
  have hsum0 : 0 ≤ hs.sum := List.sum_nonneg fun z hz => (hsteps z hz).1.le
  have hsumT : hs.sum ≤ T := (by linarith : hs.sum ≤ e - a).trans (le_abs_self _)
  set τ := D * (h + δ) with hτ
  have hτ0 : 0 ≤ τ := by positivity
  have hD1 : q.s * R * (L * Kb + Γ) + Γ ≤ D := by rw [hD]; linarith
  have hD2 : B ≤ D := by rw [hD]; have : 0 ≤ q.s * R * (L * Kb + Γ) := by positivity
                         linarith
  have cons : ∀ t ∈ Icc a e, ∀ s ∈ Ioc 0 h, t + s ≤ e → ‖rk q f t (y t) s - y (t + s)‖ ≤ s * τ := by
    intro t ht s hs1 hte
    have hsK : s * Kb ≤ ρ / 2 := (mul_le_mul_of_nonneg_right hs1.2 hKb0).trans hhK
    refine (M.local_error q hR hq ht hs1.1.le hte hsK hsum).trans (mul_le_mul_of_nonneg_left ?_ hs1.1.le)
    have h1 : s * (q.s * R * (L * Kb + Γ) + Γ) ≤ h * D := mul_le_mul hs1.2 hD1 (by positivity) hh0
    have h2 : δ * B ≤ δ * D := mul_le_mul_of_nonneg_left hD2 hδ0
    rw [hτ]
    linarith
  have hfin : τ * hs.sum * Real.exp (lam q.s R L * hs.sum) ≤ X * (h + δ) := by
    calc τ * hs.sum * Real.exp (lam q.s R L * hs.sum) ≤ τ * T * Real.exp (lam q.s R L * T) := by gcongr
      _ = X * (h + δ) := by rw [hτ, hX]; ring
  have hsm : X * (h + δ) ≤ ρ / 2 := by
    have h3 : h + δ ≤ 2 * (ρ / (4 * (X + 1))) := by linarith [hδ'.2]
    have h4 : (X + 1) * (2 * (ρ / (4 * (X + 1)))) = ρ / 2 := by field_simp; norm_num
    have h5 : 0 ≤ 2 * (ρ / (4 * (X + 1))) := by positivity
    calc X * (h + δ) ≤ X * (2 * (ρ / (4 * (X + 1)))) := mul_le_mul_of_nonneg_left h3 hX0
      _ ≤ (X + 1) * (2 * (ρ / (4 * (X + 1)))) := mul_le_mul_of_nonneg_right (by linarith) h5
      _ = ρ / 2 := h4
  exact (rk_error H q hR hq h τ hle1 hτ0 hhK cons hs hsteps hend (hfin.trans hsm)).trans hfin

end first

end Mapleaf.Motion.Lim
