import Verif.Motion.IntegMethods
import Mathlib.Analysis.Calculus.MeanValue
import Mathlib.Analysis.SpecialFunctions.Exp
import Mathlib.Algebra.Order.BigOperators.Group.Finset

/-! # C93: refining the time step converges to the true motion, general part

Errors of one-step methods along a solution, and explicit Runge-Kutta methods near a solution. -/

namespace Mapleaf.Motion.Lim
open Set

/-! ## Errors add up -/

section global
variable {E : Type} [NormedAddCommGroup E]

/-- time and state after steps of the given sizes -/
def march (step : ℝ → E → ℝ → E) : ℝ → E → List ℝ → E
  | _, x, [] => x
  | t, x, h :: hs => march step (t + h) (step t x h) hs

/-- If one step enlarges an error near the solution by at most `1 + h Λ` and adds at most `h τ` of its own, then after steps of total
length `S` an initial error `d` has become at most `(d + τ S) exp (Λ S)`. -/
theorem march_error (step : ℝ → E → ℝ → E) (y : ℝ → E) (a e Λ τ r h₀ : ℝ) (hΛ : 0 ≤ Λ) (hτ : 0 ≤ τ)
    (stab : ∀ t ∈ Icc a e, ∀ h ∈ Ioc 0 h₀, t + h ≤ e → ∀ x, ‖x - y t‖ ≤ r → ‖step t x h - step t (y t) h‖ ≤ (1 + h * Λ) * ‖x - y t‖)
    (cons : ∀ t ∈ Icc a e, ∀ h ∈ Ioc 0 h₀, t + h ≤ e → ‖step t (y t) h - y (t + h)‖ ≤ h * τ)
    (hs : List ℝ) (hh : ∀ h ∈ hs, h ∈ Ioc 0 h₀) (t : ℝ) (ht : a ≤ t) (he : t + hs.sum ≤ e) (x : E) (d : ℝ) (hd : ‖x - y t‖ ≤ d)
    (small : (d + τ * hs.sum) * Real.exp (Λ * hs.sum) ≤ r) :
    ‖march step t x hs - y (t + hs.sum)‖ ≤ (d + τ * hs.sum) * Real.exp (Λ * hs.sum) := by
  induction hs generalizing t x d with
  | nil => simpa [march] using hd
  | cons h hs ih =>
    have hpos : h ∈ Ioc 0 h₀ := hh h (by simp)
    have hsum : 0 ≤ hs.sum := List.sum_nonneg fun z hz => (hh z (by simp [hz])).1.le
    rw [List.sum_cons] at he small ⊢
    have hd0 : 0 ≤ d := (norm_nonneg _).trans hd
    have ht' : t ∈ Icc a e := ⟨ht, by linarith [hpos.1]⟩
    have hte : t + h ≤ e := by linarith
    have hexp : 1 ≤ Real.exp (Λ * (h + hs.sum)) := Real.one_le_exp (mul_nonneg hΛ (by linarith [hpos.1]))
    have hnn : 0 ≤ d + τ * (h + hs.sum) := add_nonneg hd0 (mul_nonneg hτ (by linarith [hpos.1]))
    have hdr : ‖x - y t‖ ≤ r := by
      have : d ≤ d + τ * (h + hs.sum) := by linarith [mul_nonneg hτ (by linarith [hpos.1] : 0 ≤ h + hs.sum)]
      nlinarith
    have e1 : ‖step t x h - y (t + h)‖ ≤ Real.exp (h * Λ) * (d + h * τ) := by
      calc ‖step t x h - y (t + h)‖ ≤ ‖step t x h - step t (y t) h‖ + ‖step t (y t) h - y (t + h)‖ := norm_sub_le_norm_sub_add_norm_sub _ _ _
        _ ≤ (1 + h * Λ) * d + h * τ := add_le_add ((stab t ht' h hpos hte x hdr).trans
            (mul_le_mul_of_nonneg_left hd (by have := mul_nonneg hpos.1.le hΛ; linarith))) (cons t ht' h hpos hte)
        _ ≤ Real.exp (h * Λ) * (d + h * τ) := by
          have h1 : 1 + h * Λ ≤ Real.exp (h * Λ) := by linarith [Real.add_one_le_exp (h * Λ)]
          have h2 : 1 ≤ Real.exp (h * Λ) := Real.one_le_exp (mul_nonneg hpos.1.le hΛ)
          have h3 : 0 ≤ h * τ := mul_nonneg hpos.1.le hτ
          nlinarith
    have key : (Real.exp (h * Λ) * (d + h * τ) + τ * hs.sum) * Real.exp (Λ * hs.sum) ≤
        (d + τ * (h + hs.sum)) * Real.exp (Λ * (h + hs.sum)) := by
      have h2 : 1 ≤ Real.exp (h * Λ) := Real.one_le_exp (mul_nonneg hpos.1.le hΛ)
      have h3 : 0 ≤ τ * hs.sum := mul_nonneg hτ hsum
      rw [show Λ * (h + hs.sum) = h * Λ + Λ * hs.sum by ring, Real.exp_add, ← mul_assoc]
      apply mul_le_mul_of_nonneg_right _ (Real.exp_pos _).le
      nlinarith
    have := ih (fun z hz => hh z (by simp [hz])) (t + h) (by linarith [hpos.1]) (by linarith) (step t x h) _ e1 (key.trans small)
    unfold march
    rw [add_assoc] at this
    exact this.trans key

end global

/-! ## Explicit Runge-Kutta methods -/

/-- the coefficients of an explicit method with `s` stages -/
structure Coef where
  s : ℕ
  A : ℕ → ℕ → ℝ
  b : ℕ → ℝ
  c : ℕ → ℝ

/-- all coefficients are at most `R`, and the stages lie inside the step -/
structure Coef.Bounded (q : Coef) (R : ℝ) : Prop where
  A : ∀ i j, |q.A i j| ≤ R
  b : ∀ i, |q.b i| ≤ R
  c : ∀ i, q.c i ∈ Icc (0 : ℝ) 1

section rk
variable {E : Type} [NormedAddCommGroup E] [NormedSpace ℝ E]

/-- the derivatives at the stages: `kᵢ = f (t + cᵢ h) (x + h ∑ⱼ aᵢⱼ kⱼ)` -/
noncomputable def stage (q : Coef) (f : ℝ → E → E) (t : ℝ) (x : E) (h : ℝ) (i : ℕ) : E :=
  f (t + h * q.c i) (x + h • ∑ j : Fin i, q.A i j • stage q f t x h j)
termination_by i
decreasing_by exact j.2

/-- the states at the stages -/
noncomputable def point (q : Coef) (f : ℝ → E → E) (t : ℝ) (x : E) (h : ℝ) (i : ℕ) : E :=
  x + h • ∑ j ∈ Finset.range i, q.A i j • stage q f t x h j

theorem stage_point (q : Coef) (f : ℝ → E → E) (t : ℝ) (x : E) (h : ℝ) (i : ℕ) :
    stage q f t x h i = f (t + h * q.c i) (point q f t x h i) := by
  rw [stage, point, Finset.sum_range]

/-- the derivative of the whole step -/
noncomputable def incr (q : Coef) (f : ℝ → E → E) (t : ℝ) (x : E) (h : ℝ) : E := ∑ i ∈ Finset.range q.s, q.b i • stage q f t x h i

/-- one step -/
noncomputable def rk (q : Coef) (f : ℝ → E → E) (t : ℝ) (x : E) (h : ℝ) : E := x + h • incr q f t x h

/-- What is needed of the right-hand side near a motion `y` on `[a, e]`: it is Lipschitz in a tube of radius `ρ`, and bounded along the
motion. -/
structure Tube (f : ℝ → E → E) (y : ℝ → E) (a e L ρ B : ℝ) : Prop where
  lip : ∀ t ∈ Icc a e, ∀ x z, ‖x - y t‖ ≤ ρ → ‖z - y t‖ ≤ ρ → ‖f t x - f t z‖ ≤ L * ‖x - z‖
  bound : ∀ t ∈ Icc a e, ‖f t (y t)‖ ≤ B
  path : ∀ s ∈ Icc a e, ∀ t ∈ Icc a e, ‖y s - y t‖ ≤ B * |s - t|
  hL : 0 ≤ L
  hρ : 0 < ρ
  hB : 0 ≤ B

variable {f : ℝ → E → E} {y : ℝ → E} {a e L ρ B R : ℝ}

theorem sum_le_card {s : ℕ} {u : ℕ → E} {w : ℕ → ℝ} {i : ℕ} (hi : i ≤ s) {R K : ℝ} (hR : 0 ≤ R) (hK : 0 ≤ K) (hw : ∀ j, |w j| ≤ R)
    (hu : ∀ j < i, ‖u j‖ ≤ K) : ‖∑ j ∈ Finset.range i, w j • u j‖ ≤ s * R * K := by
  calc ‖∑ j ∈ Finset.range i, w j • u j‖ ≤ ∑ j ∈ Finset.range i, ‖w j • u j‖ := norm_sum_le _ _
    _ ≤ ∑ _j ∈ Finset.range i, R * K := Finset.sum_le_sum fun j hj => by
        rw [norm_smul, Real.norm_eq_abs]
        exact mul_le_mul (hw j) (hu j (Finset.mem_range.1 hj)) (norm_nonneg _) hR
    _ = i * R * K := by rw [Finset.sum_const, Finset.card_range, nsmul_eq_mul]; ring
    _ ≤ s * R * K := by
        have : (i : ℝ) ≤ s := by exact_mod_cast hi
        have h2 := mul_nonneg hR hK
        nlinarith

/-- Short steps from near the motion have all their stages in the tube. -/
theorem inside (H : Tube f y a e L ρ B) (q : Coef) (hR : 0 ≤ R) (hq : q.Bounded R) {t h : ℝ} (ht : t ∈ Icc a e) (h0 : 0 ≤ h) (hte : t + h ≤ e)
    (hsmall : h * (q.s * R * (B + L * ρ) + B) ≤ ρ / 2) {x : E} (hx : ‖x - y t‖ ≤ ρ / 2) (i : ℕ) (hi : i ≤ q.s) :
    ‖point q f t x h i - y (t + h * q.c i)‖ ≤ ρ ∧ ‖stage q f t x h i‖ ≤ B + L * ρ := by
  induction i using Nat.strong_induction_on with
  | _ i ih =>
    have hc := hq.c i
    have hti : t + h * q.c i ∈ Icc a e := ⟨by have := mul_nonneg h0 hc.1; linarith [ht.1], by nlinarith [hc.2]⟩
    have hK : 0 ≤ B + L * ρ := add_nonneg H.hB (mul_nonneg H.hL H.hρ.le)
    have hsum := sum_le_card (u := stage q f t x h) (w := q.A i) hi hR hK (hq.A i) (fun j hj => (ih j hj (by omega)).2)
    have hp : ‖point q f t x h i - y (t + h * q.c i)‖ ≤ ρ := by
      have e1 : point q f t x h i - y (t + h * q.c i) =
          (x - y t) + h • (∑ j ∈ Finset.range i, q.A i j • stage q f t x h j) + (y t - y (t + h * q.c i)) := by unfold point; abel
      rw [e1]
      have h1 := H.path t ht _ hti
      have h2 : |t - (t + h * q.c i)| ≤ h := by
        rw [show t - (t + h * q.c i) = -(h * q.c i) by ring, abs_neg, abs_of_nonneg (mul_nonneg h0 hc.1)]
        nlinarith [hc.2]
      have h3 : ‖h • (∑ j ∈ Finset.range i, q.A i j • stage q f t x h j)‖ ≤ h * (q.s * R * (B + L * ρ)) := by
        rw [norm_smul, Real.norm_eq_abs, abs_of_nonneg h0]
        exact mul_le_mul_of_nonneg_left hsum h0
      have h4 : B * |t - (t + h * q.c i)| ≤ h * B := by rw [mul_comm h B]; exact mul_le_mul_of_nonneg_left h2 H.hB
      calc _ ≤ ‖x - y t‖ + ‖h • (∑ j ∈ Finset.range i, q.A i j • stage q f t x h j)‖ + ‖y t - y (t + h * q.c i)‖ :=
            (norm_add_le _ _).trans (add_le_add (norm_add_le _ _) le_rfl)
        _ ≤ ρ / 2 + h * (q.s * R * (B + L * ρ)) + h * B := add_le_add (add_le_add hx h3) (h1.trans h4)
        _ ≤ ρ := by linarith
    refine ⟨hp, ?_⟩
    rw [stage_point]
    have h5 := H.lip _ hti (point q f t x h i) (y (t + h * q.c i)) hp (by simpa using H.hρ.le)
    calc ‖f (t + h * q.c i) (point q f t x h i)‖ ≤ ‖f (t + h * q.c i) (y (t + h * q.c i))‖ +
          ‖f (t + h * q.c i) (point q f t x h i) - f (t + h * q.c i) (y (t + h * q.c i))‖ := norm_le_norm_add_norm_sub' _ _
      _ ≤ B + L * ρ := add_le_add (H.bound _ hti) (h5.trans (mul_le_mul_of_nonneg_left hp H.hL))

/-- the Lipschitz constant of a step -/
def lam (s : ℕ) (R L : ℝ) : ℝ := s * R * (L * (1 + R * L) ^ s)

theorem geom (R L : ℝ) (i : ℕ) : L * (1 + R * ∑ j ∈ Finset.range i, L * (1 + R * L) ^ j) = L * (1 + R * L) ^ i := by
  induction i with
  | zero => simp
  | succ i ih =>
    rw [Finset.sum_range_succ, pow_succ]
    linear_combination ih

/-- Steps from neighbouring points stay together. -/
theorem stage_lip (H : Tube f y a e L ρ B) (q : Coef) (hR : 0 ≤ R) (hq : q.Bounded R) {t h : ℝ} (ht : t ∈ Icc a e) (h0 : 0 ≤ h) (h1 : h ≤ 1)
    (hte : t + h ≤ e) (hsmall : h * (q.s * R * (B + L * ρ) + B) ≤ ρ / 2) {x z : E} (hx : ‖x - y t‖ ≤ ρ / 2) (hz : ‖z - y t‖ ≤ ρ / 2)
    (i : ℕ) (hi : i ≤ q.s) : ‖stage q f t x h i - stage q f t z h i‖ ≤ L * (1 + R * L) ^ i * ‖x - z‖ := by
  induction i using Nat.strong_induction_on with
  | _ i ih =>
    have hc := hq.c i
    have hti : t + h * q.c i ∈ Icc a e := ⟨by have := mul_nonneg h0 hc.1; linarith [ht.1], by nlinarith [hc.2]⟩
    rw [stage_point, stage_point]
    refine (H.lip _ hti _ _ (inside H q hR hq ht h0 hte hsmall hx i hi).1 (inside H q hR hq ht h0 hte hsmall hz i hi).1).trans ?_
    have e1 : point q f t x h i - point q f t z h i =
        (x - z) + h • ∑ j ∈ Finset.range i, q.A i j • (stage q f t x h j - stage q f t z h j) := by
      unfold point
      simp only [smul_sub, Finset.sum_sub_distrib]
      abel
    have e2 : ‖∑ j ∈ Finset.range i, q.A i j • (stage q f t x h j - stage q f t z h j)‖ ≤
        R * (∑ j ∈ Finset.range i, L * (1 + R * L) ^ j) * ‖x - z‖ := by
      refine (norm_sum_le _ _).trans ?_
      rw [Finset.mul_sum, Finset.sum_mul]
      apply Finset.sum_le_sum
      intro j hj
      rw [norm_smul, Real.norm_eq_abs, mul_assoc R]
      exact mul_le_mul (hq.A i j) (ih j (Finset.mem_range.1 hj) (by have := Finset.mem_range.1 hj; omega)) (norm_nonneg _) hR
    have hn : 0 ≤ ‖∑ j ∈ Finset.range i, q.A i j • (stage q f t x h j - stage q f t z h j)‖ := norm_nonneg _
    rw [e1, ← geom, mul_assoc]
    apply mul_le_mul_of_nonneg_left _ H.hL
    refine (norm_add_le _ _).trans ?_
    rw [norm_smul, Real.norm_eq_abs, abs_of_nonneg h0]
    nlinarith

theorem lam_nonneg (s : ℕ) (hR : 0 ≤ R) (hL : 0 ≤ L) : 0 ≤ lam s R L := by unfold lam; positivity

theorem rk_lip (H : Tube f y a e L ρ B) (q : Coef) (hR : 0 ≤ R) (hq : q.Bounded R) {t h : ℝ} (ht : t ∈ Icc a e) (h0 : 0 ≤ h) (h1 : h ≤ 1)
    (hte : t + h ≤ e) (hsmall : h * (q.s * R * (B + L * ρ) + B) ≤ ρ / 2) {x z : E} (hx : ‖x - y t‖ ≤ ρ / 2) (hz : ‖z - y t‖ ≤ ρ / 2) :
    ‖rk q f t x h - rk q f t z h‖ ≤ (1 + h * lam q.s R L) * ‖x - z‖ := by
  have e1 : rk q f t x h - rk q f t z h = (x - z) + h • ∑ i ∈ Finset.range q.s, q.b i • (stage q f t x h i - stage q f t z h i) := by
    unfold rk incr
    simp only [smul_sub, Finset.sum_sub_distrib]
    abel
  have hRL : 0 ≤ R * L := mul_nonneg hR H.hL
  have e2 := sum_le_card (u := fun i => stage q f t x h i - stage q f t z h i) (w := q.b) (le_refl q.s) hR
    (K := L * (1 + R * L) ^ q.s * ‖x - z‖) (by have := H.hL; positivity) hq.b (fun i hi => by
      refine (stage_lip H q hR hq ht h0 h1 hte hsmall hx hz i hi.le).trans ?_
      apply mul_le_mul_of_nonneg_right _ (norm_nonneg _)
      exact mul_le_mul_of_nonneg_left (pow_le_pow_right₀ (by linarith) hi.le) H.hL)
  rw [e1]
  refine (norm_add_le _ _).trans ?_
  rw [norm_smul, Real.norm_eq_abs, abs_of_nonneg h0]
  have := mul_le_mul_of_nonneg_left e2 h0
  unfold lam
  linarith

/-- **C93, general form.** A method whose error in one step from the motion itself is at most `h τ` stays within `τ (e - a) exp (Λ (e - a))`
of the motion, for all sequences of steps of at most `h₀`. -/
theorem rk_error (H : Tube f y a e L ρ B) (q : Coef) (hR : 0 ≤ R) (hq : q.Bounded R) (h₀ τ : ℝ) (h1 : h₀ ≤ 1) (hτ : 0 ≤ τ)
    (hsmall : h₀ * (q.s * R * (B + L * ρ) + B) ≤ ρ / 2)
    (cons : ∀ t ∈ Icc a e, ∀ h ∈ Ioc 0 h₀, t + h ≤ e → ‖rk q f t (y t) h - y (t + h)‖ ≤ h * τ)
    (hs : List ℝ) (hh : ∀ h ∈ hs, h ∈ Ioc 0 h₀) (he : a + hs.sum ≤ e)
    (small : τ * hs.sum * Real.exp (lam q.s R L * hs.sum) ≤ ρ / 2) :
    ‖march (rk q f) a (y a) hs - y (a + hs.sum)‖ ≤ τ * hs.sum * Real.exp (lam q.s R L * hs.sum) := by
  have := march_error (rk q f) y a e (lam q.s R L) τ (ρ / 2) h₀ (lam_nonneg q.s hR H.hL) hτ
    (fun t ht h hp hte x hx => by
      have hK : 0 ≤ q.s * R * (B + L * ρ) + B := by have := H.hB; have := H.hL; have := H.hρ; positivity
      exact rk_lip H q hR hq ht hp.1.le (hp.2.trans h1) hte ((mul_le_mul_of_nonneg_right hp.2 hK).trans hsmall) hx
        (by simpa using (half_pos H.hρ).le))
    cons hs hh a le_rfl he (y a) 0 (by simp) (by simpa using small)
  simpa using this

end rk

end Mapleaf.Motion.Lim
