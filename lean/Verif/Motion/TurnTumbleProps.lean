import Verif.Motion.TurnLossProps
import Mathlib.Analysis.ODE.ExistUnique

/-! # C94: the fourth-order 3/8 rule is of second order on tumbling bodies -/

namespace Mapleaf.Motion.Turn
open Set Mapleaf.Motion.Lim Mapleaf.Motion.RK Mapleaf.Motion.Body Mapleaf Filter Topology
open NormedSpace (exp)

attribute [local instance] vNorm vSpace

/-! ## One step of the code on a freely turning sphere under a constant moment -/

theorem star_half (w : V3 ℝ) : star (half w) = -half w := by
  ext <;> simp [half]

theorem half_zero : half 0 = 0 := halfL.map_zero

theorem star_exp_neg {y : Quaternion ℝ} (hy : star y = -y) : star (exp y) = exp (-y) := by
  rw [NormedSpace.star_exp, hy]

theorem star_cj {y B : Quaternion ℝ} (hy : star y = -y) (hB : star B = -B) : star (cj y B) = -cj y B := by
  unfold cj
  have h2 : star (exp (-y)) = exp y := by rw [star_exp_neg (by rw [star_neg, hy]), neg_neg]
  rw [star_mul, star_mul, star_exp_neg hy, h2, hB]
  simp [mul_assoc]

theorem unit_star {Q : Quaternion ℝ} (h : ‖Q‖ = 1) : Q * star Q = 1 ∧ star Q * Q = 1 := by
  have h1 : Quaternion.normSq Q = 1 := by rw [Quaternion.normSq_eq_norm_mul_self, h, one_mul]
  constructor
  · rw [Quaternion.self_mul_star, h1]; rfl
  · rw [Quaternion.star_mul_self, h1]; rfl

theorem exp_frame {Q : Quaternion ℝ} (h : ‖Q‖ = 1) (y : Quaternion ℝ) : exp (Q * y * star Q) = Q * exp y * star Q := by
  have hne : Q ≠ 0 := by rintro rfl; simp at h
  have hs : star Q = Q⁻¹ := eq_inv_of_mul_eq_one_right (unit_star h).1
  letI : NormedAlgebra ℚ (Quaternion ℝ) := NormedAlgebra.restrictScalars ℚ ℝ (Quaternion ℝ)
  rw [hs]
  convert NormedSpace.exp_conj Q y hne

/-- the right-hand side for a freely turning sphere of unit moment of inertia under the constant body moment `τ` -/
def Spin (τ : V3 ℝ) (g : ℝ → RBState → RBDeriv) : Prop :=
  ∀ t s, Quat.Unit s.ori → (g t s).angVel = s.ori.rotF s.angVel ∧ (g t s).angAcc = τ

theorem spin_stage {τ : V3 ℝ} {g : ℝ → RBState → RBDeriv} (hg : Spin τ g) (t : ℝ) {x : St} (hx : UnitO x) {u : Ch} {y : Quaternion ℝ}
    (hu : half u.2 = x.2 * y * star x.2) (hy : star y = -y) :
    (lift g t (advE x u)).1.2.2 = τ ∧ half (lift g t (advE x u)).2 = x.2 * cj y (half (x.1.2.2 + u.1.2.2)) * star x.2 := by
  have hU : UnitO (advE x u) := by
    unfold UnitO advE
    dsimp only
    rw [norm_mul, norm_exp_half, one_mul]; exact hx
  have hq : Quat.Unit (dec (advE x u)).ori := by rw [← unitO_enc, enc_dec]; exact hU
  obtain ⟨h1, h2⟩ := hg t (dec (advE x u)) hq
  refine ⟨h2, ?_⟩
  have h3 : Quat.pureH ((dec (advE x u)).ori.rotF (dec (advE x u)).angVel) =
      (advE x u).2 * Quat.pureH (x.1.2.2 + u.1.2.2) * star (advE x u).2 := by
    have e := frame_turn hq (dec (advE x u)).angVel
    have e2 : Quat.toH (dec (advE x u)).ori = (advE x u).2 := rfl
    rw [e2] at e
    have e3 := (unit_star hU).1
    have : (dec (advE x u)).angVel = x.1.2.2 + u.1.2.2 := rfl
    rw [← this, ← e, mul_assoc, e3, mul_one]
  have h4 : half (lift g t (advE x u)).2 = (advE x u).2 * half (x.1.2.2 + u.1.2.2) * star (advE x u).2 := by
    have : (lift g t (advE x u)).2 = (dec (advE x u)).ori.rotF (dec (advE x u)).angVel := h1
    unfold half
    rw [this, h3, mul_smul_comm, smul_mul_assoc]
  have h5 : (advE x u).2 = x.2 * exp y := by
    have : (advE x u).2 = exp (half u.2) * x.2 := rfl
    rw [this, hu, exp_frame hx, mul_assoc, (unit_star hx).2, mul_one]
  rw [h4, h5, star_mul, star_exp_neg hy]
  unfold cj
  simp only [mul_assoc]

theorem pair_w (k : ℝ) (A : Ch) : (k • A).1.2.2 = k • A.1.2.2 := rfl
theorem pair_wa (A B : Ch) : (A + B).1.2.2 = A.1.2.2 + B.1.2.2 := rfl
theorem pair_t (k : ℝ) (A : Ch) : half (k • A).2 = k • half A.2 := half_smul k A.2
theorem pair_ta (A B : Ch) : half (A + B).2 = half A.2 + half B.2 := half_add A.2 B.2

/-- the coefficients of the 3/8 rule -/
noncomputable def q38 : Coef := coefOf [[1/3, 1/3], [2/3, -(1/3), 1], [1, 1, -1, 1]] [1/8, 3/8, 3/8, 1/8]

theorem star_smul_pure {y : Quaternion ℝ} (k : ℝ) (hy : star y = -y) : star (k • y) = -(k • y) := by
  rw [Quaternion.star_smul, hy, smul_neg]

theorem star_add_pure {y z : Quaternion ℝ} (hy : star y = -y) (hz : star z = -z) : star (y + z) = -(y + z) := by
  rw [star_add, hy, hz]; abel

/-- The step of the 3/8 rule on the spinning sphere. -/
theorem spin_step {τ : V3 ℝ} {g : ℝ → RBState → RBDeriv} (hg : Spin τ g) (t h : ℝ) {x : St} (hx : UnitO x) :
    (stepG q38 advE (lift g) t x h).1.2.2 = x.1.2.2 + h • τ ∧
    (stepG q38 advE (lift g) t x h).2 = x.2 * turn38 (half τ) (h, half x.1.2.2) := by
  set a := half x.1.2.2 with ha
  set a₁ := half τ with ha₁
  have pa : star a = -a := star_half _
  have pa₁ : star a₁ = -a₁ := star_half _
  have p2 : star (s2 a₁ (h, a)) = -s2 a₁ (h, a) := star_cj (star_smul_pure _ pa) (star_add_pure pa (star_smul_pure _ pa₁))
  have p3 : star (s3 a₁ (h, a)) = -s3 a₁ (h, a) :=
    star_cj (star_smul_pure _ (star_add_pure (star_smul_pure _ pa) p2)) (star_add_pure pa (star_smul_pure _ pa₁))
  have p23 : star (a - s2 a₁ (h, a) + s3 a₁ (h, a)) = -(a - s2 a₁ (h, a) + s3 a₁ (h, a)) := by
    rw [star_add, star_sub, pa, p2, p3]; abel
  have p4 : star (s4 a₁ (h, a)) = -s4 a₁ (h, a) := star_cj (star_smul_pure _ p23) (star_add_pure pa (star_smul_pure _ pa₁))
  set k := stageG q38 advE (lift g) t x h with hk
  have sc : ∀ i, lift g (t + h * q38.c i) (advE x (changeG q38 advE (lift g) t x h i)) = k i := fun i => (stage_change q38 advE (lift g) t x h i).symm
  have ch0 : changeG q38 advE (lift g) t x h 0 = 0 := by simp [changeG]
  have ch1 : changeG q38 advE (lift g) t x h 1 = h • ((1 / 3 : ℝ) • k 0) := by
    rw [changeG, Finset.sum_range_one]; rfl
  have ch2 : changeG q38 advE (lift g) t x h 2 = h • ((-(1 / 3) : ℝ) • k 0 + (1 : ℝ) • k 1) := by
    rw [changeG, Finset.sum_range_succ, Finset.sum_range_one]; rfl
  have ch3 : changeG q38 advE (lift g) t x h 3 = h • ((1 : ℝ) • k 0 + (-1 : ℝ) • k 1 + (1 : ℝ) • k 2) := by
    rw [changeG, Finset.sum_range_succ, Finset.sum_range_succ, Finset.sum_range_one]; rfl
  have inc : incrG q38 advE (lift g) t x h = (1 / 8 : ℝ) • k 0 + (3 / 8 : ℝ) • k 1 + (3 / 8 : ℝ) • k 2 + (1 / 8 : ℝ) • k 3 := by
    rw [incrG, show q38.s = 4 from rfl, Finset.sum_range_succ, Finset.sum_range_succ, Finset.sum_range_succ, Finset.sum_range_one]; rfl
  have fr : ∀ (c : ℝ) (y : Quaternion ℝ), c • (x.2 * y * star x.2) = x.2 * (c • y) * star x.2 := fun c y => by rw [mul_smul_comm, smul_mul_assoc]
  have fa : ∀ (y z : Quaternion ℝ), x.2 * y * star x.2 + x.2 * z * star x.2 = x.2 * (y + z) * star x.2 := fun y z => by rw [mul_add, add_mul]
  obtain ⟨w0, t0⟩ : (k 0).1.2.2 = τ ∧ half (k 0).2 = x.2 * a * star x.2 := by
    have := spin_stage hg (t + h * q38.c 0) hx (u := changeG q38 advE (lift g) t x h 0) (y := 0) (by rw [ch0]; simp [half_zero]) (by simp)
    rw [sc] at this
    refine ⟨this.1, ?_⟩
    rw [this.2, ch0]
    simp [cj, ha]
  obtain ⟨w1, t1⟩ : (k 1).1.2.2 = τ ∧ half (k 1).2 = x.2 * s2 a₁ (h, a) * star x.2 := by
    have := spin_stage hg (t + h * q38.c 1) hx (u := changeG q38 advE (lift g) t x h 1) (y := (h / 3) • a)
      (by rw [ch1, pair_t, pair_t, t0, smul_smul, fr]; congr 3; ring) (star_smul_pure _ pa)
    rw [sc] at this
    refine ⟨this.1, ?_⟩
    rw [this.2, ch1, pair_w, pair_w, w0, half_add, half_smul, half_smul, smul_smul]
    simp only [s2, ← ha, ← ha₁]
    congr 6; ring
  obtain ⟨w2, t2⟩ : (k 2).1.2.2 = τ ∧ half (k 2).2 = x.2 * s3 a₁ (h, a) * star x.2 := by
    have := spin_stage hg (t + h * q38.c 2) hx (u := changeG q38 advE (lift g) t x h 2) (y := h • ((-(1 / 3) : ℝ) • a + s2 a₁ (h, a)))
      (by rw [ch2, pair_t, pair_ta, pair_t, pair_t, t0, t1, one_smul, fr, fa, fr]) (star_smul_pure _ (star_add_pure (star_smul_pure _ pa) p2))
    rw [sc] at this
    refine ⟨this.1, ?_⟩
    rw [this.2, ch2, pair_w, pair_wa, pair_w, pair_w, w0, w1, half_add, half_smul, half_add, half_smul, half_smul]
    simp only [s3, ← ha, ← ha₁]
    congr 4; module
  obtain ⟨w3, t3⟩ : (k 3).1.2.2 = τ ∧ half (k 3).2 = x.2 * s4 a₁ (h, a) * star x.2 := by
    have := spin_stage hg (t + h * q38.c 3) hx (u := changeG q38 advE (lift g) t x h 3) (y := h • (a - s2 a₁ (h, a) + s3 a₁ (h, a)))
      (by rw [ch3, pair_t, pair_ta, pair_ta, pair_t, pair_t, pair_t, t0, t1, t2, one_smul, one_smul, fr, fa, fa, fr, neg_one_smul, sub_eq_add_neg])
      (star_smul_pure _ p23)
    rw [sc] at this
    refine ⟨this.1, ?_⟩
    rw [this.2, ch3, pair_w, pair_wa, pair_wa, pair_w, pair_w, pair_w, w0, w1, w2, half_add, half_smul, half_add, half_add, half_smul, half_smul]
    simp only [s4, ← ha, ← ha₁]
    congr 4; module
  constructor
  · have : (stepG q38 advE (lift g) t x h).1.2.2 = x.1.2.2 + (h • incrG q38 advE (lift g) t x h).1.2.2 := rfl
    rw [this, inc, pair_w, pair_wa, pair_wa, pair_wa, pair_w, pair_w, pair_w, pair_w, w0, w1, w2, w3]
    congr 2
    apply V3.ext' <;> simp <;> ring
  · have : (stepG q38 advE (lift g) t x h).2 = exp (half (h • incrG q38 advE (lift g) t x h).2) * x.2 := rfl
    rw [this, inc, pair_t, pair_ta, pair_ta, pair_ta, pair_t, pair_t, pair_t, pair_t, t0, t1, t2, t3, fr, fr, fr, fr, fa, fa, fa, fr, exp_frame hx,
      mul_assoc, (unit_star hx).2, mul_one]
    rfl

/-! ## The true motion -/

section third
variable {F : Type} [NormedAddCommGroup F] [NormedSpace ℝ F] {f φ ψ χ : ℝ → F} {a e Γ t h : ℝ}

/-- integrating a second-order expansion of the derivative -/
theorem taylor_third (hd : ∀ t ∈ Icc a e, HasDerivWithinAt f (φ t) (Icc a e) t) (hΓ : 0 ≤ Γ) (ht : t ∈ Icc a e) (h0 : 0 ≤ h)
    (hte : t + h ≤ e) (hx : ∀ s, 0 ≤ s → s ≤ h → ‖φ (t + s) - φ t - (s • ψ t + (s ^ 2 / 2) • χ t)‖ ≤ Γ * s ^ 3) :
    ‖f (t + h) - f t - (h • φ t + (h ^ 2 / 2) • ψ t + (h ^ 3 / 6) • χ t)‖ ≤ Γ * h ^ 4 := by
  have hdd : ∀ s ∈ Icc (0 : ℝ) h, HasDerivWithinAt (fun s => f (t + s) - (s • φ t + (s ^ 2 / 2) • ψ t + (s ^ 3 / 6) • χ t))
      (φ (t + s) - (φ t + s • ψ t + (s ^ 2 / 2) • χ t)) (Icc 0 h) s := by
    intro s hs
    have h1 : HasDerivAt (fun s : ℝ => s • φ t) (φ t) s := by simpa using (hasDerivAt_id s).smul_const (φ t)
    have h2 : HasDerivAt (fun s : ℝ => (s ^ 2 / 2) • ψ t) (s • ψ t) s := by
      simpa using ((hasDerivAt_pow 2 s).div_const 2).smul_const (ψ t)
    have h3 : HasDerivAt (fun s : ℝ => (s ^ 3 / 6) • χ t) ((s ^ 2 / 2) • χ t) s := by
      refine (((hasDerivAt_pow 3 s).div_const 6).smul_const (χ t)).congr_deriv ?_
      congr 1
      push_cast
      ring
    exact (shift_deriv hd ht hte s hs).sub ((h1.add h2).add h3).hasDerivWithinAt
  have := norm_image_sub_le_of_norm_deriv_le_segment' hdd (C := Γ * h ^ 3) (fun s hs => by
    rw [show φ (t + s) - (φ t + s • ψ t + (s ^ 2 / 2) • χ t) = φ (t + s) - φ t - (s • ψ t + (s ^ 2 / 2) • χ t) by abel]
    exact (hx s hs.1 hs.2.le).trans (mul_le_mul_of_nonneg_left (pow_le_pow_left₀ hs.1 hs.2.le 3) hΓ)) h ⟨h0, le_rfl⟩
  simp only [add_zero, zero_smul, sub_zero, ne_eq, OfNat.ofNat_ne_zero, not_false_eq_true, zero_pow, zero_div] at this
  rw [show f (t + h) - f t - (h • φ t + (h ^ 2 / 2) • ψ t + (h ^ 3 / 6) • χ t) = f (t + h) - (h • φ t + (h ^ 2 / 2) • ψ t + (h ^ 3 / 6) • χ t) - f t by abel]
  refine this.trans (le_of_eq (by ring))

end third

section exact
variable {q : ℝ → Quaternion ℝ} {a₀ a₁ : Quaternion ℝ} {T : ℝ}

/-- `q` turns with the halved body angular velocity `a₀ + t a₁` -/
def Turns (q : ℝ → Quaternion ℝ) (a₀ a₁ : Quaternion ℝ) (T : ℝ) : Prop :=
  (∀ t ∈ Icc 0 T, HasDerivWithinAt q (q t * (a₀ + t • a₁)) (Icc 0 T) t) ∧ ∀ t ∈ Icc 0 T, ‖q t‖ = 1

theorem turns_taylor (H : Turns q a₀ a₁ T) : ∃ Γ : ℝ, 0 ≤ Γ ∧ ∀ t ∈ Icc 0 T, ∀ h, 0 ≤ h → t + h ≤ T → ∀ A, A = a₀ + t • a₁ →
    ‖q (t + h) - q t * (1 + h • A + (h ^ 2 / 2) • (A * A + a₁) + (h ^ 3 / 6) • (A * A * A + a₁ * A + (2 : ℝ) • (A * a₁)))‖ ≤ Γ * h ^ 4 := by
  have dA : ∀ t, HasDerivWithinAt (fun t : ℝ => a₀ + t • a₁) a₁ (Icc 0 T) t := fun t => by
    have h1 : HasDerivAt (fun s : ℝ => s • a₁) a₁ t := by simpa using (hasDerivAt_id t).smul_const a₁
    exact (h1.const_add a₀).hasDerivWithinAt
  have d1 := H.1
  have d2 : ∀ t ∈ Icc 0 T, HasDerivWithinAt (fun t => q t * (a₀ + t • a₁)) (q t * ((a₀ + t • a₁) * (a₀ + t • a₁) + a₁)) (Icc 0 T) t := fun t ht =>
    ((d1 t ht).mul (dA t)).congr_deriv (by generalize a₀ + t • a₁ = A; rw [mul_add, mul_assoc])
  have d3 : ∀ t ∈ Icc 0 T, HasDerivWithinAt (fun t => q t * ((a₀ + t • a₁) * (a₀ + t • a₁) + a₁))
      (q t * ((a₀ + t • a₁) * (a₀ + t • a₁) * (a₀ + t • a₁) + a₁ * (a₀ + t • a₁) + (2 : ℝ) • ((a₀ + t • a₁) * a₁))) (Icc 0 T) t := fun t ht =>
    ((d1 t ht).mul (((dA t).mul (dA t)).add_const a₁)).congr_deriv (by
      rw [Pi.mul_apply]
      generalize a₀ + t • a₁ = A
      rw [two_smul]
      simp only [mul_add, mul_assoc]
      abel)
  have d4 : ∀ t ∈ Icc 0 T, HasDerivWithinAt
      (fun t => q t * ((a₀ + t • a₁) * (a₀ + t • a₁) * (a₀ + t • a₁) + a₁ * (a₀ + t • a₁) + (2 : ℝ) • ((a₀ + t • a₁) * a₁)))
      (q t * (a₀ + t • a₁) * ((a₀ + t • a₁) * (a₀ + t • a₁) * (a₀ + t • a₁) + a₁ * (a₀ + t • a₁) + (2 : ℝ) • ((a₀ + t • a₁) * a₁)) +
        q t * ((a₁ * (a₀ + t • a₁) + (a₀ + t • a₁) * a₁) * (a₀ + t • a₁) + (a₀ + t • a₁) * (a₀ + t • a₁) * a₁ + a₁ * a₁ + (2 : ℝ) • (a₁ * a₁)))
      (Icc 0 T) t := fun t ht =>
    (d1 t ht).mul (((((dA t).mul (dA t)).mul (dA t)).add ((dA t).const_mul a₁)).add (((dA t).mul_const a₁).const_smul (2 : ℝ)))
  have cq : ContinuousOn q (Icc 0 T) := fun t ht => (d1 t ht).continuousWithinAt
  have cA : ContinuousOn (fun t : ℝ => a₀ + t • a₁) (Icc 0 T) := fun t _ => (dA t).continuousWithinAt
  have c4 : ContinuousOn (fun t => q t * (a₀ + t • a₁) * ((a₀ + t • a₁) * (a₀ + t • a₁) * (a₀ + t • a₁) + a₁ * (a₀ + t • a₁) + (2 : ℝ) • ((a₀ + t • a₁) * a₁)) +
        q t * ((a₁ * (a₀ + t • a₁) + (a₀ + t • a₁) * a₁) * (a₀ + t • a₁) + (a₀ + t • a₁) * (a₀ + t • a₁) * a₁ + a₁ * a₁ + (2 : ℝ) • (a₁ * a₁))) (Icc 0 T) := by
    fun_prop
  obtain ⟨Γ₀, hb⟩ := isCompact_Icc.exists_bound_of_continuousOn c4
  have hΓ : 0 ≤ max Γ₀ 0 := le_max_right _ _
  refine ⟨max Γ₀ 0, hΓ, fun t ht h h0 hte A hA => ?_⟩
  have l4 := lip_of_bound d4 (fun t ht => (hb t ht).trans (le_max_left Γ₀ 0))
  have e3 : ∀ s, 0 ≤ s → s ≤ h → _ := fun s hs hsh => taylor_first d3 hΓ l4 ht hs (by linarith : t + s ≤ T)
  have e2 : ∀ s, 0 ≤ s → s ≤ h → _ := fun s hs hsh => taylor_second (ψ := fun t => q t * ((a₀ + t • a₁) * (a₀ + t • a₁) * (a₀ + t • a₁) +
    a₁ * (a₀ + t • a₁) + (2 : ℝ) • ((a₀ + t • a₁) * a₁))) d2 hΓ ht hs (by linarith : t + s ≤ T) (fun r hr hrs => e3 r hr (hrs.trans hsh))
  have e1 := taylor_third (ψ := fun t => q t * ((a₀ + t • a₁) * (a₀ + t • a₁) + a₁)) (χ := fun t => q t * ((a₀ + t • a₁) * (a₀ + t • a₁) * (a₀ + t • a₁) +
    a₁ * (a₀ + t • a₁) + (2 : ℝ) • ((a₀ + t • a₁) * a₁))) d1 hΓ ht h0 hte e2
  simp only [← hA] at e1
  refine le_of_eq_of_le ?_ e1
  congr 1
  simp only [mul_add, mul_one, mul_smul_comm]
  abel

/-- The defect of one step. -/
theorem turns_defect (H : Turns q a₀ a₁ T) : ∃ C η : ℝ, 0 ≤ C ∧ 0 < η ∧ ∀ t ∈ Icc 0 T, ∀ h, 0 ≤ h → h ≤ η → t + h ≤ T →
    ‖q t * turn38 a₁ (h, a₀ + t • a₁) - q (t + h) - (h ^ 3 / 12) • (q t * (a₀ * a₁ - a₁ * a₀))‖ ≤ C * h ^ 4 := by
  obtain ⟨Γ, hΓ, hT⟩ := turns_taylor H
  obtain ⟨C, η, hC, hη, hS⟩ := (ord_turn38 (A := Quaternion ℝ) (R := ‖a₀‖ + T * ‖a₁‖) (a₁ := a₁)).bound
  refine ⟨C + Γ, η, by positivity, hη, fun t ht h h0 hh hte => ?_⟩
  have hA : ‖a₀ + t • a₁‖ ≤ ‖a₀‖ + T * ‖a₁‖ := by
    refine (norm_add_le _ _).trans (add_le_add le_rfl ?_)
    rw [norm_smul, Real.norm_eq_abs, abs_of_nonneg ht.1]
    exact mul_le_mul_of_nonneg_right ht.2 (norm_nonneg _)
  have k1 := hS h h0 hh _ hA
  have k2 := hT t ht h h0 hte _ rfl
  have hc : (a₀ + t • a₁) * a₁ - a₁ * (a₀ + t • a₁) = a₀ * a₁ - a₁ * a₀ := by
    simp only [add_mul, mul_add, smul_mul_assoc, mul_smul_comm]; abel
  dsimp only at k1
  rw [hc] at k1
  generalize a₀ + t • a₁ = A at *
  have : q t * turn38 a₁ (h, A) - q (t + h) - (h ^ 3 / 12) • (q t * (a₀ * a₁ - a₁ * a₀)) =
      q t * (turn38 a₁ (h, A) - (1 + h • A + (h ^ 2 / 2) • (A * A + a₁) + (h ^ 3 / 6) • (A * A * A + a₁ * A + (2 : ℝ) • (A * a₁)) +
        (h ^ 3 / 12) • (a₀ * a₁ - a₁ * a₀))) -
      (q (t + h) - q t * (1 + h • A + (h ^ 2 / 2) • (A * A + a₁) + (h ^ 3 / 6) • (A * A * A + a₁ * A + (2 : ℝ) • (A * a₁)))) := by
    simp only [mul_add, mul_sub, mul_smul_comm]
    abel
  rw [this]
  refine (norm_sub_le _ _).trans ?_
  rw [norm_mul, H.2 t ht, one_mul]
  linarith

/-- a step turns by at most a multiple of the step size -/
theorem turn38_small (R : ℝ) (a₁ : Quaternion ℝ) : ∃ K η : ℝ, 0 ≤ K ∧ 0 < η ∧ ∀ h, 0 ≤ h → h ≤ η → ∀ A : Quaternion ℝ, ‖A‖ ≤ R → ‖turn38 a₁ (h, A) - 1‖ ≤ K * h := by
  have o1 : Ord R 1 (fun p : ℝ × Quaternion ℝ => turn38 a₁ p - 1) := by
    have r := (ord_turn38 (A := Quaternion ℝ) (R := R) (a₁ := a₁)).mono (show 1 ≤ 4 by norm_num)
    have e : Ord R 0 (fun p : ℝ × Quaternion ℝ => p.2) := ord_el
    have c : Ord R 0 (fun _ : ℝ × Quaternion ℝ => a₁) := ord_const a₁
    have t1 := e.step 1 1
    have t2 := (((e.mul e).add c).step 2 (1 / 2)).mono (show 1 ≤ 2 + (0 + 0) by norm_num)
    have t3 := (((((e.mul e).mul e).add (c.mul e)).add ((e.mul c).smul 2)).step 3 (1 / 6)).mono (show 1 ≤ 3 + (0 + 0 + 0) by norm_num)
    have t4 := (((e.mul c).sub (c.mul e)).step 3 (1 / 12)).mono (show 1 ≤ 3 + (0 + 0) by norm_num)
    refine ((((r.add t1).add t2).add t3).add t4).congr fun p => ?_
    module
  obtain ⟨K, η, hK, hη, h⟩ := o1.bound
  exact ⟨K, η, hK, hη, fun x h0 hx A hA => by simpa using h x h0 hx A hA⟩

/-- the orientations that the 3/8 rule reaches -/
noncomputable def reached (a₀ a₁ : Quaternion ℝ) (h : ℝ) : ℕ → Quaternion ℝ
  | 0 => 1
  | n + 1 => reached a₀ a₁ h n * turn38 a₁ (h, a₀ + (n * h) • a₁)

/-- The errors add up. -/
theorem errors_add {S p qs : ℕ → Quaternion ℝ} {c : Quaternion ℝ} {h K B C : ℝ} {N : ℕ} (h0 : 0 ≤ h) (hK : 0 ≤ K) (hB : 0 ≤ B) (hC : 0 ≤ C)
    (hp0 : p 0 = qs 0) (hp : ∀ n, p (n + 1) = p n * S n) (hS : ∀ n < N, ‖S n‖ = 1) (hS1 : ∀ n < N, ‖S n - 1‖ ≤ K * h) (hq : ∀ n < N, ‖qs n - 1‖ ≤ B * (n * h))
    (hq1 : ∀ n < N, ‖qs n‖ = 1)
    (hd : ∀ n < N, ‖qs n * S n - qs (n + 1) - (h ^ 3 / 12) • (qs n * c)‖ ≤ C * h ^ 4) (n : ℕ) (hn : n ≤ N) :
    ‖p n - qs n‖ ≤ n * h ^ 3 * (‖c‖ / 12 + C * h) ∧
    ‖p n - qs n - (n * h ^ 3 / 12) • c‖ ≤ n * h ^ 3 * (K * (N * h) * (‖c‖ / 12 + C * h) + B * (N * h) * ‖c‖ / 12 + C * h) := by
  induction n with
  | zero => simp [hp0]
  | succ n ih =>
    obtain ⟨i1, i2⟩ := ih (by omega)
    have hlt : n < N := by omega
    have d := hd n hlt
    have hnN : (n : ℝ) ≤ N := by exact_mod_cast hlt.le
    have h3 : 0 ≤ h ^ 3 := by positivity
    set r := qs n * S n - qs (n + 1) - (h ^ 3 / 12) • (qs n * c) with hr
    have e1 : p (n + 1) - qs (n + 1) = (p n - qs n) * S n + (h ^ 3 / 12) • (qs n * c) + r := by
      rw [hp, hr, sub_mul]; abel
    constructor
    · rw [e1]
      refine (norm_add₃_le).trans ?_
      rw [norm_mul, hS n hlt, mul_one, norm_smul, norm_mul, hq1 n hlt, one_mul, Real.norm_eq_abs, abs_of_nonneg (by positivity)]
      push_cast
      linarith
    · have e2 : p (n + 1) - qs (n + 1) - ((n + 1 : ℕ) * h ^ 3 / 12) • c =
          (p n - qs n - (n * h ^ 3 / 12) • c) + (p n - qs n) * (S n - 1) + (h ^ 3 / 12) • ((qs n - 1) * c) + r := by
        rw [e1]
        push_cast
        rw [mul_sub, sub_mul (qs n), one_mul, mul_one]
        module
      rw [e2]
      have b1 : ‖(p n - qs n) * (S n - 1)‖ ≤ h ^ 3 * (K * (N * h) * (‖c‖ / 12 + C * h)) := by
        rw [norm_mul]
        calc ‖p n - qs n‖ * ‖S n - 1‖ ≤ (n * h ^ 3 * (‖c‖ / 12 + C * h)) * (K * h) := mul_le_mul i1 (hS1 n hlt) (norm_nonneg _) (by positivity)
          _ ≤ (N * h ^ 3 * (‖c‖ / 12 + C * h)) * (K * h) := by gcongr
          _ = _ := by ring
      have b2 : ‖(h ^ 3 / 12) • ((qs n - 1) * c)‖ ≤ h ^ 3 * (B * (N * h) * ‖c‖ / 12) := by
        rw [norm_smul, norm_mul, Real.norm_eq_abs, abs_of_nonneg (by positivity)]
        calc h ^ 3 / 12 * (‖qs n - 1‖ * ‖c‖) ≤ h ^ 3 / 12 * (B * (N * h) * ‖c‖) := by
              gcongr
              exact (hq n hlt).trans (by gcongr)
          _ = _ := by ring
      calc _ ≤ ‖p n - qs n - (n * h ^ 3 / 12) • c‖ + ‖(p n - qs n) * (S n - 1)‖ + ‖(h ^ 3 / 12) • ((qs n - 1) * c)‖ + ‖r‖ :=
            (norm_add_le _ _).trans (add_le_add norm_add₃_le le_rfl)
        _ ≤ n * h ^ 3 * (K * (N * h) * (‖c‖ / 12 + C * h) + B * (N * h) * ‖c‖ / 12 + C * h) + h ^ 3 * (K * (N * h) * (‖c‖ / 12 + C * h)) +
            h ^ 3 * (B * (N * h) * ‖c‖ / 12) + C * h ^ 4 := add_le_add (add_le_add (add_le_add i2 b1) b2) d
        _ = _ := by push_cast; ring

end exact

/-- The turning motion exists for a short time. -/
theorem turns_exist {a₀ a₁ : Quaternion ℝ} (p₀ : star a₀ = -a₀) (p₁ : star a₁ = -a₁) : ∃ q : ℝ → Quaternion ℝ, ∃ T : ℝ, 0 < T ∧ q 0 = 1 ∧ Turns q a₀ a₁ T := by
  set M : ℝ := ‖a₀‖ + ‖a₁‖ with hM
  have hM0 : 0 ≤ M := by positivity
  set T : ℝ := 1 / (2 * M + 1) with hT
  have hTp : 0 < T := by positivity
  have hT1 : T ≤ 1 := by rw [hT, div_le_one (by positivity)]; linarith
  have hA : ∀ t ∈ Icc 0 T, ‖a₀ + t • a₁‖ ≤ M := fun t ht => by
    refine (norm_add_le _ _).trans (add_le_add le_rfl ?_)
    rw [norm_smul, Real.norm_eq_abs, abs_of_nonneg ht.1]
    exact mul_le_of_le_one_left (norm_nonneg _) (ht.2.trans hT1)
  have P : IsPicardLindelof (fun (t : ℝ) (x : Quaternion ℝ) => x * (a₀ + t • a₁)) (tmin := 0) (tmax := T) ⟨0, ⟨le_rfl, hTp.le⟩⟩ 1 1 0 (2 * ⟨M, hM0⟩) ⟨M, hM0⟩ := by
    refine ⟨fun t ht => ?_, fun x _ => ?_, fun t ht x hx => ?_, ?_⟩
    · refine LipschitzOnWith.of_dist_le_mul fun x _ y _ => ?_
      rw [dist_eq_norm, dist_eq_norm, ← sub_mul, norm_mul, mul_comm]
      exact mul_le_mul_of_nonneg_right (hA t ht) (norm_nonneg _)
    · fun_prop
    · rw [norm_mul]
      have hx1 : ‖x‖ ≤ 2 := by
        have h1 : ‖x - 1‖ ≤ 1 := by simpa [dist_eq_norm] using hx
        calc ‖x‖ = ‖(x - 1) + 1‖ := by rw [sub_add_cancel]
          _ ≤ ‖x - 1‖ + ‖(1 : Quaternion ℝ)‖ := norm_add_le _ _
          _ ≤ 2 := by rw [norm_one]; linarith
      exact mul_le_mul hx1 (hA t ht) (norm_nonneg _) (by norm_num)
    · show 2 * M * max (T - 0) (0 - 0) ≤ 1 - 0
      rw [sub_zero, sub_zero, max_eq_left hTp.le, hT, mul_one_div, div_le_iff₀ (by positivity)]
      linarith
  obtain ⟨q, hq0, hq⟩ := P.exists_eq_forall_mem_Icc_hasDerivWithinAt₀
  refine ⟨q, T, hTp, hq0, hq, fun t ht => ?_⟩
  have hd : ∀ t ∈ Icc 0 T, HasDerivWithinAt (fun t => q t * star (q t)) 0 (Icc 0 T) t := fun t ht => by
    have h1 := hq t ht
    have h2 : HasDerivWithinAt (fun t => star (q t)) (star (q t * (a₀ + t • a₁))) (Icc 0 T) t := starQ.hasFDerivAt.comp_hasDerivWithinAt t h1
    refine (h1.mul h2).congr_deriv ?_
    have hp : star (a₀ + t • a₁) = -(a₀ + t • a₁) := star_add_pure p₀ (star_smul_pure _ p₁)
    generalize a₀ + t • a₁ = A at *
    rw [star_mul, hp, ← mul_assoc]
    simp
  have := (convex_Icc 0 T).norm_image_sub_le_of_norm_hasDerivWithin_le hd (C := 0) (fun t _ => by simp) (x := 0) (y := t) ⟨le_rfl, hTp.le⟩ ht
  rw [zero_mul, norm_le_zero_iff, sub_eq_zero] at this
  have hq0' : q 0 = 1 := hq0
  rw [hq0', star_one, mul_one, Quaternion.self_mul_star] at this
  have h3 : Quaternion.normSq (q t) = 1 := by
    have := congrArg (fun z : Quaternion ℝ => z.re) this
    simp at this
    exact this
  rw [Quaternion.normSq_eq_norm_mul_self] at h3
  nlinarith [norm_nonneg (q t)]

theorem norm_exp_pure {y : Quaternion ℝ} (hy : star y = -y) : ‖exp y‖ = 1 := by
  have : y.re = 0 := by
    have := congrArg (fun z : Quaternion ℝ => z.re) hy
    simp at this
    linarith
  rw [Quaternion.norm_exp, this]; simp

theorem norm_turn38 {a a₁ : Quaternion ℝ} (pa : star a = -a) (pa₁ : star a₁ = -a₁) (h : ℝ) : ‖turn38 a₁ (h, a)‖ = 1 := by
  have p2 : star (s2 a₁ (h, a)) = -s2 a₁ (h, a) := star_cj (star_smul_pure _ pa) (star_add_pure pa (star_smul_pure _ pa₁))
  have p3 : star (s3 a₁ (h, a)) = -s3 a₁ (h, a) :=
    star_cj (star_smul_pure _ (star_add_pure (star_smul_pure _ pa) p2)) (star_add_pure pa (star_smul_pure _ pa₁))
  have p23 : star (a - s2 a₁ (h, a) + s3 a₁ (h, a)) = -(a - s2 a₁ (h, a) + s3 a₁ (h, a)) := by
    rw [star_add, star_sub, pa, p2, p3]; abel
  have p4 : star (s4 a₁ (h, a)) = -s4 a₁ (h, a) := star_cj (star_smul_pure _ p23) (star_add_pure pa (star_smul_pure _ pa₁))
  exact norm_exp_pure (star_smul_pure _ (star_add_pure (star_add_pure (star_add_pure (star_smul_pure _ pa) (star_smul_pure _ p2)) (star_smul_pure _ p3))
    (star_smul_pure _ p4)))

/-- The 3/8 rule misses the turning motion by an amount of second order. -/
theorem turns_missed {q : ℝ → Quaternion ℝ} {a₀ a₁ : Quaternion ℝ} {T₀ : ℝ} (p₀ : star a₀ = -a₀) (p₁ : star a₁ = -a₁) (hT₀ : 0 < T₀) (q0 : q 0 = 1)
    (H : Turns q a₀ a₁ T₀) (hc : a₀ * a₁ - a₁ * a₀ ≠ 0) :
    ∃ T₁ : ℝ, 0 < T₁ ∧ T₁ ≤ T₀ ∧ ∀ T ∈ Ioc 0 T₁, ∃ c : ℝ, 0 < c ∧ ∃ n₀ : ℕ, 0 < n₀ ∧ ∀ n ≥ n₀,
      c * (T / n) ^ 2 ≤ ‖reached a₀ a₁ (T / n) n - q T‖ := by
  set c := a₀ * a₁ - a₁ * a₀ with hcdef
  have hcp : 0 < ‖c‖ := norm_pos_iff.2 hc
  obtain ⟨C, η, hC, hη, hd⟩ := turns_defect H
  set R : ℝ := ‖a₀‖ + T₀ * ‖a₁‖ with hR
  have hR0 : 0 ≤ R := by positivity
  obtain ⟨K, η', hK, hη', hS⟩ := turn38_small R a₁
  have hA : ∀ t ∈ Icc 0 T₀, ‖a₀ + t • a₁‖ ≤ R := fun t ht => by
    refine (norm_add_le _ _).trans (add_le_add le_rfl ?_)
    rw [norm_smul, Real.norm_eq_abs, abs_of_nonneg ht.1]
    exact mul_le_mul_of_nonneg_right ht.2 (norm_nonneg _)
  have hq1 : ∀ t ∈ Icc 0 T₀, ‖q t - 1‖ ≤ R * t := fun t ht => by
    have := lip_of_bound H.1 (Γ := R) (fun t ht => by rw [norm_mul, H.2 t ht, one_mul]; exact hA t ht) t ht 0 ⟨le_rfl, hT₀.le⟩
    rwa [q0, sub_zero, abs_of_nonneg ht.1] at this
  refine ⟨min T₀ (1 / (4 * (K + R) + 1)), lt_min hT₀ (by positivity), min_le_left _ _, fun T hT => ?_⟩
  have hTT : T ≤ T₀ := hT.2.trans (min_le_left _ _)
  have hTK : T * (K + R) ≤ 1 / 4 := by
    have : T ≤ 1 / (4 * (K + R) + 1) := hT.2.trans (min_le_right _ _)
    rw [le_div_iff₀ (by positivity)] at this
    nlinarith [hT.1]
  have hTp := hT.1
  -- the bound on the step
  set δ : ℝ := min (min η η') (‖c‖ / (96 * (C + 1))) with hδ
  have hδp : 0 < δ := lt_min (lt_min hη hη') (by positivity)
  obtain ⟨n₁, hn₁⟩ := exists_nat_gt (T / δ)
  refine ⟨T * ‖c‖ / 24, by positivity, n₁ + 1, by omega, fun n hn => ?_⟩
  have hnp : (0 : ℝ) < n := by exact_mod_cast (by omega : 0 < n)
  set h : ℝ := T / n with hh
  have hp : 0 < h := by positivity
  have hnh : n * h = T := by rw [hh]; field_simp
  have hhδ : h ≤ δ := by
    rw [hh, div_le_iff₀ hnp, mul_comm, ← div_le_iff₀ hδp]
    have : (n₁ : ℝ) ≤ n := by exact_mod_cast (by omega : n₁ ≤ n)
    linarith
  have hCh : C * h ≤ ‖c‖ / 96 := by
    have h1 : h ≤ ‖c‖ / (96 * (C + 1)) := hhδ.trans (min_le_right _ _)
    rw [le_div_iff₀ (by positivity)] at h1
    nlinarith
  have hi : ∀ i < n, (i : ℝ) * h ∈ Icc 0 T₀ ∧ (i : ℝ) * h + h ≤ T₀ := fun i hi => by
    have h1 : ((i + 1 : ℕ) : ℝ) ≤ n := by exact_mod_cast hi
    have h2 : ((i + 1 : ℕ) : ℝ) * h ≤ n * h := mul_le_mul_of_nonneg_right h1 hp.le
    push_cast at h2
    refine ⟨⟨by positivity, ?_⟩, ?_⟩ <;> nlinarith
  have key := (errors_add (S := fun n => turn38 a₁ (h, a₀ + (n * h) • a₁)) (p := reached a₀ a₁ h) (qs := fun n => q (n * h)) (c := c) (h := h) (K := K) (B := R) (C := C) (N := n)
    hp.le hK hR0 hC (by simp [reached, q0]) (fun n => rfl)
    (fun i _ => norm_turn38 (star_add_pure p₀ (star_smul_pure _ p₁)) p₁ h)
    (fun i hin => hS h hp.le (hhδ.trans ((min_le_left _ _).trans (min_le_right _ _))) _ (hA _ (hi i hin).1))
    (fun i hin => hq1 _ (hi i hin).1)
    (fun i hin => H.2 _ (hi i hin).1)
    (fun i hin => by
      have := hd (i * h) (hi i hin).1 h hp.le (hhδ.trans ((min_le_left _ _).trans (min_le_left _ _))) (hi i hin).2
      rw [show (i : ℝ) * h + h = ((i + 1 : ℕ) : ℝ) * h by push_cast; ring] at this
      exact this) n le_rfl).2
  simp only [hnh] at key
  set e := reached a₀ a₁ h n - q T with he
  have k1 : ‖(n * h ^ 3 / 12) • c‖ = T * h ^ 2 * (‖c‖ / 12) := by
    rw [norm_smul, Real.norm_eq_abs, abs_of_nonneg (by positivity), ← hnh]; ring
  have k2 : ‖(n * h ^ 3 / 12) • c‖ ≤ ‖e‖ + ‖e - (n * h ^ 3 / 12) • c‖ := by
    have := norm_sub_le e (e - (n * h ^ 3 / 12) • c)
    rwa [sub_sub_cancel] at this
  have k3 : K * T * (‖c‖ / 12 + C * h) + R * T * ‖c‖ / 12 + C * h ≤ ‖c‖ / 24 := by
    have hKT : K * T ≤ 1 / 4 := by nlinarith
    have e1 : K * T * (C * h) ≤ 1 / 4 * (‖c‖ / 96) := mul_le_mul hKT hCh (by positivity) (by norm_num)
    have e2 : T * (K + R) * (‖c‖ / 12) ≤ 1 / 4 * (‖c‖ / 12) := mul_le_mul_of_nonneg_right hTK (by positivity)
    nlinarith
  have k4 : n * h ^ 3 * (K * T * (‖c‖ / 12 + C * h) + R * T * ‖c‖ / 12 + C * h) ≤ T * h ^ 2 * (‖c‖ / 24) := by
    rw [show (n : ℝ) * h ^ 3 = T * h ^ 2 by rw [← hnh]; ring]
    exact mul_le_mul_of_nonneg_left k3 (by positivity)
  have : T * ‖c‖ / 24 * h ^ 2 = T * h ^ 2 * (‖c‖ / 12) - T * h ^ 2 * (‖c‖ / 24) := by ring
  linarith

/-! ## The code's flight -/

theorem q38_code : coefOf (rowsOf (patch tabRK438)) (weightsOf (patch tabRK438)) = q38 := by
  rw [show patch tabRK438 = tabRK438 by decide +kernel]
  unfold q38
  congr 1
  · simp [rowsOf, tabRK438, castT, castL]; norm_num
  · simp [weightsOf, tabRK438, castL]

theorem spin_march {τ w : V3 ℝ} {g : ℝ → RBState → RBDeriv} (hg : Spin τ g) (h : ℝ) (n k : ℕ) (x : St) (hx : UnitO x)
    (hw : half x.1.2.2 = half w + (k * h) • half τ) (hq : x.2 = reached (half w) (half τ) h k) :
    (march (stepG q38 advE (lift g)) (k * h) x (List.replicate n h)).2 = reached (half w) (half τ) h (k + n) := by
  induction n generalizing k x with
  | zero => exact hq
  | succ n ih =>
    rw [List.replicate_succ, march]
    obtain ⟨e1, e2⟩ := spin_step hg (k * h) h hx
    have hu : UnitO (stepG q38 advE (lift g) (k * h) x h) := by
      unfold UnitO
      rw [e2, norm_mul, norm_turn38 (star_half _) (star_half _), mul_one]; exact hx
    have := ih (k + 1) (stepG q38 advE (lift g) (k * h) x h) hu
      (by rw [e1, half_add, half_smul, hw]; push_cast; module) (by rw [e2, hw, hq, reached])
    rw [show (k : ℝ) * h + h = ((k + 1 : ℕ) : ℝ) * h by push_cast; ring, this]
    congr 1; omega

theorem rotF_zero {q : Quat ℝ} (hq : Quat.Unit q) : q.rotF 0 = 0 := by
  rw [rotF_unit hq]
  apply V3.ext' <;> simp [Quat.sandwich, Quat.mul, Quat.conj]

theorem comm_half (w τ : V3 ℝ) : half w * half τ - half τ * half w = half (V3.cross w τ) := by
  ext <;> simp [half, V3.cross] <;> ring

/-- **C94.** The 3/8 rule, whose tableau is of fourth order, is of second order only on bodies that tumble: a sphere that turns with angular velocity
`w` and feels a constant moment `τ` not along `w` is missed by at least a fixed multiple of the square of the step size, however small the step. -/
theorem tumbling_order_violated (w τ : V3 ℝ) (hwt : V3.cross w τ ≠ 0) :
    ∃ y : ℝ → RBState, ∃ T₁ : ℝ, 0 < T₁ ∧ y 0 = ⟨0, 0, ⟨1, 0, 0, 0⟩, w⟩ ∧
      RigidMotion (fun _ _ => 0) (fun _ _ => τ) (fun _ _ => ⟨1, ⟨1, 1, 1⟩, 0⟩) y 0 T₁ ∧
      ∀ T ∈ Ioc 0 T₁, ∃ c : ℝ, 0 < c ∧ ∃ n₀ : ℕ, 0 < n₀ ∧ ∀ n ≥ n₀,
        ∃ s', flySteps "RK4_3/8" (bodyRhs (fun _ _ => 0) (fun _ _ => τ) (fun _ _ => ⟨1, ⟨1, 1, 1⟩, 0⟩)) 0 (y 0) (List.replicate n (T / n)) = .ok s' ∧
          c * (T / n) ^ 2 ≤ ‖Quat.toH s'.ori - Quat.toH (y T).ori‖ := by
  obtain ⟨q, T₀, hT₀, q0, H⟩ := turns_exist (star_half w) (star_half τ)
  have hc : half w * half τ - half τ * half w ≠ 0 := by
    rw [comm_half]
    intro h0
    apply hwt
    have : ‖V3.cross w τ‖ = 0 := by
      have := norm_half (V3.cross w τ)
      rw [h0, norm_zero] at this
      linarith
    exact norm_eq_zero.1 this
  obtain ⟨T₁, hT₁, hle, key⟩ := turns_missed (star_half w) (star_half τ) hT₀ q0 H hc
  have toQ : ∀ t, Quat.toH (⟨(q t).re, (q t).imI, (q t).imJ, (q t).imK⟩ : Quat ℝ) = q t := fun t => rfl
  have hsub : Icc (0 : ℝ) T₁ ⊆ Icc 0 T₀ := Icc_subset_Icc le_rfl hle
  have hu : ∀ t ∈ Icc 0 T₁, Quat.Unit (⟨(q t).re, (q t).imI, (q t).imJ, (q t).imK⟩ : Quat ℝ) := fun t ht =>
    (unitO_enc ⟨0, 0, _, 0⟩).1 (H.2 t (hsub ht))
  have ne : ∀ (t : ℝ) (s : RBState), ((fun _ _ => ⟨1, ⟨1, 1, 1⟩, 0⟩ : ℝ → RBState → MassProps) t s).mass ≠ 0 ∧
      ((fun _ _ => ⟨1, ⟨1, 1, 1⟩, 0⟩ : ℝ → RBState → MassProps) t s).moi.x ≠ 0 ∧ ((fun _ _ => ⟨1, ⟨1, 1, 1⟩, 0⟩ : ℝ → RBState → MassProps) t s).moi.y ≠ 0 ∧
      ((fun _ _ => ⟨1, ⟨1, 1, 1⟩, 0⟩ : ℝ → RBState → MassProps) t s).moi.z ≠ 0 := fun t s => ⟨one_ne_zero, one_ne_zero, one_ne_zero, one_ne_zero⟩
  refine ⟨fun t => ⟨0, 0, ⟨(q t).re, (q t).imI, (q t).imJ, (q t).imK⟩, w + t • τ⟩, T₁, hT₁, ?_, ?_, fun T hT => ?_⟩
  · dsimp only
    rw [q0]
    simp only [zero_smul, add_zero]
    rfl
  · refine ⟨hu, fun t ht => ?_, fun t ht => ⟨0, hasDerivWithinAt_const _ _ _, ?_⟩, fun t ht => ?_, fun t ht => ⟨τ, ?_, ?_⟩⟩
    · dsimp only
      rw [sub_self, smul_zero, rotF_zero (hu t ht), add_zero]
      exact hasDerivWithinAt_const _ _ _
    · dsimp only
      rw [rotF_zero (hu t ht), smul_zero]
    · dsimp only
      simp only [toQ]
      refine ((H.1 t (hsub ht)).mono hsub).congr_deriv ?_
      rw [← half_smul, ← half_add]
      unfold half
      rw [mul_smul_comm]
    · dsimp only
      have h1 : HasDerivAt (fun s : ℝ => s • τ) τ t := by simpa using (hasDerivAt_id t).smul_const τ
      exact (h1.const_add w).hasDerivWithinAt
    · dsimp only
      apply V3.ext' <;> simp [tensor, V3.cross] <;> ring
  · obtain ⟨c, hcp, n₀, hn₀, hn⟩ := key T hT
    refine ⟨c, hcp, n₀, hn₀, fun n hnn => ?_⟩
    obtain ⟨g, hg⟩ := rigid_rhs (force := fun _ _ => 0) (moment := fun _ _ => τ) ne
    have hspin : Spin τ g := fun t s hs => by
      obtain ⟨_, _, _, h3, h4⟩ := hg t s hs
      refine ⟨h3, ?_⟩
      rw [tensor_solve _ _ _ _ (ne t s).2.1 (ne t s).2.2.1 (ne t s).2.2.2] at h4
      rw [h4]
      apply V3.ext' <;> simp
    have hnp : 0 < n := by omega
    have hhp : T / n ≠ 0 := by
      have := hT.1
      have : (0 : ℝ) < n := by exact_mod_cast hnp
      positivity
    obtain ⟨s', k1, _, k3⟩ := fly_march (g := g) "RK4_3/8" q38 _ (fun t y hy dt hdt => by
      have := tableau_step "RK4_3/8" tabRK438 (by simp [classicalTableau]) _ g (fun t s hs => (hg t s hs).1) t y hy dt hdt
      rwa [q38_code] at this) (List.replicate n (T / n)) (fun k hk => by rw [List.eq_of_mem_replicate hk]; exact hhp) 0
      ⟨0, 0, ⟨(q 0).re, (q 0).imI, (q 0).imJ, (q 0).imK⟩, w + (0 : ℝ) • τ⟩ (hu 0 ⟨le_rfl, hT₁.le⟩)
    refine ⟨s', k1, ?_⟩
    have k4 : Quat.toH s'.ori = (enc s').2 := rfl
    have k5 := spin_march (w := w) hspin (T / n) n 0 (enc ⟨0, 0, ⟨(q 0).re, (q 0).imI, (q 0).imJ, (q 0).imK⟩, w + (0 : ℝ) • τ⟩)
      ((unitO_enc _).2 (hu 0 ⟨le_rfl, hT₁.le⟩)) (by simp [enc]) (by show q 0 = _; rw [q0, reached])
    rw [Nat.cast_zero, zero_mul, zero_add] at k5
    rw [k4, k3, k5]
    exact hn n hnn

/-- an angular velocity and a moment in different directions -/
example : V3.cross (⟨1, 0, 0⟩ : V3 ℝ) ⟨0, 1, 0⟩ ≠ 0 := by
  intro h
  have := congrArg V3.z h
  simp [V3.cross] at this

/-- **C94.** So the bound of `rigid_body_converges` for the 3/8 rule cannot be improved to the third order (let alone the fourth). -/
theorem third_order_violated (w τ : V3 ℝ) (hwt : V3.cross w τ ≠ 0) :
    ∃ y : ℝ → RBState, ∃ T : ℝ, 0 < T ∧ RigidMotion (fun _ _ => 0) (fun _ _ => τ) (fun _ _ => ⟨1, ⟨1, 1, 1⟩, 0⟩) y 0 T ∧
      ¬ ∃ C h₀ : ℝ, 0 < h₀ ∧ ∀ h ∈ Ioc 0 h₀, ∀ hs : List ℝ, (∀ k ∈ hs, 0 < k ∧ k ≤ h) → hs.sum ≤ T →
        ∃ s', flySteps "RK4_3/8" (bodyRhs (fun _ _ => 0) (fun _ _ => τ) (fun _ _ => ⟨1, ⟨1, 1, 1⟩, 0⟩)) 0 (y 0) hs = .ok s' ∧
          ‖Quat.toH s'.ori - Quat.toH (y hs.sum).ori‖ ≤ C * h ^ 3 := by
  obtain ⟨y, T, hT, _, hM, hlow⟩ := tumbling_order_violated w τ hwt
  refine ⟨y, T, hT, hM, ?_⟩
  rintro ⟨C, h₀, hh₀, hup⟩
  obtain ⟨c, hc, n₀, hn₀, hlow⟩ := hlow T ⟨hT, le_rfl⟩
  obtain ⟨n₁, hn₁⟩ := exists_nat_gt (T / h₀)
  obtain ⟨n₂, hn₂⟩ := exists_nat_gt (|C| * T / c)
  set n := n₀ + n₁ + n₂ with hn
  have hnp : (0 : ℝ) < n := by exact_mod_cast (by omega : 0 < n)
  have c1 : (n₁ : ℝ) ≤ n := by exact_mod_cast (by omega : n₁ ≤ n)
  have c2 : (n₂ : ℝ) ≤ n := by exact_mod_cast (by omega : n₂ ≤ n)
  have hp : 0 < T / n := by positivity
  have hle : T / n ≤ h₀ := by
    rw [div_le_iff₀ hnp, mul_comm, ← div_le_iff₀ hh₀]; linarith
  have hsum : (List.replicate n (T / n)).sum = T := by
    rw [List.sum_replicate, nsmul_eq_mul]; field_simp
  obtain ⟨s', k1, k2⟩ := hup (T / n) ⟨hp, hle⟩ (List.replicate n (T / n)) (fun k hk => by rw [List.eq_of_mem_replicate hk]; exact ⟨hp, le_rfl⟩) hsum.le
  obtain ⟨s'', k3, k4⟩ := hlow n (by omega)
  rw [k1] at k3
  obtain rfl : s' = s'' := by injection k3
  rw [hsum] at k2
  have k5 : c * (T / n) ^ 2 ≤ |C| * (T / n) ^ 3 := k4.trans (k2.trans (mul_le_mul_of_nonneg_right (le_abs_self C) (by positivity)))
  have k6 : c ≤ |C| * (T / n) := by
    have : c * (T / n) ^ 2 ≤ (|C| * (T / n)) * (T / n) ^ 2 := k5.trans (le_of_eq (by ring))
    exact le_of_mul_le_mul_right this (by positivity)
  have k7 : |C| * T < n * c := by
    rw [div_lt_iff₀ hc] at hn₂
    exact hn₂.trans_le (mul_le_mul_of_nonneg_right c2 hc.le)
  have k8 : n * c ≤ |C| * T := by
    rw [mul_div_assoc', le_div_iff₀ hnp] at k6; linarith
  linarith

end Mapleaf.Motion.Turn
