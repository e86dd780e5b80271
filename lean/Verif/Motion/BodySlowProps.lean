import Verif.Motion.BodyFlyProps
import Verif.Motion.LooseOrderProps
import Verif.Motion.TurnRigidProps

/-! # C105: bodies that turn less than once per second -/

namespace Mapleaf.Motion.Turn
open Set Mapleaf.Motion.Lim Mapleaf.Motion.RK Mapleaf.Motion.Body Mapleaf
open NormedSpace (exp)

attribute [local instance] vNorm vSpace

/-- The rotation vector of a rotation near the one of a vector of at most `Ω < 2π`. -/
theorem vector_near {Ω : ℝ} (h0 : 0 ≤ Ω) (h1 : Ω < 2 * Real.pi) : ∃ θ M₀ : ℝ, 0 < θ ∧ 0 ≤ M₀ ∧ ∀ w W : V3 ℝ, ‖w‖ < 2 * Real.pi → ‖W‖ ≤ Ω → ‖exp (half w) - exp (half W)‖ ≤ θ →
    ‖w - W‖ ≤ M₀ * ‖exp (half w) - exp (half W)‖ := by
  have hpi := Real.pi_pos
  obtain ⟨M₀, hM₀, lip⟩ := log_lip (Ω := (Ω + 2 * Real.pi) / 2) (by linarith) (by linarith)
  have hcos : Real.cos ((Ω + 2 * Real.pi) / 2 / 2) < Real.cos (Ω / 2) := Real.cos_lt_cos_of_nonneg_of_le_pi (by linarith) (by linarith) (by linarith)
  refine ⟨Real.cos (Ω / 2) - Real.cos ((Ω + 2 * Real.pi) / 2 / 2), M₀, by linarith, hM₀, fun w W hw hW hθ => lip w W ?_ (by linarith)⟩
  by_contra hc
  push Not at hc
  have e1 : Real.cos (‖w‖ / 2) < Real.cos ((Ω + 2 * Real.pi) / 2 / 2) := Real.cos_lt_cos_of_nonneg_of_le_pi (by linarith) (by linarith) (by linarith)
  have e2 : Real.cos (Ω / 2) ≤ Real.cos (‖W‖ / 2) := Real.cos_le_cos_of_nonneg_of_le_pi (by have := norm_nonneg W; linarith) (by linarith) (by linarith)
  have e3 := re_norm_le (exp (half w) - exp (half W))
  rw [Quaternion.re_sub, (exp_half_parts w).1, (exp_half_parts W).1] at e3
  have e4 := neg_abs_le (Real.cos (‖w‖ / 2) - Real.cos (‖W‖ / 2))
  linarith

/-- a full turn is not near such a rotation -/
theorem full_turn_far {Ω : ℝ} (h0 : 0 ≤ Ω) (h1 : Ω < 2 * Real.pi) : ∃ θ : ℝ, 0 < θ ∧ ∀ (r : Quat ℝ) (W : V3 ℝ), ‖W‖ ≤ Ω → ‖Quat.toH r - exp (half W)‖ ≤ θ → r ≠ ⟨-1, 0, 0, 0⟩ := by
  have hpi := Real.pi_pos
  have hcos : Real.cos Real.pi < Real.cos (Ω / 2) := Real.cos_lt_cos_of_nonneg_of_le_pi (by linarith) le_rfl (by linarith)
  rw [Real.cos_pi] at hcos
  refine ⟨(Real.cos (Ω / 2) + 1) / 2, by linarith, ?_⟩
  rintro r W hW hθ rfl
  have e2 : Real.cos (Ω / 2) ≤ Real.cos (‖W‖ / 2) := Real.cos_le_cos_of_nonneg_of_le_pi (by have := norm_nonneg W; linarith) (by linarith) (by linarith)
  have e3 := re_norm_le (Quat.toH ⟨-1, 0, 0, 0⟩ - exp (half W))
  rw [Quaternion.re_sub, (exp_half_parts W).1] at e3
  have e4 : (Quat.toH ⟨-1, 0, 0, 0⟩ : Quaternion ℝ).re = -1 := rfl
  rw [e4] at e3
  have e5 := neg_abs_le (-1 - Real.cos (‖W‖ / 2))
  linarith

theorem row_abs (q : Coef) {R : ℝ} (hR : 0 ≤ R) (hA : ∀ i j, |q.A i j| ≤ R) {i s : ℕ} (hi : i ≤ s) : ∑ j ∈ Finset.range i, |q.A i j| ≤ s * R := by
  refine (Finset.sum_le_sum fun j _ => hA i j).trans ?_
  rw [Finset.sum_const, Finset.card_range, nsmul_eq_mul]
  exact mul_le_mul_of_nonneg_right (by exact_mod_cast hi) hR

theorem combo_near {D : Type} [NormedAddCommGroup D] [NormedSpace ℝ D] (q : Coef) {R : ℝ} (hR : 0 ≤ R) (hA : ∀ i j, |q.A i j| ≤ R) {i s : ℕ} (hi : i ≤ s) {ε σ B : ℝ} (hσ : 0 ≤ σ) (hε : 0 ≤ ε)
    (hrow : |∑ j ∈ Finset.range i, q.A i j - q.c i| ≤ s * ε) {G : D} (hG : ‖G‖ ≤ B) {k : ℕ → D} (hk : ∀ j < i, ‖k j - G‖ ≤ σ) :
    ‖∑ j ∈ Finset.range i, q.A i j • k j - q.c i • G‖ ≤ s * R * σ + s * ε * B := by
  have e : ∑ j ∈ Finset.range i, q.A i j • k j - q.c i • G = ∑ j ∈ Finset.range i, q.A i j • (k j - G) + (∑ j ∈ Finset.range i, q.A i j - q.c i) • G := by
    simp only [smul_sub, Finset.sum_sub_distrib, ← Finset.sum_smul, sub_smul]
    abel
  rw [e]
  refine (norm_add_le _ _).trans (add_le_add (sum_le_card (u := fun j => k j - G) (w := q.A i) hi hR hσ (hA i) hk) ?_)
  rw [norm_smul, Real.norm_eq_abs]
  exact mul_le_mul hrow hG (norm_nonneg _) (by positivity)

/-- the rotation of a stage, near the one of `cᵢ` times the angular velocity -/
theorem turn_near (q : Coef) {R : ℝ} (hR : 0 ≤ R) (hA : ∀ i j, |q.A i j| ≤ R) {i s : ℕ} (hi : i ≤ s) {ε σ Ω : ℝ} (hσ : 0 ≤ σ) (hε : 0 ≤ ε)
    (hrow : |∑ j ∈ Finset.range i, q.A i j - q.c i| ≤ s * ε) {W : V3 ℝ} (hW : ‖W‖ ≤ Ω) {p : Quaternion ℝ}
    (hp : ‖p - exp (half ((∑ j ∈ Finset.range i, q.A i j) • W))‖ ≤ (∑ j ∈ Finset.range i, |q.A i j|) * σ) :
    ‖p - exp (half (q.c i • W))‖ ≤ s * R * σ + s * ε * Ω := by
  have e1 := norm_sub_le_norm_sub_add_norm_sub p (exp (half ((∑ j ∈ Finset.range i, q.A i j) • W))) (exp (half (q.c i • W)))
  have e2 := exp_half_lip ((∑ j ∈ Finset.range i, q.A i j) • W) (q.c i • W)
  rw [← sub_smul, norm_smul, Real.norm_eq_abs] at e2
  have e3 := mul_le_mul hrow hW (norm_nonneg _) (by positivity)
  have e4 := mul_le_mul_of_nonneg_right (row_abs q hR hA hi) hσ
  linarith

/-- **C105.** With less than one turn per second along the motion, the stages are in the right place to first order. -/
theorem turned_near {g : ℝ → St → Ch} {y : ℝ → St} {a e B Ω R : ℝ} (s : ℕ) (hR : 0 ≤ R) (hB : ∀ t ∈ Icc a e, ‖g t (y t)‖ ≤ B) (h0 : 0 ≤ Ω) (h1 : Ω < 2 * Real.pi)
    (hΩ : ∀ t ∈ Icc a e, ‖(g t (y t)).2‖ ≤ Ω) : ∃ σ₀ M ε₁ : ℝ, 0 < σ₀ ∧ 0 ≤ M ∧ 0 < ε₁ ∧ (∀ ε ∈ Icc 0 ε₁, ∀ q : Coef, q.s = s → q.Bounded R →
      (∀ i < s, |∑ j ∈ Finset.range i, q.A i j - q.c i| ≤ s * ε) → ∀ t ∈ Icc a e, ∀ x h X k, Turned q t x h X k → Near advE q g y σ₀ M ε t x h X k) ∧
    (∀ ε ∈ Icc 0 ε₁, ∀ q : Coef, q.Bounded R → (∀ i < s, |∑ j ∈ Finset.range i, q.A i j - q.c i| ≤ s * ε) → ∀ t ∈ Icc a e, ∀ i < s, ∀ r : Quat ℝ,
      ‖Quat.toH r - exp (half ((∑ j ∈ Finset.range i, q.A i j) • (g t (y t)).2))‖ ≤ (∑ j ∈ Finset.range i, |q.A i j|) * σ₀ → r ≠ ⟨-1, 0, 0, 0⟩) := by
  obtain ⟨θ, M₀, hθ, hM₀, key⟩ := vector_near h0 h1
  obtain ⟨θ', hθ', far⟩ := full_turn_far h0 h1
  have hm : 0 < min θ θ' := lt_min hθ hθ'
  obtain ⟨σ₀, hσ₀, k⟩ := small_all [(s * R, min θ θ' / 2), (s * Ω, min θ θ' / 2)] (by
      simp only [List.mem_cons, List.not_mem_nil, or_false]
      rintro p (rfl | rfl) <;> dsimp only <;> constructor <;> positivity)
  have k1 := k σ₀ le_rfl (s * R, min θ θ' / 2) (by simp)
  have k2 := fun x hx => k x hx (s * Ω, min θ θ' / 2) (by simp)
  dsimp only at k1 k2
  have hB' : 0 ≤ |B| := abs_nonneg B
  have hcW : ∀ q : Coef, q.Bounded R → ∀ i, ∀ t ∈ Icc a e, ‖q.c i • (g t (y t)).2‖ ≤ Ω := by
    intro q hq i t ht
    rw [norm_smul, Real.norm_eq_abs, abs_of_nonneg (hq.c i).1]
    calc q.c i * ‖(g t (y t)).2‖ ≤ 1 * Ω := mul_le_mul (hq.c i).2 (hΩ t ht) (norm_nonneg _) zero_le_one
      _ = Ω := one_mul _
  refine ⟨σ₀, (1 + M₀) * (s * R + s * |B| + s * Ω), σ₀, hσ₀, by positivity, hσ₀, ?_, ?_⟩
  · intro ε hε q hqs hq hrow t ht x h X k hT i hi1 hi σ hσ hk
    have hi' : i ≤ s := by omega
    obtain ⟨w, w1, w2, w3⟩ := hT i hi1 hi
    have hW := hΩ t ht
    have hw := w3 (g t (y t)).2 σ hσ.1 (fun j hj => (norm_snd_le (k j - g t (y t))).trans (hk j hj))
    have near := turn_near q hR hq.A hi' hσ.1 hε.1 (hrow i (by omega)) hW hw
    have f1 : s * R * σ ≤ s * R * σ₀ := mul_le_mul_of_nonneg_left hσ.2 (by positivity)
    have f2 := k2 ε hε.2
    have f3 := min_le_left θ θ'
    have hd := key w (q.c i • (g t (y t)).2) w1 (hcW q hq i t ht) (near.trans (by linarith))
    have hε0 := hε.1
    have hσ0 := hσ.1
    have hcombo := combo_near q hR hq.A hi' hσ.1 hε.1 (hrow i (by omega)) ((hB t ht).trans (le_abs_self B)) hk
    refine ⟨((∑ j ∈ Finset.range i, q.A i j • k j).1, w), w2, ?_⟩
    have g1 : s * R * σ + s * ε * |B| ≤ (s * R + s * |B| + s * Ω) * (σ + ε) := by
      have : 0 ≤ s * R * ε + s * |B| * σ + s * Ω * (σ + ε) := by positivity
      linarith
    have g2 : s * R * σ + s * ε * Ω ≤ (s * R + s * |B| + s * Ω) * (σ + ε) := by
      have : 0 ≤ s * R * ε + s * |B| * (σ + ε) + s * Ω * σ := by positivity
      linarith
    have g3 : 0 ≤ (s * R + s * |B| + s * Ω) * (σ + ε) := by positivity
    rw [Prod.norm_def]
    apply max_le
    · refine (norm_fst_le (∑ j ∈ Finset.range i, q.A i j • k j - q.c i • g t (y t))).trans (hcombo.trans (g1.trans ?_))
      have : 0 ≤ M₀ * ((s * R + s * |B| + s * Ω) * (σ + ε)) := by positivity
      linarith
    · refine hd.trans ((mul_le_mul_of_nonneg_left (near.trans g2) hM₀).trans ?_)
      linarith
  · intro ε hε q hq hrow t ht i hi r hr
    have near := turn_near q hR hq.A hi.le hσ₀.le hε.1 (hrow i hi) (hΩ t ht) hr
    apply far r (q.c i • (g t (y t)).2) (hcW q hq i t ht) (near.trans _)
    have f2 := k2 ε hε.2
    have f3 := min_le_right θ θ'
    linarith

end Mapleaf.Motion.Turn
