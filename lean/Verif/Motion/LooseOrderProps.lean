import Verif.Motion.LooseStepProps

/-! # C105: second order for loose steps whose stages are in the right place to first order -/

namespace Mapleaf.Motion.Turn
open Set Mapleaf.Motion.Lim

theorem small_all (l : List (ℝ × ℝ)) (hl : ∀ p ∈ l, 0 ≤ p.1 ∧ 0 < p.2) : ∃ h : ℝ, 0 < h ∧ ∀ x, x ≤ h → ∀ p ∈ l, x * p.1 ≤ p.2 := by
  induction l with
  | nil => exact ⟨1, one_pos, by simp⟩
  | cons p l ih =>
    obtain ⟨h, h0, key⟩ := ih (fun q hq => hl q (by simp [hq]))
    obtain ⟨p1, p2⟩ := hl p (by simp)
    refine ⟨min h (p.2 / (p.1 + 1)), by positivity, fun x hx q hq => ?_⟩
    rcases List.mem_cons.1 hq with rfl | hq
    · calc x * q.1 ≤ q.2 / (q.1 + 1) * q.1 := mul_le_mul_of_nonneg_right (hx.trans (min_le_right _ _)) p1
        _ ≤ q.2 / (q.1 + 1) * (q.1 + 1) := mul_le_mul_of_nonneg_left (by linarith) (by positivity)
        _ = q.2 := by field_simp
    · exact key x (hx.trans (min_le_left _ _)) q hq

section loose
variable {E D : Type} [NormedAddCommGroup E] [NormedAddCommGroup D] [NormedSpace ℝ D]

/-- The stages are reached with a change near `cᵢ h` times the derivative of the motion, as far as the derivatives known before are near it. -/
def Near (adv : E → D → E) (q : Coef) (g : ℝ → E → D) (y : ℝ → E) (σ₀ M ε t : ℝ) (x : E) (h : ℝ) (X : ℕ → E) (k : ℕ → D) : Prop :=
  ∀ i, 1 ≤ i → i < q.s → ∀ σ ∈ Icc 0 σ₀, (∀ j < i, ‖k j - g t (y t)‖ ≤ σ) → ∃ v, X i = adv x (h • v) ∧ ‖v - q.c i • g t (y t)‖ ≤ M * (σ + ε)

variable {adv : E → D → E} {P : E → Prop} {g : ℝ → E → D} {y : ℝ → E} {γ' : ℝ → D} {a e L ρ B Γ η K R N : ℝ}

/-- where a stage is -/
theorem stage_place (S : Chart adv P η K) (C : Course adv P g y a e L ρ B Γ) {q : Coef} (hqc : ∀ i, q.c i ∈ Icc (0 : ℝ) 1) {σ₀ M ε σ t h d H : ℝ} (hM : 0 ≤ M) (hε : ε ∈ Icc (0 : ℝ) 1)
    (ht : t ∈ Icc a e) (h0 : 0 ≤ h) (hH : h ≤ H) (hte : t + h ≤ e) (hρ : h ≤ ρ) {x : E} (hPx : P x) (hx : ‖x - y t‖ ≤ d) {X : ℕ → E} {k : ℕ → D}
    (hn : Near adv q g y σ₀ M ε t x h X k) {i : ℕ} (hi1 : 1 ≤ i) (hi : i < q.s) (hσ : σ ∈ Icc 0 σ₀) (hk : ∀ j < i, ‖k j - g t (y t)‖ ≤ σ)
    (s1 : h * (B + M * (σ₀ + 1)) ≤ η) (s2 : h * (K * (B + M * (σ₀ + 1))) ≤ 1) :
    ‖X i - y (t + h * q.c i)‖ ≤ 2 * d + H * (K * (M * (σ + ε))) + Γ * H ^ 2 := by
  obtain ⟨v, hv, hv2⟩ := hn i hi1 hi σ hσ hk
  have hc := hqc i
  have hd0 : 0 ≤ d := (norm_nonneg _).trans hx
  have hcG : ‖q.c i • g t (y t)‖ ≤ B := by
    rw [norm_smul, Real.norm_eq_abs, abs_of_nonneg hc.1]
    calc q.c i * ‖g t (y t)‖ ≤ 1 * B := mul_le_mul hc.2 (C.bound t ht) (norm_nonneg _) zero_le_one
      _ = B := one_mul _
  have hMσ : M * (σ + ε) ≤ M * (σ₀ + 1) := mul_le_mul_of_nonneg_left (by linarith [hσ.2, hε.2]) hM
  have hvn : ‖v‖ ≤ B + M * (σ₀ + 1) := by
    have : ‖v‖ ≤ ‖q.c i • g t (y t)‖ + ‖v - q.c i • g t (y t)‖ := norm_le_norm_add_norm_sub' _ _
    linarith
  have hn1 : ‖h • v‖ ≤ h * (B + M * (σ₀ + 1)) := by
    rw [norm_smul, Real.norm_eq_abs, abs_of_nonneg h0]
    exact mul_le_mul_of_nonneg_left hvn h0
  have hMnn : 0 ≤ M * (σ₀ + 1) := mul_nonneg hM (by linarith [hσ.1, hσ.2])
  have hn2 : ‖(h * q.c i) • g t (y t)‖ ≤ η := by
    rw [mul_smul, norm_smul, Real.norm_eq_abs, abs_of_nonneg h0]
    exact (mul_le_mul_of_nonneg_left (by linarith) h0).trans s1
  have e1 := S.near x (y t) _ _ hPx (C.good t ht) (hn1.trans s1) hn2
  have en : ‖h • v - (h * q.c i) • g t (y t)‖ = h * ‖v - q.c i • g t (y t)‖ := by
    rw [mul_smul, ← smul_sub, norm_smul, Real.norm_eq_abs, abs_of_nonneg h0]
  rw [en] at e1
  have hti : 0 ≤ h * q.c i := mul_nonneg h0 hc.1
  have htl : h * q.c i ≤ h := by
    calc h * q.c i ≤ h * 1 := mul_le_mul_of_nonneg_left hc.2 h0
      _ = h := mul_one h
  have e2 := C.tangent t ht (h * q.c i) hti (htl.trans hρ) (by linarith)
  rw [hv]
  have e3 := norm_sub_le_norm_sub_add_norm_sub (adv x (h • v)) (adv (y t) ((h * q.c i) • g t (y t))) (y (t + h * q.c i))
  rw [norm_sub_rev (adv (y t) _)] at e3
  have f1 : (1 + K * ‖h • v‖) * ‖x - y t‖ ≤ 2 * d := by
    refine mul_le_mul ?_ hx (norm_nonneg _) (by norm_num)
    have := mul_le_mul_of_nonneg_left hn1 S.hK
    have e : K * (h * (B + M * (σ₀ + 1))) = h * (K * (B + M * (σ₀ + 1))) := by ring
    linarith
  have f2 : K * (h * ‖v - q.c i • g t (y t)‖) ≤ H * (K * (M * (σ + ε))) := by
    calc K * (h * ‖v - q.c i • g t (y t)‖) ≤ K * (H * (M * (σ + ε))) :=
          mul_le_mul_of_nonneg_left (mul_le_mul hH hv2 (norm_nonneg _) (h0.trans hH)) S.hK
      _ = _ := by ring
  have f3 : Γ * (h * q.c i) ^ 2 ≤ Γ * H ^ 2 := mul_le_mul_of_nonneg_left (pow_le_pow_left₀ hti (htl.trans hH) 2) C.hΓ
  linarith

/-- the sum of the derivatives with the weights, near the one of the second order -/
theorem weighted_near {s : ℕ} (q : Coef) (hqs : q.s = s) (hqb : ∀ i, |q.b i| ≤ R) (hR : 0 ≤ R) {ε h Q B Γ : ℝ} (h0 : 0 ≤ h) (h1 : h ≤ 1) (hε : 0 ≤ ε) (hQ : 0 ≤ Q)
    (hb : |∑ i ∈ Finset.range q.s, q.b i - 1| ≤ s * ε) (hbc : |∑ i ∈ Finset.range q.s, q.b i * q.c i - 1 / 2| ≤ s * ε)
    {G γ : D} (hG : ‖G‖ ≤ B) (hγ : ‖γ‖ ≤ Γ) {k : ℕ → D} (hk : ∀ i < q.s, ‖k i - G - (h * q.c i) • γ‖ ≤ Q) :
    ‖∑ i ∈ Finset.range q.s, q.b i • k i - (G + (h / 2) • γ)‖ ≤ s * R * Q + s * ε * (B + Γ) := by
  have e : ∑ i ∈ Finset.range q.s, q.b i • k i - (G + (h / 2) • γ) = ∑ i ∈ Finset.range q.s, q.b i • (k i - G - (h * q.c i) • γ) +
      ((∑ i ∈ Finset.range q.s, q.b i - 1) • G + (h * (∑ i ∈ Finset.range q.s, q.b i * q.c i - 1 / 2)) • γ) := by
    have e1 : ∑ i ∈ Finset.range q.s, q.b i • ((h * q.c i) • γ) = (h * ∑ i ∈ Finset.range q.s, q.b i * q.c i) • γ := by
      rw [Finset.mul_sum, Finset.sum_smul]
      refine Finset.sum_congr rfl fun i _ => ?_
      rw [smul_smul]
      congr 1
      ring
    simp only [smul_sub, Finset.sum_sub_distrib, e1, ← Finset.sum_smul]
    module
  rw [e]
  have hB : 0 ≤ B := (norm_nonneg _).trans hG
  have hΓ : 0 ≤ Γ := (norm_nonneg _).trans hγ
  refine (norm_add_le _ _).trans (add_le_add ?_ ((norm_add_le _ _).trans ?_))
  · rw [← hqs]
    exact sum_le_card (u := fun i => k i - G - (h * q.c i) • γ) (w := q.b) le_rfl hR hQ hqb hk
  · rw [norm_smul, norm_smul, Real.norm_eq_abs, Real.norm_eq_abs, abs_mul, abs_of_nonneg h0]
    have f1 := mul_le_mul hb hG (norm_nonneg _) (by positivity)
    have f2 : h * |∑ i ∈ Finset.range q.s, q.b i * q.c i - 1 / 2| ≤ s * ε := by
      calc _ ≤ 1 * |∑ i ∈ Finset.range q.s, q.b i * q.c i - 1 / 2| := mul_le_mul_of_nonneg_right h1 (abs_nonneg _)
        _ ≤ s * ε := by rw [one_mul]; exact hbc
    have f3 := mul_le_mul f2 hγ (norm_nonneg _) (by positivity)
    linarith

/-- the constants of the second order: `J` of the deviations of the derivatives, `κ` of the derivative kept -/
def devJ (L W Γ K M : ℝ) : ℝ := L * W + Γ + 1 + L * (K * M) + L * Γ
def kept2 (L Γ K M J ε H : ℝ) : ℝ := L * (H * (K * (M * (J * H + ε))) + Γ * H ^ 2)

set_option maxHeartbeats 1000000 in
/-- **C105, second order**, for one step. -/
theorem loose_second_step (S : Chart adv P η K) (C : Course adv P g y a e L ρ B Γ) (C2 : Course2 adv g y γ' a e ρ Γ) (s : ℕ) (hR : 0 ≤ R) (hN : 0 ≤ N) {σ₀ M : ℝ} (hM : 0 ≤ M)
    {ε : ℝ} (hε : ε ∈ Icc (0 : ℝ) 1) {q : Coef} (hqs : q.s = s) (hq : q.Bounded R) (hc0 : q.c 0 = 0)
    (hb : |∑ i ∈ Finset.range q.s, q.b i - 1| ≤ s * ε) (hbc : |∑ i ∈ Finset.range q.s, q.b i * q.c i - 1 / 2| ≤ s * ε)
    {t h d H : ℝ} (ht : t ∈ Icc a e) (h0 : 0 ≤ h) (hhH : h ≤ H) (hte : t + h ≤ e) (hH1 : H ≤ 1) (hHρ : H ≤ ρ)
    {x : E} (hPx : P x) (hx : ‖x - y t‖ ≤ d) {X : ℕ → E} {k : ℕ → D} (hl : Loose P q g N t x h X k) (hn : Near adv q g y σ₀ M ε t x h X k)
    (hk0 : ‖k 0 - g t (y t)‖ ≤ 3 * L * d + kept2 L Γ K M (devJ L (away N B L ρ) Γ K M) ε H)
    (c1 : H * (B + M * (σ₀ + 1)) ≤ η) (c2 : H * (K * (B + M * (σ₀ + 1))) ≤ 1) (c3 : H * (K * (M * (3 * L))) ≤ 1)
    (c4 : H * (L * (K * (M * devJ L (away N B L ρ) Γ K M))) ≤ 1) (c5 : H * (s * R * topL B L ρ) ≤ η) (c6 : H * (B + Γ) ≤ η)
    (c7 : d + H * away N B L ρ ≤ ρ) (c8 : 3 * L * d + H * devJ L (away N B L ρ) Γ K M ≤ min σ₀ 1) :
    ‖adv x (h • ∑ i ∈ Finset.range q.s, q.b i • k i) - y (t + h)‖ ≤ (1 + h * (K * (s * R * topL B L ρ) + K * (s * R * (3 * L)))) * d +
      h * ((K * (s * R * (L * (K * (M * devJ L (away N B L ρ) Γ K M) + K * M + Γ) + Γ) + s * (B + Γ)) + Γ) * (H ^ 2 + ε)) ∧
    ∀ i, 1 ≤ i → i < q.s → ‖k i - g (t + h * q.c i) (y (t + h * q.c i))‖ ≤ 3 * L * d + kept2 L Γ K M (devJ L (away N B L ρ) Γ K M) ε H := by
  have hK := S.hK
  have hL := C.hL
  have hB := C.hB
  have hΓ := C.hΓ
  have hρ := C.hρ
  have hT := topL_nonneg C
  have hW := away_nonneg C hN
  generalize hWdef : away N B L ρ = W at *
  generalize hJdef : devJ L W Γ K M = J at *
  have hJ : L * W + Γ + 1 + L * (K * M) + L * Γ = J := hJdef
  have hJ0 : 0 ≤ J := by rw [← hJ]; positivity
  have hd0 : 0 ≤ d := (norm_nonneg _).trans hx
  have hH0 : 0 ≤ H := h0.trans hhH
  have hε0 := hε.1
  generalize hκdef : kept2 L Γ K M J ε H = κ at *
  have hκ : L * (H * (K * (M * (J * H + ε))) + Γ * H ^ 2) = κ := hκdef
  have hκ0 : 0 ≤ κ := by rw [← hκ]; positivity
  have hσ0 : 0 ≤ σ₀ := by
    have h1 : 0 ≤ 3 * L * d + H * J := by positivity
    exact h1.trans (c8.trans (min_le_left _ _))
  have mono : ∀ {A z : ℝ}, 0 ≤ A → H * A ≤ z → h * A ≤ z := fun hA hz => (mul_le_mul_of_nonneg_right hhH hA).trans hz
  -- the derivative kept is within `J H`
  have hκJ : κ ≤ H * J := by
    have e1 : κ = H * (H * (L * (K * (M * J))) + L * (K * M) * ε + L * Γ * H) := by rw [← hκ]; ring
    rw [e1]
    apply mul_le_mul_of_nonneg_left _ hH0
    have f1 : L * (K * M) * ε ≤ L * (K * M) * 1 := mul_le_mul_of_nonneg_left hε.2 (by positivity)
    have f2 : L * Γ * H ≤ L * Γ * 1 := mul_le_mul_of_nonneg_left hH1 (by positivity)
    have f3 : 0 ≤ L * W := by positivity
    rw [← hJ] at c4 ⊢
    linarith
  -- deviations
  have st' : ‖k 0 - g t (y t)‖ ≤ L * ρ + 1 := by
    have f1 : 3 * L * d + H * J ≤ 1 := c8.trans (min_le_right _ _)
    have f2 : 0 ≤ L * ρ := by positivity
    linarith
  have key := loose_stages C q hq.c hN ht h0 hte hx hl st' (by
    rw [hWdef]
    have := mul_le_mul_of_nonneg_right hhH hW
    linarith)
  rw [hWdef] at key
  have hσ : 3 * L * d + H * J ∈ Icc 0 σ₀ := ⟨by positivity, c8.trans (min_le_left _ _)⟩
  have dev : ∀ j < q.s, ‖k j - g t (y t)‖ ≤ 3 * L * d + H * J := by
    intro j hj
    by_cases hj0 : j = 0
    · subst hj0
      linarith
    · refine (((key j hj).2 (by omega)).2.2).trans ?_
      have f1 : (L * W + Γ) * h ≤ (L * W + Γ) * H := mul_le_mul_of_nonneg_left hhH (by positivity)
      have f2 : L * d ≤ 3 * L * d := by
        have : 0 ≤ L * d := by positivity
        linarith
      have f3 : (L * W + Γ) * H ≤ H * J := by
        rw [mul_comm]
        apply mul_le_mul_of_nonneg_left _ hH0
        rw [← hJ]
        have : 0 ≤ L * (K * M) := by positivity
        have : 0 ≤ L * Γ := by positivity
        linarith
      linarith
  have place : ∀ i, 1 ≤ i → i < q.s → ‖X i - y (t + h * q.c i)‖ ≤ 3 * d + (H * (K * (M * (J * H + ε))) + Γ * H ^ 2) := by
    intro i hi1 hi
    have hV : 0 ≤ B + M * (σ₀ + 1) := by positivity
    have := stage_place S C hq.c hM hε ht h0 hhH hte (hhH.trans hHρ) hPx hx hn hi1 hi hσ (fun j hj => dev j (by omega)) (mono hV c1) (mono (by positivity) c2)
    refine this.trans ?_
    have e1 : H * (K * (M * (3 * L * d + H * J + ε))) = H * (K * (M * (3 * L))) * d + H * (K * (M * (J * H + ε))) := by ring
    have e2 : H * (K * (M * (3 * L))) * d ≤ 1 * d := mul_le_mul_of_nonneg_right c3 hd0
    linarith
  have stg : ∀ i, 1 ≤ i → i < q.s → ‖k i - g (t + h * q.c i) (y (t + h * q.c i))‖ ≤ 3 * L * d + κ := by
    intro i hi1 hi
    refine (((key i hi).2 hi1).2.1).trans ((mul_le_mul_of_nonneg_left (place i hi1 hi) hL).trans (le_of_eq ?_))
    rw [← hκ]
    ring
  refine ⟨?_, stg⟩
  have hdev2 : ∀ i < q.s, ‖k i - g t (y t) - (h * q.c i) • γ' t‖ ≤ 3 * L * d + κ + Γ * H ^ 2 := by
    intro i hi
    have hp : 0 ≤ Γ * H ^ 2 := by positivity
    by_cases hi0 : i = 0
    · subst hi0
      rw [hc0, mul_zero, zero_smul, sub_zero]
      linarith
    · have hc := hq.c i
      have hti : 0 ≤ h * q.c i := mul_nonneg h0 hc.1
      have htl : h * q.c i ≤ h := by
        calc h * q.c i ≤ h * 1 := mul_le_mul_of_nonneg_left hc.2 h0
          _ = h := mul_one h
      have e1 := C2.taylor t ht (h * q.c i) hti (htl.trans (hhH.trans hHρ)) (by linarith)
      have e2 := stg i (by omega) hi
      have e3 : k i - g t (y t) - (h * q.c i) • γ' t = (k i - g (t + h * q.c i) (y (t + h * q.c i))) +
          (g (t + h * q.c i) (y (t + h * q.c i)) - g t (y t) - (h * q.c i) • γ' t) := by abel
      rw [e3]
      have e4 := norm_add_le (k i - g (t + h * q.c i) (y (t + h * q.c i))) (g (t + h * q.c i) (y (t + h * q.c i)) - g t (y t) - (h * q.c i) • γ' t)
      have e5 : Γ * (h * q.c i) ^ 2 ≤ Γ * H ^ 2 := mul_le_mul_of_nonneg_left (pow_le_pow_left₀ hti (htl.trans hhH) 2) hΓ
      linarith
  have hsum := weighted_near q hqs hq.b hR h0 (hhH.trans hH1) hε0 (by positivity) hb hbc (C.bound t ht) (C2.bound t ht) hdev2
  have hη2 : ‖h • (g t (y t) + (h / 2) • γ' t)‖ ≤ η := by
    rw [norm_smul, Real.norm_eq_abs, abs_of_nonneg h0]
    refine le_trans (mul_le_mul_of_nonneg_left ?_ h0) (mono (by positivity) c6)
    refine (norm_add_le _ _).trans (add_le_add (C.bound t ht) ?_)
    rw [norm_smul, Real.norm_eq_abs, abs_of_nonneg (by positivity)]
    calc h / 2 * ‖γ' t‖ ≤ 1 * Γ := mul_le_mul (by linarith) (C2.bound t ht) (norm_nonneg _) zero_le_one
      _ = Γ := one_mul _
  have step := loose_step S C q hR hq.b ht h0 hPx hx (fun i hi => (key i hi).1) (by rw [hqs]; exact mono (by positivity) c5) (g t (y t) + (h / 2) • γ' t) hη2
  have tan := C2.tangent t ht h h0 (hhH.trans hHρ) hte
  have e1 : h • g t (y t) + (h ^ 2 / 2) • γ' t = h • (g t (y t) + (h / 2) • γ' t) := by
    rw [smul_add, smul_smul]
    congr 2
    ring
  rw [e1] at tan
  have t1 := norm_sub_le_norm_sub_add_norm_sub (adv x (h • ∑ i ∈ Finset.range q.s, q.b i • k i)) (adv (y t) (h • (g t (y t) + (h / 2) • γ' t))) (y (t + h))
  rw [norm_sub_rev (adv (y t) _)] at t1
  rw [hqs] at step t1 hsum ⊢
  have t2 := mul_le_mul_of_nonneg_left (mul_le_mul_of_nonneg_left hsum hK) h0
  have t3 : Γ * h ^ 3 ≤ h * (Γ * H ^ 2) := by
    have : h ^ 2 ≤ H ^ 2 := pow_le_pow_left₀ h0 hhH 2
    calc Γ * h ^ 3 = h * (Γ * h ^ 2) := by ring
      _ ≤ h * (Γ * H ^ 2) := mul_le_mul_of_nonneg_left (mul_le_mul_of_nonneg_left this hΓ) h0
  have t4 : κ + Γ * H ^ 2 ≤ (L * (K * (M * J) + K * M + Γ) + Γ) * (H ^ 2 + ε) := by
    have f1 : L * (K * M) * (H * ε) ≤ L * (K * M) * (1 * ε) := mul_le_mul_of_nonneg_left (mul_le_mul_of_nonneg_right hH1 hε0) (by positivity)
    have f2 : 0 ≤ L * (K * M) * H ^ 2 := by positivity
    have f3 : 0 ≤ L * (K * (M * J)) * ε := by positivity
    have f4 : 0 ≤ L * Γ * ε := by positivity
    have f5 : 0 ≤ Γ * ε := by positivity
    have e2 : κ = L * (K * (M * J)) * H ^ 2 + L * (K * M) * (H * ε) + L * Γ * H ^ 2 := by rw [← hκ]; ring
    have e3 : (L * (K * (M * J) + K * M + Γ) + Γ) * (H ^ 2 + ε) = L * (K * (M * J)) * H ^ 2 + L * (K * (M * J)) * ε + (L * (K * M) * H ^ 2 + L * (K * M) * (1 * ε)) +
        (L * Γ * H ^ 2 + L * Γ * ε) + (Γ * H ^ 2 + Γ * ε) := by ring
    rw [e2, e3]
    linarith
  generalize hQ : L * (K * (M * J) + K * M + Γ) + Γ = Q at t4 ⊢
  have t5 : h * (K * (s * R * (3 * L * d + κ + Γ * H ^ 2) + s * ε * (B + Γ))) + h * (Γ * H ^ 2) ≤
      h * (K * (s * R * (3 * L))) * d + h * ((K * (s * R * Q + s * (B + Γ)) + Γ) * (H ^ 2 + ε)) := by
    have f1 : s * R * (κ + Γ * H ^ 2) ≤ s * R * (Q * (H ^ 2 + ε)) := mul_le_mul_of_nonneg_left t4 (by positivity)
    have f2 := mul_le_mul_of_nonneg_left (mul_le_mul_of_nonneg_left f1 hK) h0
    have f3 : 0 ≤ h * (K * (s * (B + Γ) * H ^ 2) + Γ * ε) := by positivity
    have e2 : h * (K * (s * R * (3 * L * d + κ + Γ * H ^ 2) + s * ε * (B + Γ))) + h * (Γ * H ^ 2) =
        h * (K * (s * R * (3 * L))) * d + h * (K * (s * R * (κ + Γ * H ^ 2))) + (h * (K * (s * (B + Γ) * ε)) + h * (Γ * H ^ 2)) := by ring
    have e3 : h * (K * (s * R * (3 * L))) * d + h * ((K * (s * R * Q + s * (B + Γ)) + Γ) * (H ^ 2 + ε)) =
        h * (K * (s * R * (3 * L))) * d + h * (K * (s * R * (Q * (H ^ 2 + ε)))) + (h * (K * (s * (B + Γ) * ε)) + h * (Γ * H ^ 2)) +
          h * (K * (s * (B + Γ) * H ^ 2) + Γ * ε) := by ring
    rw [e2, e3]
    linarith
  have t6 : (1 + h * (K * (s * R * topL B L ρ) + K * (s * R * (3 * L)))) * d = (1 + h * (K * (s * R * topL B L ρ))) * d + h * (K * (s * R * (3 * L))) * d := by ring
  rw [t6]
  linarith

/-- **C105, second order.** -/
theorem loose_second_order (S : Chart adv P η K) (C : Course adv P g y a e L ρ B Γ) (C2 : Course2 adv g y γ' a e ρ Γ) (s : ℕ) (hR : 0 ≤ R) (hN : 0 ≤ N) (fsal : Bool)
    {σ₀ M : ℝ} (hσ₀ : 0 < σ₀) (hM : 0 ≤ M) : ∃ Z h₀ ε₀ r : ℝ, 0 ≤ Z ∧ 0 < h₀ ∧ 0 < ε₀ ∧ 0 < r ∧ 3 * L * r ≤ min σ₀ 1 / 2 ∧ r ≤ ρ / 2 ∧ (Z * (h₀ ^ 2 + ε₀) ≤ r) ∧
    h₀ ≤ 1 ∧ h₀ * away N B L ρ ≤ ρ / 2 ∧ h₀ * devJ L (away N B L ρ) Γ K M ≤ min σ₀ 1 / 2 ∧ h₀ * (L * (K * (M * devJ L (away N B L ρ) Γ K M))) ≤ 1 ∧ ε₀ ≤ 1 ∧
    ∀ ε ∈ Icc 0 ε₀, ∀ q : Coef, q.s = s → q.Bounded R → q.c 0 = 0 → |∑ i ∈ Finset.range q.s, q.b i - 1| ≤ s * ε →
      |∑ i ∈ Finset.range q.s, q.b i * q.c i - 1 / 2| ≤ s * ε → (fsal = true → 2 ≤ q.s ∧ q.c (q.s - 1) = 1) →
      ∀ ok : ℝ → E → ℝ → (ℕ → E) → (ℕ → D) → Prop, (∀ t ∈ Icc a e, ∀ x h X k, ok t x h X k → Near adv q g y σ₀ M ε t x h X k) →
      ∀ H ∈ Ioc 0 h₀, ∀ hs : List ℝ, (∀ h ∈ hs, h ∈ Ioc 0 H) → a + hs.sum ≤ e → ∀ z c',
        Flown (LooseStep adv P q g N fsal ok) a (y a) none hs z c' → P z ∧ ‖z - y (a + hs.sum)‖ ≤ Z * (H ^ 2 + ε) ∧
          Kept g y (3 * L) (kept2 L Γ K M (devJ L (away N B L ρ) Γ K M) ε H) (a + hs.sum) (Z * (H ^ 2 + ε)) c' ∧ (fsal = false → c' = none) := by
  have hK := S.hK
  have hL := C.hL
  have hB := C.hB
  have hΓ := C.hΓ
  have hρ := C.hρ
  have hη := S.hη
  have hT := topL_nonneg C
  have hW := away_nonneg C hN
  generalize hJdef : devJ L (away N B L ρ) Γ K M = J
  have hJ0 : 0 ≤ J := by rw [← hJdef]; unfold devJ; positivity
  have hV : 0 ≤ B + M * (σ₀ + 1) := by positivity
  have hm : 0 < min σ₀ 1 := lt_min hσ₀ one_pos
  obtain ⟨h₁, hh₁, small⟩ := small_all [(1, 1), (1, ρ), (B + M * (σ₀ + 1), η), (K * (B + M * (σ₀ + 1)), 1), (K * (M * (3 * L)), 1), (L * (K * (M * J)), 1),
    (s * R * topL B L ρ, η), (B + Γ, η), (away N B L ρ, ρ / 2), (J, min σ₀ 1 / 2)] (by
      simp only [List.mem_cons, List.not_mem_nil, or_false]
      rintro p (rfl | rfl | rfl | rfl | rfl | rfl | rfl | rfl | rfl | rfl) <;> dsimp only <;> constructor <;> positivity)
  have s1 := fun x hx => small x hx (1, 1) (by simp)
  have s2 := fun x hx => small x hx (1, ρ) (by simp)
  have s3 := fun x hx => small x hx (B + M * (σ₀ + 1), η) (by simp)
  have s4 := fun x hx => small x hx (K * (B + M * (σ₀ + 1)), 1) (by simp)
  have s5 := fun x hx => small x hx (K * (M * (3 * L)), 1) (by simp)
  have s6 := fun x hx => small x hx (L * (K * (M * J)), 1) (by simp)
  have s7 := fun x hx => small x hx (s * R * topL B L ρ, η) (by simp)
  have s8 := fun x hx => small x hx (B + Γ, η) (by simp)
  have s9 := fun x hx => small x hx (away N B L ρ, ρ / 2) (by simp)
  have s10 := fun x hx => small x hx (J, min σ₀ 1 / 2) (by simp)
  clear small
  dsimp only at s1 s2 s3 s4 s5 s6 s7 s8 s9 s10
  simp only [mul_one] at s1 s2
  obtain ⟨r, hr0, hr1, hr2⟩ : ∃ r : ℝ, 0 < r ∧ 3 * L * r ≤ min σ₀ 1 / 2 ∧ r ≤ ρ / 2 := by
    obtain ⟨r, hr, k⟩ := small_all [(3 * L, min σ₀ 1 / 2), (1, ρ / 2)] (by
      simp only [List.mem_cons, List.not_mem_nil, or_false]
      rintro p (rfl | rfl) <;> dsimp only <;> constructor <;> positivity)
    have k1 := k r le_rfl (3 * L, min σ₀ 1 / 2) (by simp)
    have k2 := k r le_rfl (1, ρ / 2) (by simp)
    dsimp only at k1 k2
    exact ⟨r, hr, by linarith, by linarith⟩
  generalize hΛdef : K * (s * R * topL B L ρ) + K * (s * R * (3 * L)) = Λ
  have hΛ : 0 ≤ Λ := by rw [← hΛdef]; positivity
  generalize hYdef : K * (s * R * (L * (K * (M * J) + K * M + Γ) + Γ) + s * (B + Γ)) + Γ = Y
  have hY : 0 ≤ Y := by rw [← hYdef]; positivity
  generalize hZdef : Y * |e - a| * Real.exp (Λ * |e - a|) = Z
  have hZ : 0 ≤ Z := by rw [← hZdef]; positivity
  obtain ⟨r', hr', k⟩ := small_all [(Z, r / 2), (1, 1)] (by
      simp only [List.mem_cons, List.not_mem_nil, or_false]
      rintro p (rfl | rfl) <;> dsimp only <;> constructor <;> positivity)
  have k1 := k r' le_rfl (Z, r / 2) (by simp)
  have k2 := k r' le_rfl (1, 1) (by simp)
  dsimp only at k1 k2
  rw [mul_one] at k2
  set h₀ := min h₁ r' with hh₀def
  have hh₀ : 0 < h₀ := lt_min hh₁ hr'
  have hh01 : h₀ ≤ h₁ := min_le_left _ _
  have hsq : h₀ ^ 2 ≤ r' := by
    have f1 : h₀ ≤ r' := min_le_right _ _
    calc h₀ ^ 2 = h₀ * h₀ := sq _
      _ ≤ r' * 1 := mul_le_mul f1 (f1.trans k2) hh₀.le hr'.le
      _ = r' := mul_one _
  have hsmall : Z * (h₀ ^ 2 + r') ≤ r := by
    have : Z * (h₀ ^ 2 + r') ≤ Z * (r' + r') := mul_le_mul_of_nonneg_left (by linarith) hZ
    linarith
  refine ⟨Z, h₀, r', r, hZ, hh₀, hr', hr0, hr1, hr2, hsmall, s1 _ hh01, s9 _ hh01, s10 _ hh01, s6 _ hh01, k2, ?_⟩
  intro ε hε q hqs hq hc0 hb hbc hfs ok hok H hH hs hh hend z c' hf
  have hH0 := hH.1
  have hHh : H ≤ h₁ := hH.2.trans hh01
  have hε1 : ε ∈ Icc (0 : ℝ) 1 := ⟨hε.1, hε.2.trans k2⟩
  have hsumnn : 0 ≤ hs.sum := List.sum_nonneg fun z hz => (hh z hz).1.le
  have hae : a ≤ e := by linarith
  have hX0 : 0 ≤ H ^ 2 + ε := by have := hε.1; positivity
  have hτ : 0 ≤ Y * (H ^ 2 + ε) := mul_nonneg hY hX0
  have final : (0 + Y * (H ^ 2 + ε) * hs.sum) * Real.exp (Λ * hs.sum) ≤ Z * (H ^ 2 + ε) := by
    have f0 : hs.sum ≤ |e - a| := (by linarith : hs.sum ≤ e - a).trans (le_abs_self _)
    have h1 : Real.exp (Λ * hs.sum) ≤ Real.exp (Λ * |e - a|) := Real.exp_le_exp.2 (mul_le_mul_of_nonneg_left f0 hΛ)
    calc (0 + Y * (H ^ 2 + ε) * hs.sum) * Real.exp (Λ * hs.sum) ≤ (Y * (H ^ 2 + ε) * |e - a|) * Real.exp (Λ * |e - a|) := by
          rw [zero_add]
          exact mul_le_mul (mul_le_mul_of_nonneg_left f0 hτ) h1 (Real.exp_pos _).le (by positivity)
      _ = Z * (H ^ 2 + ε) := by rw [← hZdef]; ring
  have hsm : Z * (H ^ 2 + ε) ≤ r := by
    refine le_trans (mul_le_mul_of_nonneg_left ?_ hZ) hsmall
    exact add_le_add (pow_le_pow_left₀ hH0.le hH.2 2) hε.2
  have hκ0 : 0 ≤ kept2 L Γ K M J ε H := by
    have := hε.1
    unfold kept2
    positivity
  have := flown_error P (fun t d c => Kept g y (3 * L) (kept2 L Γ K M J ε H) t d c ∧ (fsal = false → c = none)) (LooseStep adv P q g N fsal ok) y a e Λ
    (Y * (H ^ 2 + ε)) r H hΛ hτ ?_ (fun t d d' c hd h => ⟨h.1.mono (by positivity) hd, h.2⟩) hs hh a le_rfl hend
    (y a) none (C.good a ⟨le_rfl, hae⟩) 0 (by simp) ⟨(fun k hk => by cases hk), fun _ => rfl⟩ z c' hf (final.trans hsm)
  · exact ⟨this.1, this.2.1.trans final, this.2.2.1.mono (by positivity) final, this.2.2.2⟩
  · intro t ht h hhH hte x c x' c' d hstep hPx hx hd hc
    obtain ⟨X, k, hk0, hloose, hok', rfl, rfl⟩ := hstep
    have h0 := hhH.1.le
    have hd0 : 0 ≤ d := (norm_nonneg _).trans hx
    have st := start_near C (M := 3 * L) (κ := kept2 L Γ K M J ε H) (by linarith) hκ0 ht hPx hx (by linarith) hc.1
    rw [← hk0] at st
    have c8 : 3 * L * d + H * J ≤ min σ₀ 1 := by
      have f1 : 3 * L * d ≤ 3 * L * r := mul_le_mul_of_nonneg_left hd (by positivity)
      have f2 := s10 H hHh
      linarith
    have := loose_second_step S C C2 s hR hN hM hε1 hqs hq hc0 hb hbc ht h0 hhH.2 hte (s1 H hHh) (s2 H hHh) hPx hx hloose (hok t ht x h X k hok')
      (by rw [hJdef]; exact st) (s3 H hHh) (s4 H hHh) (s5 H hHh) (by rw [hJdef]; exact s6 H hHh) (s7 H hHh) (s8 H hHh) (by have := s9 H hHh; linarith) (by rw [hJdef]; exact c8)
    rw [hJdef, hΛdef, hYdef] at this
    obtain ⟨p1, p2⟩ := this
    refine ⟨S.keep _ _ hPx, p1, fun d' hd' => ?_⟩
    cases fsal with
    | false =>
      rw [hc.2 rfl]
      exact ⟨(fun k hk => by cases hk), fun _ => rfl⟩
    | true =>
      refine ⟨fun k' hk' => ?_, (fun hf => by cases hf)⟩
      simp only [if_true] at hk'
      injection hk' with hk'
      obtain ⟨f1, f2⟩ := hfs rfl
      have m := p2 (q.s - 1) (by omega) (by omega)
      rw [f2, mul_one] at m
      rw [← hk']
      have s1 := mul_le_mul_of_nonneg_left hd' (by positivity : 0 ≤ 3 * L)
      linarith

end loose

end Mapleaf.Motion.Turn
