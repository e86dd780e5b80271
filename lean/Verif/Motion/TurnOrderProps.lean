import Verif.Motion.TurnLimitProps

/-! # C94: order of convergence of turning bodies, general part -/

namespace Mapleaf.Motion.Turn
open Set Mapleaf.Motion.Lim

section order
variable {E D : Type} [NormedAddCommGroup E] [NormedAddCommGroup D] [NormedSpace ℝ D]
variable {adv : E → D → E} {P : E → Prop} {g : ℝ → E → D} {y : ℝ → E} {a e L ρ B Γ η K R : ℝ}

/-- the constant of `stage_first` -/
def first (s : ℕ) (R K B L ρ Γ : ℝ) : ℝ := L * (K * (s * R * top B L ρ) + B) + Γ

theorem first_nonneg (S : Chart adv P η K) (C : Course adv P g y a e L ρ B Γ) (s : ℕ) (hR : 0 ≤ R) : 0 ≤ first s R K B L ρ Γ := by
  have h1 := top_nonneg C
  have h2 := S.hK
  have h3 := C.hB
  have h4 := C.hL
  have h5 := C.hΓ
  unfold first
  positivity

theorem incr_small (S : Chart adv P η K) (C : Course adv P g y a e L ρ B Γ) (q : Coef) (hR : 0 ≤ R) (hq : q.Bounded R) {t h : ℝ}
    (ht : t ∈ Icc a e) (h0 : 0 ≤ h) (hte : t + h ≤ e) (H : Short q.s R K B L ρ η h) : ‖h • incrG q adv g t (y t) h‖ ≤ η := by
  have hρ := C.hρ
  rw [norm_smul, Real.norm_eq_abs, abs_of_nonneg h0]
  exact (mul_le_mul_of_nonneg_left (sum_le_card (u := stageG q adv g t (y t) h) (w := q.b) le_rfl hR (top_nonneg C) hq.b
    (fun j hj => (insideG S C q hR hq ht h0 hte H (C.good t ht) (by simpa using (half_pos hρ).le) j hj.le).2.2)) h0).trans H.change

/-- The error of one step from the motion, first order. -/
theorem local_first (S : Chart adv P η K) (C : Course adv P g y a e L ρ B Γ) (q : Coef) (hR : 0 ≤ R) (hq : q.Bounded R) {t h ε : ℝ}
    (ht : t ∈ Icc a e) (h0 : 0 ≤ h) (hte : t + h ≤ e) (H : Short q.s R K B L ρ η h) (hhB : h * (B + Γ) ≤ η)
    (hsum : |∑ i ∈ Finset.range q.s, q.b i - 1| ≤ ε) :
    ‖stepG q adv g t (y t) h - y (t + h)‖ ≤ h * ((K * (q.s * R * first q.s R K B L ρ Γ) + Γ + K * B) * (h + ε)) := by
  have hK := S.hK
  have hB := C.hB
  have hΓ := C.hΓ
  have hF := first_nonneg S C q.s hR
  have hε : 0 ≤ ε := (abs_nonneg _).trans hsum
  have b1 : ‖h • g t (y t)‖ ≤ η := by
    rw [norm_smul, Real.norm_eq_abs, abs_of_nonneg h0]
    refine (mul_le_mul_of_nonneg_left (C.bound t ht) h0).trans (le_trans ?_ hhB)
    exact mul_le_mul_of_nonneg_left (by linarith) h0
  have n1 := S.near (y t) (y t) _ _ (C.good t ht) (C.good t ht) (incr_small S C q hR hq ht h0 hte H) b1
  rw [sub_self, norm_zero, mul_zero, zero_add] at n1
  have e1 : h • incrG q adv g t (y t) h - h • g t (y t) =
      h • (∑ j ∈ Finset.range q.s, q.b j • (stageG q adv g t (y t) h j - g t (y t)) + (∑ j ∈ Finset.range q.s, q.b j - 1) • g t (y t)) := by
    unfold incrG
    simp only [smul_sub, Finset.sum_sub_distrib, ← Finset.sum_smul, sub_smul, one_smul, smul_add]
    abel
  have s1 := sum_le_card (u := fun j => stageG q adv g t (y t) h j - g t (y t)) (w := q.b) le_rfl hR (K := h * first q.s R K B L ρ Γ)
    (by positivity) hq.b (fun j hj => stage_first S C q hR hq ht h0 hte H j hj.le)
  have s2 : ‖(∑ j ∈ Finset.range q.s, q.b j - 1) • g t (y t)‖ ≤ ε * B := by
    rw [norm_smul, Real.norm_eq_abs]
    exact mul_le_mul hsum (C.bound t ht) (norm_nonneg _) hε
  have d1 : ‖h • incrG q adv g t (y t) h - h • g t (y t)‖ ≤ h * (q.s * R * (h * first q.s R K B L ρ Γ) + ε * B) := by
    rw [e1, norm_smul, Real.norm_eq_abs, abs_of_nonneg h0]
    exact mul_le_mul_of_nonneg_left ((norm_add_le _ _).trans (add_le_add s1 s2)) h0
  have d2 := mul_le_mul_of_nonneg_left d1 hK
  have t1 := C.tangent t ht h h0 H.rad hte
  have e2 := norm_sub_le_norm_sub_add_norm_sub (adv (y t) (h • incrG q adv g t (y t) h)) (adv (y t) (h • g t (y t))) (y (t + h))
  rw [norm_sub_rev (adv (y t) (h • g t (y t)))] at e2
  unfold stepG
  have p1 : 0 ≤ h * (K * (q.s * R * first q.s R K B L ρ Γ) + Γ) * ε := by positivity
  have p2 : 0 ≤ h * (K * B) * h := by positivity
  calc _ ≤ K * (h * (q.s * R * (h * first q.s R K B L ρ Γ) + ε * B)) + Γ * h ^ 2 := by linarith
    _ ≤ _ := by linarith

/-- A motion whose derivative has a Lipschitz derivative `γ'` in time along it: short pieces are changes up to third order. -/
structure Course2 (adv : E → D → E) (g : ℝ → E → D) (y : ℝ → E) (γ' : ℝ → D) (a e ρ Γ : ℝ) : Prop where
  taylor : ∀ t ∈ Icc a e, ∀ h, 0 ≤ h → h ≤ ρ → t + h ≤ e → ‖g (t + h) (y (t + h)) - g t (y t) - h • γ' t‖ ≤ Γ * h ^ 2
  bound : ∀ t ∈ Icc a e, ‖γ' t‖ ≤ Γ
  tangent : ∀ t ∈ Icc a e, ∀ h, 0 ≤ h → h ≤ ρ → t + h ≤ e → ‖y (t + h) - adv (y t) (h • g t (y t) + (h ^ 2 / 2) • γ' t)‖ ≤ Γ * h ^ 3

/-- the constant of `stage_second` -/
def second (s : ℕ) (R K B L ρ Γ : ℝ) : ℝ := L * (K * (s * R * first s R K B L ρ Γ) + K * B + Γ)

theorem second_nonneg (S : Chart adv P η K) (C : Course adv P g y a e L ρ B Γ) (s : ℕ) (hR : 0 ≤ R) : 0 ≤ second s R K B L ρ Γ := by
  have h1 := first_nonneg S C s hR
  have h2 := S.hK
  have h3 := C.hB
  have h4 := C.hL
  have h5 := C.hΓ
  unfold second
  positivity

/-- The error of one step from the motion, second order. -/
theorem local_second (S : Chart adv P η K) (C : Course adv P g y a e L ρ B Γ) {γ' : ℝ → D} (C2 : Course2 adv g y γ' a e ρ Γ) (q : Coef)
    (hR : 0 ≤ R) (hq : q.Bounded R) {t h δ ε : ℝ}
    (ht : t ∈ Icc a e) (h0 : 0 ≤ h) (hte : t + h ≤ e) (H : Short q.s R K B L ρ η h) (hhB : h * (B + Γ) ≤ η) (hδ : 0 ≤ δ)
    (hrow : ∀ i < q.s, |∑ j ∈ Finset.range i, q.A i j - q.c i| ≤ δ)
    (hsum : |∑ i ∈ Finset.range q.s, q.b i - 1| ≤ ε) (hmom : ∑ i ∈ Finset.range q.s, q.b i * q.c i = 1 / 2) :
    ‖stepG q adv g t (y t) h - y (t + h)‖ ≤
      h * ((K * (q.s * R * second q.s R K B L ρ Γ) + K * (q.s * R * Γ) + Γ + K * B) * (h ^ 2 + h * δ + ε)) := by
  have hK := S.hK
  have hB := C.hB
  have hΓ := C.hΓ
  have hL := C.hL
  have hF := first_nonneg S C q.s hR
  have hF2 := second_nonneg S C q.s hR
  have hε : 0 ≤ ε := (abs_nonneg _).trans hsum
  have hhB' : h * B ≤ η := le_trans (mul_le_mul_of_nonneg_left (by linarith) h0) hhB
  have b1 : ‖h • g t (y t) + (h ^ 2 / 2) • γ' t‖ ≤ η := by
    refine (norm_add_le _ _).trans (le_trans ?_ hhB)
    rw [norm_smul, norm_smul, Real.norm_eq_abs, Real.norm_eq_abs, abs_of_nonneg h0, abs_of_nonneg (by positivity), mul_add]
    refine add_le_add (mul_le_mul_of_nonneg_left (C.bound t ht) h0) (mul_le_mul ?_ (C2.bound t ht) (norm_nonneg _) h0)
    have := mul_le_mul_of_nonneg_left H.one h0
    linarith [mul_nonneg h0 h0]
  have n1 := S.near (y t) (y t) _ _ (C.good t ht) (C.good t ht) (incr_small S C q hR hq ht h0 hte H) b1
  rw [sub_self, norm_zero, mul_zero, zero_add] at n1
  have e1 : h • incrG q adv g t (y t) h - (h • g t (y t) + (h ^ 2 / 2) • γ' t) =
      h • (∑ j ∈ Finset.range q.s, q.b j • (stageG q adv g t (y t) h j - g (t + h * q.c j) (y (t + h * q.c j))) +
        ∑ j ∈ Finset.range q.s, q.b j • (g (t + h * q.c j) (y (t + h * q.c j)) - g t (y t) - (h * q.c j) • γ' t) +
        (∑ j ∈ Finset.range q.s, q.b j - 1) • g t (y t)) := by
    have e3 : (h ^ 2 / 2) • γ' t = h • ∑ j ∈ Finset.range q.s, q.b j • (h * q.c j) • γ' t := by
      simp only [smul_smul]
      rw [← Finset.sum_smul, smul_smul]
      congr 1
      rw [show ∑ j ∈ Finset.range q.s, q.b j * (h * q.c j) = h * ∑ j ∈ Finset.range q.s, q.b j * q.c j by
        rw [Finset.mul_sum]; exact Finset.sum_congr rfl fun j _ => by ring, hmom]
      ring
    rw [e3]
    unfold incrG
    simp only [smul_sub, Finset.sum_sub_distrib, ← Finset.sum_smul, sub_smul, one_smul, smul_add]
    abel
  have s1 := sum_le_card (u := fun j => stageG q adv g t (y t) h j - g (t + h * q.c j) (y (t + h * q.c j))) (w := q.b) le_rfl hR
    (K := second q.s R K B L ρ Γ * (h ^ 2 + h * δ)) (by positivity) hq.b (fun j hj => by
      refine (stage_second S C q hR hq ht h0 hte H hhB' j hj.le (hrow j hj)).trans ?_
      unfold second
      rw [mul_assoc L]
      apply mul_le_mul_of_nonneg_left _ hL
      have p1 : 0 ≤ K * (q.s * R * first q.s R K B L ρ Γ) * (h * δ) := by positivity
      have p2 : 0 ≤ K * B * h ^ 2 := by positivity
      have p3 : 0 ≤ Γ * (h * δ) := by positivity
      unfold first at p1 ⊢
      linarith)
  have s3 := sum_le_card (u := fun j => g (t + h * q.c j) (y (t + h * q.c j)) - g t (y t) - (h * q.c j) • γ' t) (w := q.b) (le_refl q.s) hR
    (K := Γ * h ^ 2) (by positivity) hq.b (fun j hj => by
      have hci := hq.c j
      have hhc : h * q.c j ≤ h := by have := mul_le_mul_of_nonneg_left hci.2 h0; linarith
      have hhc0 : 0 ≤ h * q.c j := mul_nonneg h0 hci.1
      refine (C2.taylor t ht _ hhc0 (hhc.trans H.rad) (by linarith)).trans ?_
      exact mul_le_mul_of_nonneg_left (pow_le_pow_left₀ hhc0 hhc 2) hΓ)
  have s2 : ‖(∑ j ∈ Finset.range q.s, q.b j - 1) • g t (y t)‖ ≤ ε * B := by
    rw [norm_smul, Real.norm_eq_abs]
    exact mul_le_mul hsum (C.bound t ht) (norm_nonneg _) hε
  have d1 : ‖h • incrG q adv g t (y t) h - (h • g t (y t) + (h ^ 2 / 2) • γ' t)‖ ≤
      h * (q.s * R * (second q.s R K B L ρ Γ * (h ^ 2 + h * δ)) + q.s * R * (Γ * h ^ 2) + ε * B) := by
    rw [e1, norm_smul, Real.norm_eq_abs, abs_of_nonneg h0]
    exact mul_le_mul_of_nonneg_left ((norm_add_le _ _).trans (add_le_add ((norm_add_le _ _).trans (add_le_add s1 s3)) s2)) h0
  have d2 := mul_le_mul_of_nonneg_left d1 hK
  have t1 := C2.tangent t ht h h0 H.rad hte
  have e2 := norm_sub_le_norm_sub_add_norm_sub (adv (y t) (h • incrG q adv g t (y t) h)) (adv (y t) (h • g t (y t) + (h ^ 2 / 2) • γ' t)) (y (t + h))
  rw [norm_sub_rev (adv (y t) (h • g t (y t) + (h ^ 2 / 2) • γ' t))] at e2
  unfold stepG
  set W := second q.s R K B L ρ Γ with hW
  have p1 : 0 ≤ h * (K * (q.s * R * W)) * ε := by positivity
  have p2 : 0 ≤ h * (K * (q.s * R * Γ) + Γ) * (h * δ + ε) := by positivity
  have p3 : 0 ≤ h * (K * B) * (h ^ 2 + h * δ) := by positivity
  calc _ ≤ K * (h * (q.s * R * (W * (h ^ 2 + h * δ)) + q.s * R * (Γ * h ^ 2) + ε * B)) + Γ * h ^ 3 := by linarith
    _ ≤ _ := by linarith

/-- Steps short enough exist. -/
theorem short_exists (S : Chart adv P η K) (C : Course adv P g y a e L ρ B Γ) (s : ℕ) (hR : 0 ≤ R) :
    ∃ h₁ : ℝ, 0 < h₁ ∧ Short s R K B L ρ η h₁ ∧ h₁ * (B + Γ) ≤ η := by
  have hT := top_nonneg C
  have hK := S.hK
  have hB := C.hB
  have hΓ := C.hΓ
  have hη := S.hη
  have hρ := C.hρ
  have small : ∀ c d h : ℝ, 0 ≤ c → 0 < d → 0 < h → h ≤ d / (c + 1) → h * c ≤ d := by
    intro c d h hc hd hh hle
    rw [le_div_iff₀ (by positivity)] at hle
    linarith
  set c1 := s * R * top B L ρ with hc1
  set c2 := K * (s * R * top B L ρ) + B with hc2
  have q1 : 0 ≤ c1 := by positivity
  have q2 : 0 ≤ c2 := by positivity
  have q3 : 0 ≤ B + Γ := by positivity
  set h₁ := min (min 1 ρ) (min (η / (c1 + 1)) (min (ρ / 2 / (c2 + 1)) (η / (B + Γ + 1)))) with hh₁
  have pos : 0 < h₁ := lt_min (lt_min one_pos hρ) (lt_min (by positivity) (lt_min (by positivity) (by positivity)))
  have l1 : h₁ ≤ min 1 ρ := min_le_left _ _
  have l2 : h₁ ≤ min (η / (c1 + 1)) (min (ρ / 2 / (c2 + 1)) (η / (B + Γ + 1))) := min_le_right _ _
  have l3 := l2.trans (min_le_right _ _)
  exact ⟨h₁, pos, ⟨l1.trans (min_le_left _ _), l1.trans (min_le_right _ _), small _ _ _ q1 hη pos (l2.trans (min_le_left _ _)),
    small _ _ _ q2 (half_pos hρ) pos (l3.trans (min_le_left _ _))⟩, small _ _ _ q3 hη pos (l3.trans (min_le_right _ _))⟩

theorem assemble (S : Chart adv P η K) (C : Course adv P g y a e L ρ B Γ) (s : ℕ) (hR : 0 ≤ R) : ∃ X h₁ : ℝ, 0 ≤ X ∧ 0 < h₁ ∧
    Short s R K B L ρ η h₁ ∧ h₁ * (B + Γ) ≤ η ∧
    ∀ q : Coef, q.s = s → q.Bounded R → ∀ h ∈ Ioc 0 h₁, ∀ τ, 0 ≤ τ → X * τ ≤ ρ / 2 →
      (∀ t ∈ Icc a e, ∀ k ∈ Ioc 0 h, t + k ≤ e → ‖stepG q adv g t (y t) k - y (t + k)‖ ≤ k * τ) →
      ∀ hs : List ℝ, (∀ k ∈ hs, k ∈ Ioc 0 h) → a + hs.sum ≤ e → ‖march (stepG q adv g) a (y a) hs - y (a + hs.sum)‖ ≤ X * τ := by
  obtain ⟨Λ, hΛ, lip⟩ := step_lipG S C s hR
  obtain ⟨h₁, pos, H, hB1⟩ := short_exists S C s hR
  set T := |e - a| with hT
  refine ⟨T * Real.exp (Λ * T), h₁, by positivity, pos, H, hB1, ?_⟩
  intro q hqs hq h hh τ hτ hsm cons hs hsteps hend
  have hsum0 : 0 ≤ hs.sum := List.sum_nonneg fun z hz => (hsteps z hz).1.le
  have hsumT : hs.sum ≤ T := (by linarith : hs.sum ≤ e - a).trans (le_abs_self _)
  have hae : a ∈ Icc a e := ⟨le_rfl, by linarith⟩
  have hfin : (0 + τ * hs.sum) * Real.exp (Λ * hs.sum) ≤ T * Real.exp (Λ * T) * τ := by
    calc (0 + τ * hs.sum) * Real.exp (Λ * hs.sum) ≤ (0 + τ * T) * Real.exp (Λ * T) := by gcongr
      _ = _ := by ring
  refine (march_error_on P (stepG q adv g) (fun t x k hx => S.keep _ _ hx) y a e Λ τ (ρ / 2) h hΛ hτ ?_ cons hs hsteps a le_rfl hend (y a)
    (C.good a hae) 0 (by simp) (hfin.trans hsm)).trans hfin
  intro t ht k hk hte x hPx hx
  exact lip q hqs hq t ht k hk.1.le hte (H.mono S C hR (hk.2.trans hh.2)) x (y t) hPx (C.good t ht) hx (by simpa using (half_pos C.hρ).le)

/-- **C94, first order.** -/
theorem turn_first_order (S : Chart adv P η K) (C : Course adv P g y a e L ρ B Γ) (s : ℕ) (hR : 0 ≤ R) : ∃ X h₀ ε₀ : ℝ, 0 ≤ X ∧ 0 < h₀ ∧ 0 < ε₀ ∧
    ∀ ε ∈ Icc 0 ε₀, ∀ q : Coef, q.s = s → q.Bounded R → |∑ i ∈ Finset.range q.s, q.b i - 1| ≤ ε →
      ∀ h ∈ Ioc 0 h₀, ∀ hs : List ℝ, (∀ k ∈ hs, k ∈ Ioc 0 h) → a + hs.sum ≤ e →
        ‖march (stepG q adv g) a (y a) hs - y (a + hs.sum)‖ ≤ X * (h + ε) := by
  obtain ⟨X, h₁, hX, pos, H, hB1, key⟩ := assemble S C s hR
  have hK := S.hK
  have hB := C.hB
  have hΓ := C.hΓ
  have hρ := C.hρ
  have hF := first_nonneg S C s hR
  set Z := K * (s * R * first s R K B L ρ Γ) + Γ + K * B with hZ
  have hZ0 : 0 ≤ Z := by positivity
  have hc : 0 < ρ / (4 * (X * Z + 1)) := by positivity
  refine ⟨X * Z, min h₁ (ρ / (4 * (X * Z + 1))), ρ / (4 * (X * Z + 1)), by positivity, lt_min pos hc, hc, ?_⟩
  intro ε hε q hqs hq hsum h hh hs hsteps hend
  subst hqs
  have hh1 : h ≤ h₁ := hh.2.trans (min_le_left _ _)
  have hε0 := hε.1
  have hh0 := hh.1.le
  have hsm : X * (Z * (h + ε)) ≤ ρ / 2 := by
    have h3 : h + ε ≤ 2 * (ρ / (4 * (X * Z + 1))) := by linarith [hε.2, hh.2.trans (min_le_right _ _)]
    have h4 : (X * Z + 1) * (2 * (ρ / (4 * (X * Z + 1)))) = ρ / 2 := by field_simp; norm_num
    have h5 : 0 ≤ 2 * (ρ / (4 * (X * Z + 1))) := by positivity
    calc X * (Z * (h + ε)) = X * Z * (h + ε) := by ring
      _ ≤ X * Z * (2 * (ρ / (4 * (X * Z + 1)))) := mul_le_mul_of_nonneg_left h3 (by positivity)
      _ ≤ (X * Z + 1) * (2 * (ρ / (4 * (X * Z + 1)))) := mul_le_mul_of_nonneg_right (by linarith) h5
      _ = ρ / 2 := h4
  have := key q rfl hq h ⟨hh.1, hh1⟩ (Z * (h + ε)) (by positivity) hsm (fun t ht k hk hte => by
    have hkB : k * (B + Γ) ≤ η := (mul_le_mul_of_nonneg_right (hk.2.trans hh1) (by positivity)).trans hB1
    refine (local_first S C q hR hq ht hk.1.le hte (H.mono S C hR (hk.2.trans hh1)) hkB hsum).trans ?_
    apply mul_le_mul_of_nonneg_left _ hk.1.le
    exact mul_le_mul_of_nonneg_left (by linarith [hk.2]) hZ0) hs hsteps hend
  linarith

/-- **C94, second order.** -/
theorem turn_second_order (S : Chart adv P η K) (C : Course adv P g y a e L ρ B Γ) {γ' : ℝ → D} (C2 : Course2 adv g y γ' a e ρ Γ) (s : ℕ)
    (hR : 0 ≤ R) : ∃ X h₀ ε₀ : ℝ, 0 ≤ X ∧ 0 < h₀ ∧ 0 < ε₀ ∧
    ∀ δ ∈ Icc (0 : ℝ) 1, ∀ ε ∈ Icc 0 ε₀, ∀ q : Coef, q.s = s → q.Bounded R →
      (∀ i < q.s, |∑ j ∈ Finset.range i, q.A i j - q.c i| ≤ δ) → |∑ i ∈ Finset.range q.s, q.b i - 1| ≤ ε →
      ∑ i ∈ Finset.range q.s, q.b i * q.c i = 1 / 2 →
      ∀ h ∈ Ioc 0 h₀, ∀ hs : List ℝ, (∀ k ∈ hs, k ∈ Ioc 0 h) → a + hs.sum ≤ e →
        ‖march (stepG q adv g) a (y a) hs - y (a + hs.sum)‖ ≤ X * (h ^ 2 + h * δ + ε) := by
  obtain ⟨X, h₁, hX, pos, H, hB1, key⟩ := assemble S C s hR
  have hK := S.hK
  have hB := C.hB
  have hΓ := C.hΓ
  have hρ := C.hρ
  have hF := second_nonneg S C s hR
  set Z := K * (s * R * second s R K B L ρ Γ) + K * (s * R * Γ) + Γ + K * B with hZ
  have hZ0 : 0 ≤ Z := by positivity
  have hc : 0 < ρ / (6 * (X * Z + 1)) := by positivity
  refine ⟨X * Z, min h₁ (ρ / (6 * (X * Z + 1))), ρ / (6 * (X * Z + 1)), by positivity, lt_min pos hc, hc, ?_⟩
  intro δ hδ ε hε q hqs hq hrow hsum hmom h hh hs hsteps hend
  subst hqs
  have hh1 : h ≤ h₁ := hh.2.trans (min_le_left _ _)
  have hε0 := hε.1
  have hδ0 := hδ.1
  have hh0 := hh.1.le
  have hle : h ^ 2 + h * δ + ε ≤ 3 * (ρ / (6 * (X * Z + 1))) := by
    have i1 : h ≤ 1 := hh1.trans H.one
    have i2 : h ^ 2 ≤ h := by rw [sq]; exact mul_le_of_le_one_left hh0 i1
    have i3 : h * δ ≤ h := mul_le_of_le_one_right hh0 hδ.2
    linarith [hε.2, hh.2.trans (min_le_right _ _)]
  have hsm : X * (Z * (h ^ 2 + h * δ + ε)) ≤ ρ / 2 := by
    have h4 : (X * Z + 1) * (3 * (ρ / (6 * (X * Z + 1)))) = ρ / 2 := by field_simp; norm_num
    have h5 : 0 ≤ 3 * (ρ / (6 * (X * Z + 1))) := by positivity
    calc X * (Z * (h ^ 2 + h * δ + ε)) = X * Z * (h ^ 2 + h * δ + ε) := by ring
      _ ≤ X * Z * (3 * (ρ / (6 * (X * Z + 1)))) := mul_le_mul_of_nonneg_left hle (by positivity)
      _ ≤ (X * Z + 1) * (3 * (ρ / (6 * (X * Z + 1)))) := mul_le_mul_of_nonneg_right (by linarith) h5
      _ = ρ / 2 := h4
  have := key q rfl hq h ⟨hh.1, hh1⟩ (Z * (h ^ 2 + h * δ + ε)) (by positivity) hsm (fun t ht k hk hte => by
    have hkB : k * (B + Γ) ≤ η := (mul_le_mul_of_nonneg_right (hk.2.trans hh1) (by positivity)).trans hB1
    refine (local_second S C C2 q hR hq ht hk.1.le hte (H.mono S C hR (hk.2.trans hh1)) hkB hδ0 hrow hsum hmom).trans ?_
    apply mul_le_mul_of_nonneg_left _ hk.1.le
    apply mul_le_mul_of_nonneg_left _ hZ0
    have j1 : k ^ 2 ≤ h ^ 2 := pow_le_pow_left₀ hk.1.le hk.2 2
    have j2 : k * δ ≤ h * δ := mul_le_mul_of_nonneg_right hk.2 hδ0
    linarith) hs hsteps hend
  linarith

end order

end Mapleaf.Motion.Turn
