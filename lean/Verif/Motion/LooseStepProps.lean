import Verif.Motion.TurnOrderProps

/-! # C105: methods whose stages are only near the states they stand for

The adaptive methods reach the states of their stages in another way than the new state, and may start with a derivative kept from the step before.
Errors along a motion, without asking that neighbouring states have neighbouring stages. -/

namespace Mapleaf.Motion.Turn
open Set Mapleaf.Motion.Lim

section flown
variable {E D : Type} [NormedAddCommGroup E]

/-- steps one after the other, each with the derivative kept by the one before -/
inductive Flown (R : ℝ → E → Option D → ℝ → E → Option D → Prop) : ℝ → E → Option D → List ℝ → E → Option D → Prop
  | nil (t : ℝ) (x : E) (c : Option D) : Flown R t x c [] x c
  | cons {t : ℝ} {x : E} {c : Option D} {h : ℝ} {x' : E} {c' : Option D} {hs : List ℝ} {z : E} {c'' : Option D} :
      R t x c h x' c' → Flown R (t + h) x' c' hs z c'' → Flown R t x c (h :: hs) z c''

/-- Errors of the steps add up. `d` bounds the error so far, `Q t d c` is what is known of the derivative kept. -/
theorem flown_error (P : E → Prop) (Q : ℝ → ℝ → Option D → Prop) (R : ℝ → E → Option D → ℝ → E → Option D → Prop) (y : ℝ → E) (a e Λ τ r H : ℝ)
    (hΛ : 0 ≤ Λ) (hτ : 0 ≤ τ)
    (loc : ∀ t ∈ Icc a e, ∀ h ∈ Ioc 0 H, t + h ≤ e → ∀ x c x' c' d, R t x c h x' c' → P x → ‖x - y t‖ ≤ d → d ≤ r → Q t d c →
      P x' ∧ ‖x' - y (t + h)‖ ≤ (1 + h * Λ) * d + h * τ ∧ ∀ d', d ≤ d' → Q (t + h) d' c')
    (mono : ∀ t d d' c, d ≤ d' → Q t d c → Q t d' c)
    (hs : List ℝ) (hh : ∀ h ∈ hs, h ∈ Ioc 0 H) (t : ℝ) (ht : a ≤ t) (he : t + hs.sum ≤ e) (x : E) (c : Option D) (hx : P x) (d : ℝ) (hd : ‖x - y t‖ ≤ d)
    (hc : Q t d c) (z : E) (c' : Option D) (hf : Flown R t x c hs z c') (small : (d + τ * hs.sum) * Real.exp (Λ * hs.sum) ≤ r) :
    P z ∧ ‖z - y (t + hs.sum)‖ ≤ (d + τ * hs.sum) * Real.exp (Λ * hs.sum) ∧ Q (t + hs.sum) ((d + τ * hs.sum) * Real.exp (Λ * hs.sum)) c' := by
  induction hs generalizing t x c d with
  | nil => cases hf; exact ⟨hx, by simpa using hd, by simpa using hc⟩
  | cons h hs ih =>
    cases hf with
    | @cons _ _ _ _ x' c₁ _ _ _ hR hrest =>
    have hpos : h ∈ Ioc 0 H := hh h (by simp)
    have hsum : 0 ≤ hs.sum := List.sum_nonneg fun z hz => (hh z (by simp [hz])).1.le
    rw [List.sum_cons] at he small ⊢
    have hd0 : 0 ≤ d := (norm_nonneg _).trans hd
    have ht' : t ∈ Icc a e := ⟨ht, by linarith [hpos.1]⟩
    have hte : t + h ≤ e := by linarith
    have hexp : 1 ≤ Real.exp (Λ * (h + hs.sum)) := Real.one_le_exp (mul_nonneg hΛ (by linarith [hpos.1]))
    have hnn : 0 ≤ d + τ * (h + hs.sum) := add_nonneg hd0 (mul_nonneg hτ (by linarith [hpos.1]))
    have hdr : d ≤ r := by
      have : d ≤ d + τ * (h + hs.sum) := by linarith [mul_nonneg hτ (by linarith [hpos.1] : 0 ≤ h + hs.sum)]
      nlinarith
    obtain ⟨p1, p2, p3⟩ := loc t ht' h hpos hte x c x' c₁ d hR hx hd hdr hc
    have h2 : 1 ≤ Real.exp (h * Λ) := Real.one_le_exp (mul_nonneg hpos.1.le hΛ)
    have h3 : 0 ≤ h * τ := mul_nonneg hpos.1.le hτ
    have e1 : ‖x' - y (t + h)‖ ≤ Real.exp (h * Λ) * (d + h * τ) := by
      refine p2.trans ?_
      have h1 : 1 + h * Λ ≤ Real.exp (h * Λ) := by linarith [Real.add_one_le_exp (h * Λ)]
      nlinarith
    have hgrow : d ≤ Real.exp (h * Λ) * (d + h * τ) := by nlinarith
    have key : (Real.exp (h * Λ) * (d + h * τ) + τ * hs.sum) * Real.exp (Λ * hs.sum) ≤
        (d + τ * (h + hs.sum)) * Real.exp (Λ * (h + hs.sum)) := by
      have h3 : 0 ≤ τ * hs.sum := mul_nonneg hτ hsum
      rw [show Λ * (h + hs.sum) = h * Λ + Λ * hs.sum by ring, Real.exp_add, ← mul_assoc]
      apply mul_le_mul_of_nonneg_right _ (Real.exp_pos _).le
      nlinarith
    obtain ⟨i1, i2, i3⟩ := ih (fun z hz => hh z (by simp [hz])) (t + h) (by linarith [hpos.1]) (by linarith) x' c₁ p1 _ e1 (p3 _ hgrow) hrest (key.trans small)
    rw [add_assoc] at i2 i3
    exact ⟨i1, i2.trans key, mono _ _ _ _ key i3⟩

end flown

section loose
variable {E D : Type} [NormedAddCommGroup E] [NormedAddCommGroup D] [NormedSpace ℝ D]

/-- One step of size `h` from `x` at the time `t` with the derivatives `k i` at the states `X i` of the stages, of which it is only known that they
are near `x` and good. -/
structure Loose (P : E → Prop) (q : Coef) (g : ℝ → E → D) (N t : ℝ) (x : E) (h : ℝ) (X : ℕ → E) (k : ℕ → D) : Prop where
  stage : ∀ i, 1 ≤ i → i < q.s → k i = g (t + h * q.c i) (X i)
  good : ∀ i, 1 ≤ i → i < q.s → P (X i)
  drift : ∀ i, 1 ≤ i → i < q.s → ∀ T, 0 ≤ T → (∀ j < i, ‖k j‖ ≤ T) → ‖X i - x‖ ≤ h * (N * (1 + T))

variable {adv : E → D → E} {P : E → Prop} {g : ℝ → E → D} {y : ℝ → E} {a e L ρ B Γ η K R N : ℝ}

/-- a bound of the derivatives of the stages -/
def topL (B L ρ : ℝ) : ℝ := B + L * ρ + 1

/-- how far the stages are from the motion, per unit of time -/
def away (N B L ρ : ℝ) : ℝ := N * (1 + topL B L ρ) + B

theorem topL_nonneg (C : Course adv P g y a e L ρ B Γ) : 0 ≤ topL B L ρ := by
  have := C.hB
  have := mul_nonneg C.hL C.hρ.le
  unfold topL
  linarith

theorem away_nonneg (C : Course adv P g y a e L ρ B Γ) (hN : 0 ≤ N) : 0 ≤ away N B L ρ := by
  have h1 := topL_nonneg C
  have h2 := C.hB
  unfold away
  positivity

/-- The stages of a loose step are in the tube. -/
theorem loose_stages (C : Course adv P g y a e L ρ B Γ) (q : Coef) (hqc : ∀ i, q.c i ∈ Icc (0 : ℝ) 1) (hN : 0 ≤ N) {t h d : ℝ} (ht : t ∈ Icc a e)
    (h0 : 0 ≤ h) (hte : t + h ≤ e) {x : E} (hx : ‖x - y t‖ ≤ d) {X : ℕ → E} {k : ℕ → D} (hl : Loose P q g N t x h X k)
    (hk0 : ‖k 0 - g t (y t)‖ ≤ L * ρ + 1) (htube : d + h * away N B L ρ ≤ ρ) :
    ∀ i < q.s, ‖k i‖ ≤ topL B L ρ ∧ (1 ≤ i → ‖X i - y (t + h * q.c i)‖ ≤ d + h * away N B L ρ ∧
      ‖k i - g (t + h * q.c i) (y (t + h * q.c i))‖ ≤ L * ‖X i - y (t + h * q.c i)‖ ∧
      ‖k i - g t (y t)‖ ≤ L * d + (L * away N B L ρ + Γ) * h) := by
  intro i
  induction i using Nat.strong_induction_on with
  | _ i ih =>
    intro hi
    have hT := topL_nonneg C
    by_cases hi0 : i = 0
    · subst hi0
      refine ⟨?_, fun h => absurd h (by norm_num)⟩
      have h1 : ‖k 0‖ ≤ ‖g t (y t)‖ + ‖k 0 - g t (y t)‖ := norm_le_norm_add_norm_sub' _ _
      have h2 := C.bound t ht
      unfold topL
      linarith
    · have h1i : 1 ≤ i := Nat.one_le_iff_ne_zero.2 hi0
      have hti := time_in ht h0 hte (hqc i)
      have h1 := hl.drift i h1i hi _ hT (fun j hj => (ih j hj (by omega)).1)
      have h2 := C.path t ht _ hti
      rw [abs_sub_comm] at h2
      have h3 := mul_le_mul_of_nonneg_left (time_near (t := t) h0 (hqc i)) C.hB
      have hp : ‖X i - y (t + h * q.c i)‖ ≤ d + h * away N B L ρ := by
        have e1 : X i - y (t + h * q.c i) = (X i - x) + (x - y t) + (y t - y (t + h * q.c i)) := by abel
        rw [e1]
        refine (norm_add_le _ _).trans ((add_le_add (norm_add_le _ _) le_rfl).trans ?_)
        unfold away
        linarith
      have hp' := hp.trans htube
      have h5 := C.lip _ hti (X i) (y (t + h * q.c i)) (hl.good i h1i hi) (C.good _ hti) hp' (by simpa using C.hρ.le)
      rw [← hl.stage i h1i hi] at h5
      have h6 : ‖k i‖ ≤ ‖g (t + h * q.c i) (y (t + h * q.c i))‖ + ‖k i - g (t + h * q.c i) (y (t + h * q.c i))‖ := norm_le_norm_add_norm_sub' _ _
      have h7 := mul_le_mul_of_nonneg_left hp' C.hL
      have h8 := C.bound _ hti
      have h9 := C.along _ hti _ ht
      have h10 := mul_le_mul_of_nonneg_left (time_near (t := t) h0 (hqc i)) C.hΓ
      have h11 := mul_le_mul_of_nonneg_left hp C.hL
      refine ⟨by unfold topL; linarith, fun _ => ⟨hp, h5, ?_⟩⟩
      have := norm_sub_le_norm_sub_add_norm_sub (k i) (g (t + h * q.c i) (y (t + h * q.c i))) (g t (y t))
      linarith

/-- The error of a loose step with respect to a change `h • G` of the motion. -/
theorem loose_step (S : Chart adv P η K) (C : Course adv P g y a e L ρ B Γ) (q : Coef) (hR : 0 ≤ R) (hqb : ∀ i, |q.b i| ≤ R) {t h d : ℝ} (ht : t ∈ Icc a e)
    (h0 : 0 ≤ h) {x : E} (hPx : P x) (hx : ‖x - y t‖ ≤ d) {k : ℕ → D} (hk : ∀ i < q.s, ‖k i‖ ≤ topL B L ρ) (hη : h * (q.s * R * topL B L ρ) ≤ η) (G : D)
    (hG : ‖h • G‖ ≤ η) : ‖adv x (h • ∑ i ∈ Finset.range q.s, q.b i • k i) - adv (y t) (h • G)‖ ≤
      (1 + h * (K * (q.s * R * topL B L ρ))) * d + h * (K * ‖∑ i ∈ Finset.range q.s, q.b i • k i - G‖) := by
  have hT := topL_nonneg C
  have hK := S.hK
  have h1 := sum_le_card (u := k) (w := q.b) (le_refl q.s) hR hT hqb hk
  have h2 : ‖h • ∑ i ∈ Finset.range q.s, q.b i • k i‖ ≤ h * (q.s * R * topL B L ρ) := by
    rw [norm_smul, Real.norm_eq_abs, abs_of_nonneg h0]
    exact mul_le_mul_of_nonneg_left h1 h0
  have h3 := S.near x (y t) _ _ hPx (C.good t ht) (h2.trans hη) hG
  refine h3.trans (add_le_add ?_ ?_)
  · have h4 : 1 + K * ‖h • ∑ i ∈ Finset.range q.s, q.b i • k i‖ ≤ 1 + h * (K * (q.s * R * topL B L ρ)) := by
      have := mul_le_mul_of_nonneg_left h2 hK
      linarith
    exact mul_le_mul h4 hx (norm_nonneg _) (by positivity)
  · rw [← smul_sub, norm_smul, Real.norm_eq_abs, abs_of_nonneg h0]
    exact le_of_eq (by ring)

/-- what is known of the derivative kept: near the one of the motion -/
def Kept (g : ℝ → E → D) (y : ℝ → E) (M κ t d : ℝ) (c : Option D) : Prop := ∀ k, c = some k → ‖k - g t (y t)‖ ≤ M * d + κ

theorem Kept.mono {g : ℝ → E → D} {y : ℝ → E} {M κ t d d' : ℝ} {c : Option D} (h : Kept g y M κ t d c) (hM : 0 ≤ M) (hd : d ≤ d') : Kept g y M κ t d' c := by
  intro k hk
  have := mul_le_mul_of_nonneg_left hd hM
  linarith [h k hk]

/-- a step with or without kept derivative; if the method keeps the last derivative, it is the one for the next step -/
def LooseStep (adv : E → D → E) (P : E → Prop) (q : Coef) (g : ℝ → E → D) (N : ℝ) (fsal : Bool) (ok : ℝ → E → ℝ → (ℕ → E) → (ℕ → D) → Prop)
    (t : ℝ) (x : E) (c : Option D) (h : ℝ) (x' : E) (c' : Option D) : Prop :=
  ∃ X k, k 0 = c.getD (g t x) ∧ Loose P q g N t x h X k ∧ ok t x h X k ∧ x' = adv x (h • ∑ i ∈ Finset.range q.s, q.b i • k i) ∧
    c' = if fsal then some (k (q.s - 1)) else c

/-- the derivative the step starts with -/
theorem start_near (C : Course adv P g y a e L ρ B Γ) {M κ t d : ℝ} (hM : L ≤ M) (hκ : 0 ≤ κ) (ht : t ∈ Icc a e) {x : E} (hPx : P x) (hx : ‖x - y t‖ ≤ d) (hd : d ≤ ρ)
    {c : Option D} (hc : Kept g y M κ t d c) : ‖c.getD (g t x) - g t (y t)‖ ≤ M * d + κ := by
  have hd0 : 0 ≤ d := (norm_nonneg _).trans hx
  cases c with
  | some k => exact hc k rfl
  | none =>
    have h1 := C.lip t ht x (y t) hPx (C.good t ht) (hx.trans hd) (by simpa using C.hρ.le)
    have h2 := mul_le_mul_of_nonneg_left hx C.hL
    have h3 := mul_le_mul_of_nonneg_right hM hd0
    show ‖g t x - g t (y t)‖ ≤ _
    linarith

set_option maxHeartbeats 1000000 in
/-- **C105, first order.** Loose steps, whatever else is known of them, stay near the motion. -/
theorem loose_first_order (S : Chart adv P η K) (C : Course adv P g y a e L ρ B Γ) (s : ℕ) (hR : 0 ≤ R) (hN : 0 ≤ N) (fsal : Bool) : ∃ Z h₀ ε₀ : ℝ, 0 ≤ Z ∧ 0 < h₀ ∧ 0 < ε₀ ∧
    ∀ ε ∈ Icc 0 ε₀, ∀ q : Coef, q.s = s → q.Bounded R → |∑ i ∈ Finset.range q.s, q.b i - 1| ≤ ε → (fsal = true → 2 ≤ q.s ∧ q.c (q.s - 1) = 1) →
      ∀ ok : ℝ → E → ℝ → (ℕ → E) → (ℕ → D) → Prop, ∀ H ∈ Ioc 0 h₀, ∀ hs : List ℝ, (∀ h ∈ hs, h ∈ Ioc 0 H) → a + hs.sum ≤ e → ∀ z c',
        Flown (LooseStep adv P q g N fsal ok) a (y a) none hs z c' → P z ∧ ‖z - y (a + hs.sum)‖ ≤ Z * (H + ε) := by
  have hK := S.hK
  have hL := C.hL
  have hB := C.hB
  have hΓ := C.hΓ
  have hρ := C.hρ
  have hT := topL_nonneg C
  have hW := away_nonneg C hN
  set T := topL B L ρ with hTdef
  set W := away N B L ρ with hWdef
  set J : ℝ := L * W + Γ with hJ
  have hJ0 : 0 ≤ J := by positivity
  set Λ : ℝ := K * (s * R * T) + K * (s * R * L) with hΛdef
  have hΛ : 0 ≤ Λ := by positivity
  set Y : ℝ := K * (s * R * J) + Γ + K * B with hYdef
  have hY : 0 ≤ Y := by positivity
  by_cases hae : a ≤ e
  swap
  · refine ⟨0, 1, 1, le_rfl, one_pos, one_pos, fun ε _ q _ _ _ _ ok H hH hs hh hend => ?_⟩
    have : 0 ≤ hs.sum := List.sum_nonneg fun z hz => (hh z hz).1.le
    exact absurd (by linarith) hae
  set Ex := Real.exp (Λ * (e - a)) with hEx
  have hEx0 : 0 < Ex := Real.exp_pos _
  set Z : ℝ := Y * (e - a) * Ex with hZdef
  have hea : 0 ≤ e - a := by linarith
  have hZ : 0 ≤ Z := by positivity
  -- the sizes
  obtain ⟨h₁, hh₁, q1, q2, q3, q4, q5⟩ : ∃ h₁ : ℝ, 0 < h₁ ∧ h₁ ≤ 1 ∧ h₁ * W ≤ ρ / 2 ∧ h₁ * (s * R * T) ≤ η ∧ h₁ * B ≤ η ∧ h₁ * (L * W) ≤ 1 ∧ h₁ ≤ ρ := by
    have hη := S.hη
    refine ⟨min 1 (min (ρ / (2 * (W + 1))) (min (η / (s * R * T + 1)) (min (η / (B + 1)) (min (1 / (L * W + 1)) ρ)))), by positivity, min_le_left _ _, ?_, ?_, ?_, ?_, ?_⟩
    · have : min 1 (min (ρ / (2 * (W + 1))) (min (η / (s * R * T + 1)) (min (η / (B + 1)) (min (1 / (L * W + 1)) ρ)))) ≤ ρ / (2 * (W + 1)) := (min_le_right _ _).trans (min_le_left _ _)
      calc _ ≤ ρ / (2 * (W + 1)) * W := mul_le_mul_of_nonneg_right this hW
        _ ≤ ρ / (2 * (W + 1)) * (W + 1) := mul_le_mul_of_nonneg_left (by linarith) (by positivity)
        _ = ρ / 2 := by field_simp
    · have : min 1 (min (ρ / (2 * (W + 1))) (min (η / (s * R * T + 1)) (min (η / (B + 1)) (min (1 / (L * W + 1)) ρ)))) ≤ η / (s * R * T + 1) := (min_le_right _ _).trans ((min_le_right _ _).trans (min_le_left _ _))
      calc _ ≤ η / (s * R * T + 1) * (s * R * T) := mul_le_mul_of_nonneg_right this (by positivity)
        _ ≤ η / (s * R * T + 1) * (s * R * T + 1) := mul_le_mul_of_nonneg_left (by linarith) (by positivity)
        _ = η := by field_simp
    · have : min 1 (min (ρ / (2 * (W + 1))) (min (η / (s * R * T + 1)) (min (η / (B + 1)) (min (1 / (L * W + 1)) ρ)))) ≤ η / (B + 1) :=
        (min_le_right _ _).trans ((min_le_right _ _).trans ((min_le_right _ _).trans (min_le_left _ _)))
      calc _ ≤ η / (B + 1) * B := mul_le_mul_of_nonneg_right this hB
        _ ≤ η / (B + 1) * (B + 1) := mul_le_mul_of_nonneg_left (by linarith) (by positivity)
        _ = η := by field_simp
    · have : min 1 (min (ρ / (2 * (W + 1))) (min (η / (s * R * T + 1)) (min (η / (B + 1)) (min (1 / (L * W + 1)) ρ)))) ≤ 1 / (L * W + 1) :=
        (min_le_right _ _).trans ((min_le_right _ _).trans ((min_le_right _ _).trans ((min_le_right _ _).trans (min_le_left _ _))))
      calc _ ≤ 1 / (L * W + 1) * (L * W) := mul_le_mul_of_nonneg_right this (by positivity)
        _ ≤ 1 / (L * W + 1) * (L * W + 1) := mul_le_mul_of_nonneg_left (by linarith) (by positivity)
        _ = 1 := by field_simp
    · exact (min_le_right _ _).trans ((min_le_right _ _).trans ((min_le_right _ _).trans ((min_le_right _ _).trans (min_le_right _ _))))
  obtain ⟨q5, q6⟩ := q5
  have hsm : 0 < ρ / (4 * (Z + 1)) := by positivity
  refine ⟨Z, min h₁ (ρ / (4 * (Z + 1))), ρ / (4 * (Z + 1)), hZ, lt_min hh₁ hsm, hsm, ?_⟩
  intro ε hε q hqs hq hsum hfs ok H hH hs hh hend z c' hf
  subst hqs
  have hH1 : H ≤ h₁ := hH.2.trans (min_le_left _ _)
  have hH0 := hH.1
  have hsumnn : 0 ≤ hs.sum := List.sum_nonneg fun z hz => (hh z hz).1.le
  have hτ : 0 ≤ Y * (H + ε) := mul_nonneg hY (by linarith [hε.1])
  have final : (0 + Y * (H + ε) * hs.sum) * Real.exp (Λ * hs.sum) ≤ Z * (H + ε) := by
    have h1 : Real.exp (Λ * hs.sum) ≤ Ex := Real.exp_le_exp.2 (mul_le_mul_of_nonneg_left (by linarith) hΛ)
    calc (0 + Y * (H + ε) * hs.sum) * Real.exp (Λ * hs.sum) ≤ (Y * (H + ε) * (e - a)) * Ex := by
          rw [zero_add]
          exact mul_le_mul (mul_le_mul_of_nonneg_left (by linarith) hτ) h1 (Real.exp_pos _).le (by positivity)
      _ = Z * (H + ε) := by rw [hZdef]; ring
  have hsmall : Z * (H + ε) ≤ ρ / 2 := by
    have h1 : H + ε ≤ ρ / (4 * (Z + 1)) + ρ / (4 * (Z + 1)) := add_le_add (hH.2.trans (min_le_right _ _)) hε.2
    calc Z * (H + ε) ≤ (Z + 1) * (ρ / (4 * (Z + 1)) + ρ / (4 * (Z + 1))) := mul_le_mul (by linarith) h1 (by linarith [hε.1]) (by positivity)
      _ = ρ / 2 := by field_simp; norm_num
  have := flown_error P (fun t d c => Kept g y L (L * W * H) t d c ∧ (fsal = false → c = none)) (LooseStep adv P q g N fsal ok) y a e Λ (Y * (H + ε)) (ρ / 2) H hΛ hτ ?_
    (fun t d d' c hd h => ⟨h.1.mono hL hd, h.2⟩) hs hh a le_rfl hend
    (y a) none (C.good a ⟨le_rfl, hae⟩) 0 (by simp) ⟨(fun k hk => by cases hk), fun _ => rfl⟩ z c' hf (final.trans hsmall)
  · exact ⟨this.1, this.2.1.trans final⟩
  · intro t ht h hhH hte x c x' c' d hstep hPx hx hd hc
    obtain ⟨X, k, hk0, hloose, _, rfl, rfl⟩ := hstep
    have h0 := hhH.1.le
    have hd0 : 0 ≤ d := (norm_nonneg _).trans hx
    have hh1 : h ≤ h₁ := hhH.2.trans hH1
    have hLWH : L * W * H ≤ 1 := by
      calc L * W * H ≤ L * W * h₁ := mul_le_mul_of_nonneg_left hH1 (by positivity)
        _ = h₁ * (L * W) := by ring
        _ ≤ 1 := q5
    have st := start_near C (M := L) (κ := L * W * H) le_rfl (by positivity) ht hPx hx (by linarith) hc.1
    rw [← hk0] at st
    have st' : ‖k 0 - g t (y t)‖ ≤ L * ρ + 1 := by
      have := mul_le_mul_of_nonneg_left (by linarith : d ≤ ρ) hL
      linarith
    have htube : d + h * away N B L ρ ≤ ρ := by
      have := mul_le_mul_of_nonneg_right hh1 hW
      linarith
    have key := loose_stages C q hq.c hN ht h0 hte hx hloose st' htube
    have hη1 : h * (q.s * R * topL B L ρ) ≤ η := (mul_le_mul_of_nonneg_right hh1 (by positivity)).trans q3
    have hη2 : ‖h • g t (y t)‖ ≤ η := by
      rw [norm_smul, Real.norm_eq_abs, abs_of_nonneg h0]
      exact (mul_le_mul hh1 (C.bound t ht) (norm_nonneg _) hh₁.le).trans q4
    have step := loose_step S C q hR hq.b ht h0 hPx hx (fun i hi => (key i hi).1) hη1 (g t (y t)) hη2
    have tan := C.tangent t ht h h0 (hh1.trans q6) hte
    have hdev : ∀ i < q.s, ‖k i - g t (y t)‖ ≤ L * d + J * H := by
      intro i hi
      by_cases hi0 : i = 0
      · subst hi0
        refine st.trans ?_
        have := mul_nonneg hΓ hH0.le
        rw [hJ]
        linarith
      · refine (((key i hi).2 (by omega)).2.2).trans ?_
        have := mul_le_mul_of_nonneg_left hhH.2 hJ0
        linarith
    have hinc : ‖∑ i ∈ Finset.range q.s, q.b i • k i - g t (y t)‖ ≤ q.s * R * (L * d + J * H) + ε * B := by
      have e1 : ∑ i ∈ Finset.range q.s, q.b i • k i - g t (y t) =
          ∑ i ∈ Finset.range q.s, q.b i • (k i - g t (y t)) + (∑ i ∈ Finset.range q.s, q.b i - 1) • g t (y t) := by
        simp only [smul_sub, Finset.sum_sub_distrib, ← Finset.sum_smul, sub_smul, one_smul]
        abel
      rw [e1]
      refine (norm_add_le _ _).trans (add_le_add ?_ ?_)
      · exact sum_le_card (u := fun i => k i - g t (y t)) (w := q.b) le_rfl hR (by positivity) hq.b hdev
      · rw [norm_smul, Real.norm_eq_abs]
        exact mul_le_mul hsum (C.bound t ht) (norm_nonneg _) hε.1
    refine ⟨S.keep _ _ hPx, ?_, ?_⟩
    · have t1 := norm_sub_le_norm_sub_add_norm_sub (adv x (h • ∑ i ∈ Finset.range q.s, q.b i • k i)) (adv (y t) (h • g t (y t))) (y (t + h))
      rw [norm_sub_rev (adv (y t) (h • g t (y t)))] at t1
      have t2 := mul_le_mul_of_nonneg_left (mul_le_mul_of_nonneg_left hinc hK) h0
      have t3 : Γ * h ^ 2 ≤ h * (Γ * H) := by
        have := mul_le_mul_of_nonneg_left hhH.2 (mul_nonneg h0 hΓ)
        calc Γ * h ^ 2 = h * Γ * h := by ring
          _ ≤ h * Γ * H := this
          _ = _ := by ring
      have t4 : h * (K * (q.s * R * (L * d + J * H) + ε * B)) + h * (Γ * H) ≤ h * (K * (q.s * R * L)) * d + h * (Y * (H + ε)) := by
        have hp : 0 ≤ h * ((K * (q.s * R * J) + Γ) * ε + K * B * H) := by
          have := hε.1
          positivity
        have he : h * (K * (q.s * R * L)) * d + h * (Y * (H + ε)) - (h * (K * (q.s * R * (L * d + J * H) + ε * B)) + h * (Γ * H)) =
            h * ((K * (q.s * R * J) + Γ) * ε + K * B * H) := by
          rw [hYdef]
          ring
        linarith
      have t5 : (1 + h * Λ) * d = (1 + h * (K * (q.s * R * T))) * d + h * (K * (q.s * R * L)) * d := by
        rw [hΛdef]
        ring
      rw [t5]
      linarith
    · intro d' hd'
      cases fsal with
      | false =>
        rw [hc.2 rfl]
        exact ⟨(fun k hk => by cases hk), fun _ => rfl⟩
      | true =>
        refine ⟨fun k' hk' => ?_, (fun hf => by cases hf)⟩
        simp only [if_true] at hk'
        injection hk' with hk'
        obtain ⟨f1, f2⟩ := hfs rfl
        obtain ⟨_, m2⟩ := key (q.s - 1) (by omega)
        obtain ⟨m3, m4, _⟩ := m2 (by omega)
        rw [f2, mul_one] at m3 m4
        rw [← hk']
        refine m4.trans ((mul_le_mul_of_nonneg_left m3 hL).trans ?_)
        have s1 := mul_le_mul_of_nonneg_left hd' hL
        have s2 := mul_le_mul_of_nonneg_left hhH.2 (mul_nonneg hL hW)
        calc L * (d + h * away N B L ρ) = L * d + L * W * h := by rw [hWdef]; ring
          _ ≤ L * d' + L * W * H := add_le_add s1 s2

end loose

end Mapleaf.Motion.Turn
