import Verif.Motion.LimitProps

/-! # C94: refining the time step of a turning body, general part

States need not form a vector space: a step moves the state `x` to `adv x u`, where `u` is the change, a combination of derivatives.
Errors of such methods along a motion. -/

namespace Mapleaf.Motion.Turn
open Set Mapleaf.Motion.Lim

section global
variable {E : Type} [NormedAddCommGroup E]

/-- `march_error` for steps between states with the property `P` -/
theorem march_error_on (P : E → Prop) (step : ℝ → E → ℝ → E) (hP : ∀ t x h, P x → P (step t x h)) (y : ℝ → E) (a e Λ τ r h₀ : ℝ)
    (hΛ : 0 ≤ Λ) (hτ : 0 ≤ τ)
    (stab : ∀ t ∈ Icc a e, ∀ h ∈ Ioc 0 h₀, t + h ≤ e → ∀ x, P x → ‖x - y t‖ ≤ r → ‖step t x h - step t (y t) h‖ ≤ (1 + h * Λ) * ‖x - y t‖)
    (cons : ∀ t ∈ Icc a e, ∀ h ∈ Ioc 0 h₀, t + h ≤ e → ‖step t (y t) h - y (t + h)‖ ≤ h * τ)
    (hs : List ℝ) (hh : ∀ h ∈ hs, h ∈ Ioc 0 h₀) (t : ℝ) (ht : a ≤ t) (he : t + hs.sum ≤ e) (x : E) (hx : P x) (d : ℝ) (hd : ‖x - y t‖ ≤ d)
    (small : (d + τ * hs.sum) * Real.exp (Λ * hs.sum) ≤ r) :
    ‖march step t x hs - y (t + hs.sum)‖ ≤ (d + τ * hs.sum) * Real.exp (Λ * hs.sum) := by
  induction hs generalizing t x d with
  | nil => simpa [march] using hd
  | cons h hs ih =>
    have hpos : h ∈ Ioc 0 h₀ := hh h (by simp)
    have hsum : 0 ≤ hs.sum := List.sum_nonneg fun z hz => (hh z (by simp [hz])).1.le
    rw [List.sum_cons] at he small ⊢
    have hd0 : 0 ≤ d := (norm_nonneg _).trans hd
    have ht' : t ∈ Icc a e := ⟨ht, by linarith [hpos.1]⟩
    have hte : t + h ≤ e := by linarith
    have hexp : 1 ≤ Real.exp (Λ * (h + hs.sum)) := Real.one_le_exp (mul_nonneg hΛ (by linarith [hpos.1]))
    have hnn : 0 ≤ d + τ * (h + hs.sum) := add_nonneg hd0 (mul_nonneg hτ (by linarith [hpos.1]))
    have hdr : ‖x - y t‖ ≤ r := by
      have : d ≤ d + τ * (h + hs.sum) := by linarith [mul_nonneg hτ (by linarith [hpos.1] : 0 ≤ h + hs.sum)]
      nlinarith
    have e1 : ‖step t x h - y (t + h)‖ ≤ Real.exp (h * Λ) * (d + h * τ) := by
      calc ‖step t x h - y (t + h)‖ ≤ ‖step t x h - step t (y t) h‖ + ‖step t (y t) h - y (t + h)‖ := norm_sub_le_norm_sub_add_norm_sub _ _ _
        _ ≤ (1 + h * Λ) * d + h * τ := add_le_add ((stab t ht' h hpos hte x hx hdr).trans
            (mul_le_mul_of_nonneg_left hd (by have := mul_nonneg hpos.1.le hΛ; linarith))) (cons t ht' h hpos hte)
        _ ≤ Real.exp (h * Λ) * (d + h * τ) := by
          have h1 : 1 + h * Λ ≤ Real.exp (h * Λ) := by linarith [Real.add_one_le_exp (h * Λ)]
          have h2 : 1 ≤ Real.exp (h * Λ) := Real.one_le_exp (mul_nonneg hpos.1.le hΛ)
          have h3 : 0 ≤ h * τ := mul_nonneg hpos.1.le hτ
          nlinarith
    have key : (Real.exp (h * Λ) * (d + h * τ) + τ * hs.sum) * Real.exp (Λ * hs.sum) ≤
        (d + τ * (h + hs.sum)) * Real.exp (Λ * (h + hs.sum)) := by
      have h2 : 1 ≤ Real.exp (h * Λ) := Real.one_le_exp (mul_nonneg hpos.1.le hΛ)
      have h3 : 0 ≤ τ * hs.sum := mul_nonneg hτ hsum
      rw [show Λ * (h + hs.sum) = h * Λ + Λ * hs.sum by ring, Real.exp_add, ← mul_assoc]
      apply mul_le_mul_of_nonneg_right _ (Real.exp_pos _).le
      nlinarith
    have := ih (fun z hz => hh z (by simp [hz])) (t + h) (by linarith [hpos.1]) (by linarith) (step t x h) (hP t x h hx) _ e1 (key.trans small)
    unfold march
    rw [add_assoc] at this
    exact this.trans key

end global

section method
variable {E D : Type} [NormedAddCommGroup E] [NormedAddCommGroup D] [NormedSpace ℝ D]

/-- the derivatives at the stages: `kᵢ = g (t + cᵢ h) (adv x (h ∑ⱼ aᵢⱼ kⱼ))` -/
noncomputable def stageG (q : Coef) (adv : E → D → E) (g : ℝ → E → D) (t : ℝ) (x : E) (h : ℝ) (i : ℕ) : D :=
  g (t + h * q.c i) (adv x (h • ∑ j : Fin i, q.A i j • stageG q adv g t x h j))
termination_by i
decreasing_by exact j.2

/-- the change up to a stage -/
noncomputable def changeG (q : Coef) (adv : E → D → E) (g : ℝ → E → D) (t : ℝ) (x : E) (h : ℝ) (i : ℕ) : D :=
  h • ∑ j ∈ Finset.range i, q.A i j • stageG q adv g t x h j

theorem stage_change (q : Coef) (adv : E → D → E) (g : ℝ → E → D) (t : ℝ) (x : E) (h : ℝ) (i : ℕ) :
    stageG q adv g t x h i = g (t + h * q.c i) (adv x (changeG q adv g t x h i)) := by
  rw [stageG, changeG, Finset.sum_range]

/-- the derivative of the whole step -/
noncomputable def incrG (q : Coef) (adv : E → D → E) (g : ℝ → E → D) (t : ℝ) (x : E) (h : ℝ) : D :=
  ∑ i ∈ Finset.range q.s, q.b i • stageG q adv g t x h i

/-- one step -/
noncomputable def stepG (q : Coef) (adv : E → D → E) (g : ℝ → E → D) (t : ℝ) (x : E) (h : ℝ) : E := adv x (h • incrG q adv g t x h)

/-- How changes act on the states with the property `P`: changes of size at most `η` move neighbours together. -/
structure Chart (adv : E → D → E) (P : E → Prop) (η K : ℝ) : Prop where
  zero : ∀ x, adv x 0 = x
  keep : ∀ x u, P x → P (adv x u)
  near : ∀ x z u v, P x → P z → ‖u‖ ≤ η → ‖v‖ ≤ η → ‖adv x u - adv z v‖ ≤ (1 + K * ‖u‖) * ‖x - z‖ + K * ‖u - v‖
  hη : 0 < η
  hη1 : η ≤ 1
  hK : 0 ≤ K

/-- A motion `y` on `[a, e]` with the derivative `g`: it consists of states with the property `P`, the derivative is Lipschitz in the state
near it and in time along it, and short pieces of it are changes by the derivative up to second order. -/
structure Course (adv : E → D → E) (P : E → Prop) (g : ℝ → E → D) (y : ℝ → E) (a e L ρ B Γ : ℝ) : Prop where
  good : ∀ t ∈ Icc a e, P (y t)
  lip : ∀ t ∈ Icc a e, ∀ x z, P x → P z → ‖x - y t‖ ≤ ρ → ‖z - y t‖ ≤ ρ → ‖g t x - g t z‖ ≤ L * ‖x - z‖
  bound : ∀ t ∈ Icc a e, ‖g t (y t)‖ ≤ B
  path : ∀ s ∈ Icc a e, ∀ t ∈ Icc a e, ‖y s - y t‖ ≤ B * |s - t|
  along : ∀ s ∈ Icc a e, ∀ t ∈ Icc a e, ‖g s (y s) - g t (y t)‖ ≤ Γ * |s - t|
  tangent : ∀ t ∈ Icc a e, ∀ h, 0 ≤ h → h ≤ ρ → t + h ≤ e → ‖y (t + h) - adv (y t) (h • g t (y t))‖ ≤ Γ * h ^ 2
  hL : 0 ≤ L
  hρ : 0 < ρ
  hB : 0 ≤ B
  hΓ : 0 ≤ Γ

variable {adv : E → D → E} {P : E → Prop} {g : ℝ → E → D} {y : ℝ → E} {a e L ρ B Γ η K R : ℝ}

/-- a bound of the derivatives in the tube -/
def top (B L ρ : ℝ) : ℝ := B + L * ρ

/-- how short a step has to be -/
structure Short (s : ℕ) (R K B L ρ η h : ℝ) : Prop where
  one : h ≤ 1
  rad : h ≤ ρ
  change : h * (s * R * top B L ρ) ≤ η
  tube : h * (K * (s * R * top B L ρ) + B) ≤ ρ / 2

theorem top_nonneg (C : Course adv P g y a e L ρ B Γ) : 0 ≤ top B L ρ := add_nonneg C.hB (mul_nonneg C.hL C.hρ.le)

theorem Short.mono (S : Chart adv P η K) (C : Course adv P g y a e L ρ B Γ) (hR : 0 ≤ R) {s : ℕ} {h k : ℝ} (H : Short s R K B L ρ η h)
    (hk : k ≤ h) : Short s R K B L ρ η k := by
  have h1 := top_nonneg C
  have h2 := S.hK
  have h3 := C.hB
  exact ⟨hk.trans H.one, hk.trans H.rad, (mul_le_mul_of_nonneg_right hk (by positivity)).trans H.change,
    (mul_le_mul_of_nonneg_right hk (by positivity)).trans H.tube⟩

theorem time_in {t h c : ℝ} (ht : t ∈ Icc a e) (h0 : 0 ≤ h) (hte : t + h ≤ e) (hc : c ∈ Icc (0 : ℝ) 1) : t + h * c ∈ Icc a e :=
  ⟨by have := mul_nonneg h0 hc.1; linarith [ht.1], by have := mul_le_mul_of_nonneg_left hc.2 h0; linarith⟩

theorem time_near {t h c : ℝ} (h0 : 0 ≤ h) (hc : c ∈ Icc (0 : ℝ) 1) : |t + h * c - t| ≤ h := by
  rw [add_sub_cancel_left, abs_of_nonneg (mul_nonneg h0 hc.1)]
  have := mul_le_mul_of_nonneg_left hc.2 h0
  linarith

/-- Short steps from near the motion have all their stages in the tube. -/
theorem insideG (S : Chart adv P η K) (C : Course adv P g y a e L ρ B Γ) (q : Coef) (hR : 0 ≤ R) (hq : q.Bounded R) {t h : ℝ} (ht : t ∈ Icc a e)
    (h0 : 0 ≤ h) (hte : t + h ≤ e) (H : Short q.s R K B L ρ η h) {x : E} (hPx : P x) (hx : ‖x - y t‖ ≤ ρ / 2) (i : ℕ) (hi : i ≤ q.s) :
    ‖changeG q adv g t x h i‖ ≤ h * (q.s * R * top B L ρ) ∧
    ‖adv x (changeG q adv g t x h i) - y (t + h * q.c i)‖ ≤ ‖x - y t‖ + h * (K * (q.s * R * top B L ρ) + B) ∧
    ‖stageG q adv g t x h i‖ ≤ top B L ρ := by
  induction i using Nat.strong_induction_on with
  | _ i ih =>
    have hti := time_in ht h0 hte (hq.c i)
    have hT := top_nonneg C
    have hsum := sum_le_card (u := stageG q adv g t x h) (w := q.A i) hi hR hT (hq.A i) (fun j hj => (ih j hj (by omega)).2.2)
    have hch : ‖changeG q adv g t x h i‖ ≤ h * (q.s * R * top B L ρ) := by
      unfold changeG
      rw [norm_smul, Real.norm_eq_abs, abs_of_nonneg h0]
      exact mul_le_mul_of_nonneg_left hsum h0
    have hη0 := S.hη.le
    have h1 := S.near x x (changeG q adv g t x h i) 0 hPx hPx (hch.trans H.change) (by simpa using hη0)
    rw [S.zero, sub_self, norm_zero, mul_zero, zero_add, sub_zero] at h1
    have h2 := C.path t ht _ hti
    rw [abs_sub_comm] at h2
    have h3 := mul_le_mul_of_nonneg_left (time_near (t := t) h0 (hq.c i)) C.hB
    have h4 := mul_le_mul_of_nonneg_left hch S.hK
    have hp : ‖adv x (changeG q adv g t x h i) - y (t + h * q.c i)‖ ≤ ‖x - y t‖ + h * (K * (q.s * R * top B L ρ) + B) := by
      have e1 : adv x (changeG q adv g t x h i) - y (t + h * q.c i) =
          (adv x (changeG q adv g t x h i) - x) + (x - y t) + (y t - y (t + h * q.c i)) := by abel
      rw [e1]
      refine (norm_add_le _ _).trans ((add_le_add (norm_add_le _ _) le_rfl).trans ?_)
      linarith
    have hp' : ‖adv x (changeG q adv g t x h i) - y (t + h * q.c i)‖ ≤ ρ := by linarith [H.tube]
    refine ⟨hch, hp, ?_⟩
    rw [stage_change]
    have h5 := C.lip _ hti (adv x (changeG q adv g t x h i)) (y (t + h * q.c i)) (S.keep _ _ hPx) (C.good _ hti) hp' (by simpa using C.hρ.le)
    have h6 : ‖g (t + h * q.c i) (adv x (changeG q adv g t x h i))‖ ≤ ‖g (t + h * q.c i) (y (t + h * q.c i))‖ +
        ‖g (t + h * q.c i) (adv x (changeG q adv g t x h i)) - g (t + h * q.c i) (y (t + h * q.c i))‖ := norm_le_norm_add_norm_sub' _ _
    have h7 := mul_le_mul_of_nonneg_left hp' C.hL
    have h8 := C.bound _ hti
    unfold top
    linarith

/-- Steps from neighbouring states stay together. -/
theorem stage_lipG (S : Chart adv P η K) (C : Course adv P g y a e L ρ B Γ) (s : ℕ) (hR : 0 ≤ R) (n : ℕ) : ∃ M : ℝ, 0 ≤ M ∧
    ∀ q : Coef, q.s = s → q.Bounded R → ∀ t ∈ Icc a e, ∀ h, 0 ≤ h → t + h ≤ e → Short s R K B L ρ η h →
      ∀ x z, P x → P z → ‖x - y t‖ ≤ ρ / 2 → ‖z - y t‖ ≤ ρ / 2 → ∀ i < n, i ≤ s →
        ‖stageG q adv g t x h i - stageG q adv g t z h i‖ ≤ M * ‖x - z‖ := by
  induction n with
  | zero => exact ⟨0, le_rfl, fun _ _ _ _ _ _ _ _ _ _ _ _ _ _ _ i hi => absurd hi (Nat.not_lt_zero i)⟩
  | succ n ih =>
    obtain ⟨M, hM, key⟩ := ih
    have hK := S.hK
    have hL := C.hL
    refine ⟨M + L * ((1 + K) + K * (s * R * M)), by positivity, ?_⟩
    intro q hqs hq t ht h h0 hte H x z hPx hPz hx hz i hi his
    subst hqs
    have hti := time_in ht h0 hte (hq.c i)
    obtain ⟨a1, a2, -⟩ := insideG S C q hR hq ht h0 hte H hPx hx i his
    obtain ⟨b1, b2, -⟩ := insideG S C q hR hq ht h0 hte H hPz hz i his
    have a2' : ‖adv x (changeG q adv g t x h i) - y (t + h * q.c i)‖ ≤ ρ := by linarith [H.tube]
    have b2' : ‖adv z (changeG q adv g t z h i) - y (t + h * q.c i)‖ ≤ ρ := by linarith [H.tube]
    have hdiff : ‖changeG q adv g t x h i - changeG q adv g t z h i‖ ≤ q.s * R * M * ‖x - z‖ := by
      have e1 : changeG q adv g t x h i - changeG q adv g t z h i =
          h • ∑ j ∈ Finset.range i, q.A i j • (stageG q adv g t x h j - stageG q adv g t z h j) := by
        unfold changeG
        simp only [smul_sub, Finset.sum_sub_distrib]
      rw [e1, norm_smul, Real.norm_eq_abs, abs_of_nonneg h0]
      have := sum_le_card (u := fun j => stageG q adv g t x h j - stageG q adv g t z h j) (w := q.A i) his hR
        (K := M * ‖x - z‖) (by positivity) (hq.A i) (fun j hj => key q rfl hq t ht h h0 hte H x z hPx hPz hx hz j (by omega) (by omega))
      calc _ ≤ 1 * (q.s * R * (M * ‖x - z‖)) := mul_le_mul H.one this (norm_nonneg _) zero_le_one
        _ = _ := by ring
    have h1 := S.near x z _ _ hPx hPz (a1.trans H.change) (b1.trans H.change)
    have h2 := C.lip _ hti _ _ (S.keep _ _ hPx) (S.keep _ _ hPz) a2' b2'
    rw [stage_change, stage_change]
    refine h2.trans ?_
    have h3 : ‖changeG q adv g t x h i‖ ≤ 1 := a1.trans (H.change.trans S.hη1)
    have h4 : (1 + K * ‖changeG q adv g t x h i‖) * ‖x - z‖ ≤ (1 + K) * ‖x - z‖ := by
      apply mul_le_mul_of_nonneg_right _ (norm_nonneg _)
      have := mul_le_mul_of_nonneg_left h3 hK
      linarith
    have h5 := mul_le_mul_of_nonneg_left hdiff hK
    have h6 : ‖adv x (changeG q adv g t x h i) - adv z (changeG q adv g t z h i)‖ ≤ ((1 + K) + K * (q.s * R * M)) * ‖x - z‖ := by
      linarith
    have h7 := mul_le_mul_of_nonneg_left h6 hL
    have h8 : 0 ≤ M * ‖x - z‖ := by positivity
    linarith

theorem step_lipG (S : Chart adv P η K) (C : Course adv P g y a e L ρ B Γ) (s : ℕ) (hR : 0 ≤ R) : ∃ Λ : ℝ, 0 ≤ Λ ∧
    ∀ q : Coef, q.s = s → q.Bounded R → ∀ t ∈ Icc a e, ∀ h, 0 ≤ h → t + h ≤ e → Short s R K B L ρ η h →
      ∀ x z, P x → P z → ‖x - y t‖ ≤ ρ / 2 → ‖z - y t‖ ≤ ρ / 2 →
        ‖stepG q adv g t x h - stepG q adv g t z h‖ ≤ (1 + h * Λ) * ‖x - z‖ := by
  obtain ⟨M, hM, key⟩ := stage_lipG S C s hR s
  have hK := S.hK
  have hT := top_nonneg C
  refine ⟨K * (s * R * top B L ρ) + K * (s * R * M), by positivity, ?_⟩
  intro q hqs hq t ht h h0 hte H x z hPx hPz hx hz
  subst hqs
  have inc : ∀ w, P w → ‖w - y t‖ ≤ ρ / 2 → ‖h • incrG q adv g t w h‖ ≤ h * (q.s * R * top B L ρ) := by
    intro w hPw hw
    rw [norm_smul, Real.norm_eq_abs, abs_of_nonneg h0]
    exact mul_le_mul_of_nonneg_left (sum_le_card (u := stageG q adv g t w h) (w := q.b) le_rfl hR hT hq.b
      (fun j hj => (insideG S C q hR hq ht h0 hte H hPw hw j hj.le).2.2)) h0
  have hdiff : ‖h • incrG q adv g t x h - h • incrG q adv g t z h‖ ≤ h * (q.s * R * (M * ‖x - z‖)) := by
    have e1 : h • incrG q adv g t x h - h • incrG q adv g t z h =
        h • ∑ j ∈ Finset.range q.s, q.b j • (stageG q adv g t x h j - stageG q adv g t z h j) := by
      unfold incrG
      simp only [smul_sub, Finset.sum_sub_distrib]
    rw [e1, norm_smul, Real.norm_eq_abs, abs_of_nonneg h0]
    exact mul_le_mul_of_nonneg_left (sum_le_card (u := fun j => stageG q adv g t x h j - stageG q adv g t z h j) (w := q.b) le_rfl hR
        (K := M * ‖x - z‖) (by positivity) hq.b (fun j hj => key q rfl hq t ht h h0 hte H x z hPx hPz hx hz j hj hj.le)) h0
  have i1 := inc x hPx hx
  have i2 := inc z hPz hz
  have h1 := S.near x z _ _ hPx hPz (i1.trans H.change) (i2.trans H.change)
  unfold stepG
  refine h1.trans ?_
  have h2 := mul_le_mul_of_nonneg_right (mul_le_mul_of_nonneg_left i1 hK) (norm_nonneg (x - z))
  have h3 := mul_le_mul_of_nonneg_left hdiff hK
  linarith

/-- From the motion itself: the derivatives at the stages are those of the motion, up to first order. -/
theorem stage_first (S : Chart adv P η K) (C : Course adv P g y a e L ρ B Γ) (q : Coef) (hR : 0 ≤ R) (hq : q.Bounded R) {t h : ℝ} (ht : t ∈ Icc a e)
    (h0 : 0 ≤ h) (hte : t + h ≤ e) (H : Short q.s R K B L ρ η h) (i : ℕ) (hi : i ≤ q.s) :
    ‖stageG q adv g t (y t) h i - g t (y t)‖ ≤ h * (L * (K * (q.s * R * top B L ρ) + B) + Γ) := by
  have hti := time_in ht h0 hte (hq.c i)
  have hρ := C.hρ
  obtain ⟨-, a2, -⟩ := insideG S C q hR hq ht h0 hte H (C.good t ht) (by simpa using (half_pos hρ).le) i hi
  rw [sub_self, norm_zero, zero_add] at a2
  have h1 := C.lip _ hti _ _ (S.keep _ (changeG q adv g t (y t) h i) (C.good t ht)) (C.good _ hti) (a2.trans (by linarith [H.tube])) (by simpa using hρ.le)
  have h2 := C.along _ hti _ ht
  have h3 := mul_le_mul_of_nonneg_left (time_near (t := t) h0 (hq.c i)) C.hΓ
  have h4 := mul_le_mul_of_nonneg_left a2 C.hL
  rw [stage_change]
  have e1 := norm_sub_le_norm_sub_add_norm_sub (g (t + h * q.c i) (adv (y t) (changeG q adv g t (y t) h i))) (g (t + h * q.c i) (y (t + h * q.c i))) (g t (y t))
  linarith

/-- From the motion itself: the states at the stages are those of the motion, up to second order, if the rows of the method add up to its
nodes within `δ`. -/
theorem stage_second (S : Chart adv P η K) (C : Course adv P g y a e L ρ B Γ) (q : Coef) (hR : 0 ≤ R) (hq : q.Bounded R) {t h δ : ℝ}
    (ht : t ∈ Icc a e) (h0 : 0 ≤ h) (hte : t + h ≤ e) (H : Short q.s R K B L ρ η h) (hhB : h * B ≤ η) (i : ℕ) (hi : i ≤ q.s)
    (hrow : |∑ j ∈ Finset.range i, q.A i j - q.c i| ≤ δ) :
    ‖stageG q adv g t (y t) h i - g (t + h * q.c i) (y (t + h * q.c i))‖ ≤
      L * (K * (q.s * R * (L * (K * (q.s * R * top B L ρ) + B) + Γ)) * h ^ 2 + K * B * (h * δ) + Γ * h ^ 2) := by
  have hti := time_in ht h0 hte (hq.c i)
  have hρ := C.hρ
  have hK := S.hK
  have hT := top_nonneg C
  have hL := C.hL
  have hB := C.hB
  have hΓ := C.hΓ
  obtain ⟨a1, a2, -⟩ := insideG S C q hR hq ht h0 hte H (C.good t ht) (by simpa using (half_pos hρ).le) i hi
  rw [sub_self, norm_zero, zero_add] at a2
  have h1 := C.lip _ hti _ _ (S.keep _ (changeG q adv g t (y t) h i) (C.good t ht)) (C.good _ hti) (a2.trans (by linarith [H.tube])) (by simpa using hρ.le)
  rw [stage_change]
  refine h1.trans (mul_le_mul_of_nonneg_left ?_ hL)
  have hci := hq.c i
  have hhc : h * q.c i ≤ h := by have := mul_le_mul_of_nonneg_left hci.2 h0; linarith
  have hhc0 : 0 ≤ h * q.c i := mul_nonneg h0 hci.1
  have t1 := C.tangent t ht (h * q.c i) hhc0 (hhc.trans H.rad) hti.2
  have t2 : Γ * (h * q.c i) ^ 2 ≤ Γ * h ^ 2 := mul_le_mul_of_nonneg_left (pow_le_pow_left₀ hhc0 hhc 2) hΓ
  have b1 : ‖(h * q.c i) • g t (y t)‖ ≤ η := by
    rw [norm_smul, Real.norm_eq_abs, abs_of_nonneg hhc0]
    exact (mul_le_mul hhc (C.bound t ht) (norm_nonneg _) h0).trans hhB
  have n1 := S.near (y t) (y t) (changeG q adv g t (y t) h i) ((h * q.c i) • g t (y t)) (C.good t ht) (C.good t ht) (a1.trans H.change) b1
  rw [sub_self, norm_zero, mul_zero, zero_add] at n1
  have e1 : changeG q adv g t (y t) h i - (h * q.c i) • g t (y t) =
      h • ∑ j ∈ Finset.range i, q.A i j • (stageG q adv g t (y t) h j - g t (y t)) +
        (h * (∑ j ∈ Finset.range i, q.A i j - q.c i)) • g t (y t) := by
    unfold changeG
    simp only [smul_sub, Finset.sum_sub_distrib, ← Finset.sum_smul, mul_sub, sub_smul, mul_smul]
    abel
  set F := L * (K * (q.s * R * top B L ρ) + B) + Γ with hF
  have hF0 : 0 ≤ F := by positivity
  have s1 := sum_le_card (u := fun j => stageG q adv g t (y t) h j - g t (y t)) (w := q.A i) hi hR (K := h * F) (by positivity) (hq.A i)
    (fun j hj => stage_first S C q hR hq ht h0 hte H j (by omega))
  have d1 : ‖changeG q adv g t (y t) h i - (h * q.c i) • g t (y t)‖ ≤ q.s * R * F * h ^ 2 + B * (h * δ) := by
    rw [e1]
    refine (norm_add_le _ _).trans (add_le_add ?_ ?_)
    · rw [norm_smul, Real.norm_eq_abs, abs_of_nonneg h0]
      refine (mul_le_mul_of_nonneg_left s1 h0).trans (le_of_eq (by ring))
    · rw [norm_smul, Real.norm_eq_abs, abs_mul, abs_of_nonneg h0]
      have : h * |∑ j ∈ Finset.range i, q.A i j - q.c i| ≤ h * δ := mul_le_mul_of_nonneg_left hrow h0
      rw [mul_comm B]
      exact mul_le_mul this (C.bound t ht) (norm_nonneg _) ((mul_nonneg h0 (abs_nonneg _)).trans this)
  have d2 := mul_le_mul_of_nonneg_left d1 hK
  have e2 := norm_sub_le_norm_sub_add_norm_sub (adv (y t) (changeG q adv g t (y t) h i)) (adv (y t) ((h * q.c i) • g t (y t))) (y (t + h * q.c i))
  rw [norm_sub_rev (adv (y t) ((h * q.c i) • g t (y t)))] at e2
  linarith

end method

end Mapleaf.Motion.Turn
