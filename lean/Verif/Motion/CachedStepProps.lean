import Verif.Motion.LimitMotionProps
import Verif.Motion.LimitFirstProps
import Verif.Motion.LimitCodeProps

/-! # C103: Runge-Kutta steps that reuse the last derivative of the step before

The adaptive methods with the "first same as last" property start a step with a derivative computed at the end of the step before, at a point that is
close to, but because of the replaced zeros not equal to, the state reached. -/

namespace Mapleaf.Motion.Lim
open Set Mapleaf.Motion.RK

section cached
variable {E : Type} [NormedAddCommGroup E] [NormedSpace ℝ E]

/-- the derivatives at the stages of a step whose first derivative is given -/
noncomputable def stageK (q : Coef) (f : ℝ → E → E) (t : ℝ) (x : E) (h : ℝ) (k : E) (i : ℕ) : E :=
  if i = 0 then k else f (t + h * q.c i) (x + h • ∑ j : Fin i, q.A i j • stageK q f t x h k j)
termination_by i
decreasing_by exact j.2

/-- the states at the stages -/
noncomputable def pointK (q : Coef) (f : ℝ → E → E) (t : ℝ) (x : E) (h : ℝ) (k : E) (i : ℕ) : E :=
  x + h • ∑ j ∈ Finset.range i, q.A i j • stageK q f t x h k j

theorem stageK_zero (q : Coef) (f : ℝ → E → E) (t : ℝ) (x : E) (h : ℝ) (k : E) : stageK q f t x h k 0 = k := by rw [stageK, if_pos rfl]

theorem stageK_point (q : Coef) (f : ℝ → E → E) (t : ℝ) (x : E) (h : ℝ) (k : E) (i : ℕ) (hi : i ≠ 0) :
    stageK q f t x h k i = f (t + h * q.c i) (pointK q f t x h k i) := by
  rw [stageK, if_neg hi, pointK, Finset.sum_range]

/-- one step whose first derivative is given -/
noncomputable def rkK (q : Coef) (f : ℝ → E → E) (t : ℝ) (x : E) (h : ℝ) (k : E) : E :=
  x + h • ∑ i ∈ Finset.range q.s, q.b i • stageK q f t x h k i

/-- The stages of the code are those of the method. -/
theorem isStagesK_iff (rows : Tableau ℝ) (b : List ℝ) (hex : Explicit 0 rows) (f : ℝ → E → E) (t : ℝ) (y : E) (h : ℝ) (k : E) (ks : List E)
    (hk : IsStages rows f t y h k ks) : ks = (List.range (rows.length + 1)).map (stageK (coefOf rows b) f t y h k) := by
  refine isStages_unique hex hk ?_
  unfold IsStages
  apply List.ext_getElem
  · simp
  · intro i h1 h2
    have hi : i < rows.length + 1 := by simpa using h1
    rw [List.getElem_map, List.getElem_range]
    cases i with
    | zero => simp [stageK_zero]
    | succ i =>
      rw [stageK_point _ _ _ _ _ _ _ (Nat.succ_ne_zero i)]
      have hi' : i < rows.length := by omega
      have hget : rows[i] = rows.getD i [] := by rw [List.getD_eq_getElem?_getD, List.getElem?_eq_getElem hi']; rfl
      have hlen : rows[i].tail.length = i + 1 := by
        rw [List.length_tail, hget, explicit_row rows 0 i hex hi']
        omega
      rw [List.getElem_cons_succ, List.getElem_map]
      have hw := wsum_range rows[i].tail (stageK (coefOf rows b) f t y h k) (i + 1) (rows.length + 1) (by omega) (by omega)
      rw [hw, hget]
      unfold pointK
      simp only [coefOf, List.getD_cons_succ]

theorem wsum_rkK (rows : Tableau ℝ) (b : List ℝ) (hb : b.length = rows.length + 1) (f : ℝ → E → E) (t : ℝ) (y : E) (h : ℝ) (k : E) :
    y + h • wsum b ((List.range (rows.length + 1)).map (stageK (coefOf rows b) f t y h k)) = rkK (coefOf rows b) f t y h k := by
  rw [wsum_range b _ (rows.length + 1) (rows.length + 1) (by omega) le_rfl]
  rfl

variable {f : ℝ → E → E} {y : ℝ → E} {a e L ρ B R : ℝ}

theorem insideK (H : Tube f y a e L ρ B) (q : Coef) (hR : 0 ≤ R) (hq : q.Bounded R) {t h : ℝ} (ht : t ∈ Icc a e) (h0 : 0 ≤ h) (hte : t + h ≤ e)
    (hsmall : h * (q.s * R * (B + L * ρ) + B) ≤ ρ / 2) {x k : E} (hx : ‖x - y t‖ ≤ ρ / 2) (hk : ‖k‖ ≤ B + L * ρ) (i : ℕ) (hi : i ≤ q.s) :
    ‖pointK q f t x h k i - y (t + h * q.c i)‖ ≤ ρ ∧ ‖stageK q f t x h k i‖ ≤ B + L * ρ := by
  induction i using Nat.strong_induction_on with
  | _ i ih =>
    have hc := hq.c i
    have hti : t + h * q.c i ∈ Icc a e := ⟨by have := mul_nonneg h0 hc.1; linarith [ht.1], by nlinarith [hc.2]⟩
    have hK : 0 ≤ B + L * ρ := add_nonneg H.hB (mul_nonneg H.hL H.hρ.le)
    have hsum := sum_le_card (u := stageK q f t x h k) (w := q.A i) hi hR hK (hq.A i) (fun j hj => (ih j hj (by omega)).2)
    have hp : ‖pointK q f t x h k i - y (t + h * q.c i)‖ ≤ ρ := by
      have e1 : pointK q f t x h k i - y (t + h * q.c i) =
          (x - y t) + h • (∑ j ∈ Finset.range i, q.A i j • stageK q f t x h k j) + (y t - y (t + h * q.c i)) := by unfold pointK; abel
      rw [e1]
      have h1 := H.path t ht _ hti
      have h2 : |t - (t + h * q.c i)| ≤ h := by
        rw [show t - (t + h * q.c i) = -(h * q.c i) by ring, abs_neg, abs_of_nonneg (mul_nonneg h0 hc.1)]
        nlinarith [hc.2]
      have h3 : ‖h • (∑ j ∈ Finset.range i, q.A i j • stageK q f t x h k j)‖ ≤ h * (q.s * R * (B + L * ρ)) := by
        rw [norm_smul, Real.norm_eq_abs, abs_of_nonneg h0]
        exact mul_le_mul_of_nonneg_left hsum h0
      have h4 : B * |t - (t + h * q.c i)| ≤ h * B := by rw [mul_comm h B]; exact mul_le_mul_of_nonneg_left h2 H.hB
      calc _ ≤ ‖x - y t‖ + ‖h • (∑ j ∈ Finset.range i, q.A i j • stageK q f t x h k j)‖ + ‖y t - y (t + h * q.c i)‖ :=
            (norm_add_le _ _).trans (add_le_add (norm_add_le _ _) le_rfl)
        _ ≤ ρ / 2 + h * (q.s * R * (B + L * ρ)) + h * B := add_le_add (add_le_add hx h3) (h1.trans h4)
        _ ≤ ρ := by linarith
    refine ⟨hp, ?_⟩
    by_cases hi0 : i = 0
    · subst hi0; rw [stageK_zero]; exact hk
    rw [stageK_point _ _ _ _ _ _ _ hi0]
    have h5 := H.lip _ hti (pointK q f t x h k i) (y (t + h * q.c i)) hp (by simpa using H.hρ.le)
    calc ‖f (t + h * q.c i) (pointK q f t x h k i)‖ ≤ ‖f (t + h * q.c i) (y (t + h * q.c i))‖ +
          ‖f (t + h * q.c i) (pointK q f t x h k i) - f (t + h * q.c i) (y (t + h * q.c i))‖ := norm_le_norm_add_norm_sub' _ _
      _ ≤ B + L * ρ := add_le_add (H.bound _ hti) (h5.trans (mul_le_mul_of_nonneg_left hp H.hL))

theorem geomK (c : ℝ) (i : ℕ) : c * ∑ j ∈ Finset.range i, (1 + c) ^ j = (1 + c) ^ i - 1 := by
  induction i with
  | zero => simp
  | succ i ih =>
    rw [Finset.sum_range_succ, pow_succ]
    linear_combination ih

/-- An error of the first derivative stays bounded through the stages. -/
theorem stageK_near (H : Tube f y a e L ρ B) (q : Coef) (hR : 0 ≤ R) (hq : q.Bounded R) (hc0 : q.c 0 = 0) {t h : ℝ} (ht : t ∈ Icc a e) (h0 : 0 ≤ h)
    (h1 : h ≤ 1) (hte : t + h ≤ e) (hsmall : h * (q.s * R * (B + L * ρ) + B) ≤ ρ / 2) {x k : E} (hx : ‖x - y t‖ ≤ ρ / 2) (hk : ‖k‖ ≤ B + L * ρ)
    {η : ℝ} (hη : ‖k - f t x‖ ≤ η) (i : ℕ) (hi : i ≤ q.s) : ‖stageK q f t x h k i - stage q f t x h i‖ ≤ (1 + R * L) ^ i * η := by
  have hRL : 0 ≤ R * L := mul_nonneg hR H.hL
  have hη0 : 0 ≤ η := (norm_nonneg _).trans hη
  induction i using Nat.strong_induction_on with
  | _ i ih =>
    by_cases hi0 : i = 0
    · subst hi0
      rw [stageK_zero, stage_point, hc0, mul_zero, add_zero]
      simpa [point] using hη
    have hc := hq.c i
    have hti : t + h * q.c i ∈ Icc a e := ⟨by have := mul_nonneg h0 hc.1; linarith [ht.1], by nlinarith [hc.2]⟩
    rw [stageK_point _ _ _ _ _ _ _ hi0, stage_point]
    refine (H.lip _ hti _ _ (insideK H q hR hq ht h0 hte hsmall hx hk i hi).1 (inside H q hR hq ht h0 hte hsmall hx i hi).1).trans ?_
    have e1 : pointK q f t x h k i - point q f t x h i = h • ∑ j ∈ Finset.range i, q.A i j • (stageK q f t x h k j - stage q f t x h j) := by
      unfold pointK point
      simp only [smul_sub, Finset.sum_sub_distrib]
      abel
    have e2 : ‖∑ j ∈ Finset.range i, q.A i j • (stageK q f t x h k j - stage q f t x h j)‖ ≤ R * (∑ j ∈ Finset.range i, (1 + R * L) ^ j) * η := by
      refine (norm_sum_le _ _).trans ?_
      rw [Finset.mul_sum, Finset.sum_mul]
      apply Finset.sum_le_sum
      intro j hj
      rw [norm_smul, Real.norm_eq_abs, mul_assoc R]
      exact mul_le_mul (hq.A i j) (ih j (Finset.mem_range.1 hj) (by have := Finset.mem_range.1 hj; omega)) (norm_nonneg _) hR
    rw [e1, norm_smul, Real.norm_eq_abs, abs_of_nonneg h0]
    have g := geomK (R * L) i
    calc L * (h * ‖∑ j ∈ Finset.range i, q.A i j • (stageK q f t x h k j - stage q f t x h j)‖)
        ≤ L * (1 * (R * (∑ j ∈ Finset.range i, (1 + R * L) ^ j) * η)) :=
          mul_le_mul_of_nonneg_left (mul_le_mul h1 e2 (norm_nonneg _) zero_le_one) H.hL
      _ = ((1 + R * L) ^ i - 1) * η := by rw [← g]; ring
      _ ≤ (1 + R * L) ^ i * η := mul_le_mul_of_nonneg_right (by linarith) hη0

/-- how much an error of the first derivative changes a step -/
def gain (s : ℕ) (R L : ℝ) : ℝ := s * R * (1 + R * L) ^ s

theorem rkK_near (H : Tube f y a e L ρ B) (q : Coef) (hR : 0 ≤ R) (hq : q.Bounded R) (hc0 : q.c 0 = 0) {t h : ℝ} (ht : t ∈ Icc a e) (h0 : 0 ≤ h)
    (h1 : h ≤ 1) (hte : t + h ≤ e) (hsmall : h * (q.s * R * (B + L * ρ) + B) ≤ ρ / 2) {x k : E} (hx : ‖x - y t‖ ≤ ρ / 2) (hk : ‖k‖ ≤ B + L * ρ)
    {η : ℝ} (hη : ‖k - f t x‖ ≤ η) : ‖rkK q f t x h k - rk q f t x h‖ ≤ h * (gain q.s R L * η) := by
  have hRL : 0 ≤ R * L := mul_nonneg hR H.hL
  have hη0 : 0 ≤ η := (norm_nonneg _).trans hη
  have e1 : rkK q f t x h k - rk q f t x h = h • ∑ i ∈ Finset.range q.s, q.b i • (stageK q f t x h k i - stage q f t x h i) := by
    unfold rkK rk incr
    simp only [smul_sub, Finset.sum_sub_distrib]
    abel
  have e2 := sum_le_card (u := fun i => stageK q f t x h k i - stage q f t x h i) (w := q.b) (le_refl q.s) hR
    (K := (1 + R * L) ^ q.s * η) (by positivity) hq.b (fun i hi => by
      refine (stageK_near H q hR hq hc0 ht h0 h1 hte hsmall hx hk hη i hi.le).trans ?_
      exact mul_le_mul_of_nonneg_right (pow_le_pow_right₀ (by linarith) hi.le) hη0)
  rw [e1, norm_smul, Real.norm_eq_abs, abs_of_nonneg h0]
  refine (mul_le_mul_of_nonneg_left e2 h0).trans (le_of_eq ?_)
  unfold gain
  ring

/-- the state after steps of the given sizes, each starting with the last derivative of the one before when `fsal` -/
noncomputable def marchK (q : Coef) (f : ℝ → E → E) (fsal : Bool) : ℝ → E → Option E → List ℝ → E
  | _, x, _, [] => x
  | t, x, c, h :: hs =>
    let k := c.getD (f t x)
    marchK q f fsal (t + h) (rkK q f t x h k) (if fsal then some (stageK q f t x h k (q.s - 1)) else c) hs

/-- The last stage of a step is, up to `ε`, at the state it ends with. -/
structure Coef.Fsal (q : Coef) (ε : ℝ) : Prop where
  two : 2 ≤ q.s
  last : q.c (q.s - 1) = 1
  row : ∀ i < q.s - 1, q.b i = q.A (q.s - 1) i
  weight : |q.b (q.s - 1)| ≤ ε

/-- What is known of the derivative kept: it was computed within `μ` of the present state. -/
def KeptNear (f : ℝ → E → E) (μ t : ℝ) (x : E) : Option E → Prop
  | none => True
  | some k => ∃ p, k = f t p ∧ ‖p - x‖ ≤ μ

set_option maxHeartbeats 1000000 in
theorem marchK_error (H : Tube f y a e L ρ B) (q : Coef) (hR : 0 ≤ R) (hq : q.Bounded R) (hc0 : q.c 0 = 0) (fsal : Bool) {ε : ℝ} (hε : 0 ≤ ε)
    (hf : fsal = true → q.Fsal ε) (h₀ τ μ : ℝ) (h1 : h₀ ≤ 1) (hτ : 0 ≤ τ) (hsmall : h₀ * (q.s * R * (B + L * ρ) + B) ≤ ρ / 2) (hμ : μ ≤ ρ / 2) (hμ0 : 0 ≤ μ)
    (hμε : h₀ * ε * (B + L * ρ) ≤ μ)
    (cons : ∀ t ∈ Icc a e, ∀ h ∈ Ioc 0 h₀, t + h ≤ e → ‖rk q f t (y t) h - y (t + h)‖ ≤ h * τ)
    (hs : List ℝ) (hh : ∀ h ∈ hs, h ∈ Ioc 0 h₀) (t : ℝ) (ht : a ≤ t) (he : t + hs.sum ≤ e) (x : E) (c : Option E) (hc : KeptNear f μ t x c) (hcn : fsal = false → c = none)
    (d : ℝ) (hd : ‖x - y t‖ ≤ d) (small : (d + (τ + gain q.s R L * (L * μ)) * hs.sum) * Real.exp (lam q.s R L * hs.sum) ≤ ρ / 2) :
    ‖marchK q f fsal t x c hs - y (t + hs.sum)‖ ≤ (d + (τ + gain q.s R L * (L * μ)) * hs.sum) * Real.exp (lam q.s R L * hs.sum) := by
  have hL := H.hL
  have hB := H.hB
  have hρ := H.hρ
  have hK : 0 ≤ B + L * ρ := by positivity
  have hKb : 0 ≤ q.s * R * (B + L * ρ) + B := by positivity
  have hΛ := lam_nonneg q.s hR H.hL
  have hG : 0 ≤ gain q.s R L := by unfold gain; positivity
  set Λ := lam q.s R L with hΛd
  set τ' := τ + gain q.s R L * (L * μ) with hτ'
  have hτ0 : 0 ≤ τ' := by positivity
  induction hs generalizing t x c d with
  | nil => simpa [marchK] using hd
  | cons h hs ih =>
    have hpos : h ∈ Ioc 0 h₀ := hh h (by simp)
    have hsum : 0 ≤ hs.sum := List.sum_nonneg fun z hz => (hh z (by simp [hz])).1.le
    rw [List.sum_cons] at he small ⊢
    have hd0 : 0 ≤ d := (norm_nonneg _).trans hd
    have ht' : t ∈ Icc a e := ⟨ht, by linarith [hpos.1]⟩
    have hte : t + h ≤ e := by linarith
    have hexp : 1 ≤ Real.exp (Λ * (h + hs.sum)) := Real.one_le_exp (mul_nonneg hΛ (by linarith [hpos.1]))
    have hnn : 0 ≤ d + τ' * (h + hs.sum) := add_nonneg hd0 (mul_nonneg hτ0 (by linarith [hpos.1]))
    have hdr : ‖x - y t‖ ≤ ρ / 2 := by
      have : d ≤ d + τ' * (h + hs.sum) := by linarith [mul_nonneg hτ0 (by linarith [hpos.1] : 0 ≤ h + hs.sum)]
      nlinarith
    have hle1 : h ≤ 1 := hpos.2.trans h1
    have hhK : h * (q.s * R * (B + L * ρ) + B) ≤ ρ / 2 := (mul_le_mul_of_nonneg_right hpos.2 hKb).trans hsmall
    -- the first derivative
    obtain ⟨p, hp1, hp2⟩ : ∃ p, c.getD (f t x) = f t p ∧ ‖p - x‖ ≤ μ := by
      cases c with
      | none => exact ⟨x, rfl, by simpa using hμ0⟩
      | some k => exact hc
    have hpy : ‖p - y t‖ ≤ ρ := by
      calc ‖p - y t‖ ≤ ‖p - x‖ + ‖x - y t‖ := norm_sub_le_norm_sub_add_norm_sub _ _ _
        _ ≤ ρ := by linarith
    have hxy : ‖x - y t‖ ≤ ρ := by linarith
    set k := c.getD (f t x) with hk
    have hk1 : ‖k‖ ≤ B + L * ρ := by
      rw [hp1]
      have h5 := H.lip _ ht' p (y t) hpy (by simpa using hρ.le)
      calc ‖f t p‖ ≤ ‖f t (y t)‖ + ‖f t p - f t (y t)‖ := norm_le_norm_add_norm_sub' _ _
        _ ≤ B + L * ρ := add_le_add (H.bound _ ht') (h5.trans (mul_le_mul_of_nonneg_left hpy hL))
    have hk2 : ‖k - f t x‖ ≤ L * μ := by
      rw [hp1]
      exact (H.lip _ ht' p x hpy hxy).trans (mul_le_mul_of_nonneg_left hp2 hL)
    have e0 := rkK_near H q hR hq hc0 ht' hpos.1.le hle1 hte hhK hdr hk1 hk2
    have e00 := rk_lip H q hR hq ht' hpos.1.le hle1 hte hhK hdr (z := y t) (by simpa using (half_pos hρ).le)
    have e1 : ‖rkK q f t x h k - y (t + h)‖ ≤ Real.exp (h * Λ) * (d + h * τ') := by
      calc ‖rkK q f t x h k - y (t + h)‖ ≤ ‖rkK q f t x h k - rk q f t x h‖ + ‖rk q f t x h - y (t + h)‖ := norm_sub_le_norm_sub_add_norm_sub _ _ _
        _ ≤ ‖rkK q f t x h k - rk q f t x h‖ + (‖rk q f t x h - rk q f t (y t) h‖ + ‖rk q f t (y t) h - y (t + h)‖) :=
            add_le_add le_rfl (norm_sub_le_norm_sub_add_norm_sub _ _ _)
        _ ≤ h * (gain q.s R L * (L * μ)) + ((1 + h * Λ) * d + h * τ) := add_le_add e0 (add_le_add (e00.trans
            (mul_le_mul_of_nonneg_left hd (by have := mul_nonneg hpos.1.le hΛ; linarith))) (cons t ht' h hpos hte))
        _ = (1 + h * Λ) * d + h * τ' := by rw [hτ']; ring
        _ ≤ Real.exp (h * Λ) * (d + h * τ') := by
          have h1 : 1 + h * Λ ≤ Real.exp (h * Λ) := by linarith [Real.add_one_le_exp (h * Λ)]
          have h2 : 1 ≤ Real.exp (h * Λ) := Real.one_le_exp (mul_nonneg hpos.1.le hΛ)
          have h3 : 0 ≤ h * τ' := mul_nonneg hpos.1.le hτ0
          nlinarith
    have key : (Real.exp (h * Λ) * (d + h * τ') + τ' * hs.sum) * Real.exp (Λ * hs.sum) ≤
        (d + τ' * (h + hs.sum)) * Real.exp (Λ * (h + hs.sum)) := by
      have h2 : 1 ≤ Real.exp (h * Λ) := Real.one_le_exp (mul_nonneg hpos.1.le hΛ)
      have h3 : 0 ≤ τ' * hs.sum := mul_nonneg hτ0 hsum
      rw [show Λ * (h + hs.sum) = h * Λ + Λ * hs.sum by ring, Real.exp_add, ← mul_assoc]
      apply mul_le_mul_of_nonneg_right _ (Real.exp_pos _).le
      nlinarith
    -- what is kept for the next step
    have hnext : KeptNear f μ (t + h) (rkK q f t x h k) (if fsal then some (stageK q f t x h k (q.s - 1)) else c) := by
      cases fsal with
      | false => rw [if_neg (by decide), hcn rfl]; trivial
      | true =>
        obtain ⟨f1, f2, f3, f4⟩ := hf rfl
        rw [if_pos rfl]
        refine ⟨pointK q f t x h k (q.s - 1), ?_, ?_⟩
        · rw [stageK_point _ _ _ _ _ _ _ (by omega), f2, mul_one]
        · have e2 : pointK q f t x h k (q.s - 1) - rkK q f t x h k = -(h • q.b (q.s - 1) • stageK q f t x h k (q.s - 1)) := by
            unfold pointK rkK
            have hs1 : q.s = (q.s - 1) + 1 := by omega
            have : ∑ i ∈ Finset.range q.s, q.b i • stageK q f t x h k i =
                ∑ j ∈ Finset.range (q.s - 1), q.A (q.s - 1) j • stageK q f t x h k j + q.b (q.s - 1) • stageK q f t x h k (q.s - 1) := by
              conv_lhs => rw [hs1, Finset.sum_range_succ]
              congr 1
              exact Finset.sum_congr rfl fun j hj => by rw [f3 j (Finset.mem_range.1 hj)]
            rw [this, smul_add]
            abel
          rw [e2, norm_neg, norm_smul, norm_smul, Real.norm_eq_abs, Real.norm_eq_abs, abs_of_nonneg hpos.1.le]
          have hst := (insideK H q hR hq ht' hpos.1.le hte hhK hdr hk1 (q.s - 1) (by omega)).2
          calc h * (|q.b (q.s - 1)| * ‖stageK q f t x h k (q.s - 1)‖) ≤ h₀ * (ε * (B + L * ρ)) :=
                mul_le_mul hpos.2 (mul_le_mul f4 hst (norm_nonneg _) hε) (mul_nonneg (abs_nonneg _) (norm_nonneg _)) (hpos.1.le.trans hpos.2)
            _ = h₀ * ε * (B + L * ρ) := by ring
            _ ≤ μ := hμε
    have := ih (fun z hz => hh z (by simp [hz])) (t + h) (ht.trans (le_add_of_nonneg_right hpos.1.le)) (by rw [add_assoc]; exact he) (rkK q f t x h k) _ hnext
      (fun hff => by subst hff; rw [if_neg (by decide)]; exact hcn rfl) _ e1 (key.trans small)
    unfold marchK
    rw [add_assoc] at this
    exact this.trans key

end cached

section motion
variable {E : Type} [NormedAddCommGroup E] [NormedSpace ℝ E] {f : ℝ → E → E} {y : ℝ → E} {a e L ρ B R : ℝ} {U : Set (ℝ × E)}

/-- An error of one step of at most `s D (σ + ε)` gives an error of at most `C (σ + ε)` in the end. -/
theorem marchK_tends (H : Tube f y a e L ρ B) (n : ℕ) (hR : 0 ≤ R) {D h₁ : ℝ} (hD0 : 0 ≤ D) (p1 : 0 < h₁) (p2 : h₁ ≤ 1) (fsal : Bool) :
    ∃ C h₀ ε₀ : ℝ, 0 ≤ C ∧ 0 < h₀ ∧ 0 < ε₀ ∧ h₀ ≤ h₁ ∧ h₀ * (n * R * (B + L * ρ) + B) ≤ ρ / 2 ∧
      ∀ ε ∈ Icc 0 ε₀, ∀ q : Coef, q.s = n → q.c 0 = 0 → q.Bounded R → (fsal = true → q.Fsal ε) →
      ∀ h ∈ Ioc 0 h₀, ∀ σ ∈ Icc 0 h, (∀ t ∈ Icc a e, ∀ s ∈ Ioc 0 h, t + s ≤ e → ‖rk q f t (y t) s - y (t + s)‖ ≤ s * (D * (σ + ε))) →
        ∀ hs : List ℝ, (∀ s ∈ hs, s ∈ Ioc 0 h) → a + hs.sum ≤ e → ‖marchK q f fsal a (y a) none hs - y (a + hs.sum)‖ ≤ C * (σ + ε) := by
  have hL := H.hL
  have hB := H.hB
  have hρ := H.hρ
  have hK : 0 ≤ B + L * ρ := by positivity
  have hΛ := lam_nonneg n hR H.hL
  have hG : 0 ≤ gain n R L := by unfold gain; positivity
  set Kb := n * R * (B + L * ρ) + B with hKb
  have hKb0 : 0 ≤ Kb := by positivity
  set D' := D + gain n R L * (L * (B + L * ρ)) with hD'
  have hD0' : 0 ≤ D' := by positivity
  set T := |e - a| with hT
  set X := D' * T * Real.exp (lam n R L * T) with hX
  have hX0 : 0 ≤ X := by positivity
  have hδ : 0 < ρ / (4 * (X + 1)) := by positivity
  have hh₀ : 0 < min h₁ (min (ρ / (2 * (Kb + 1))) (ρ / (4 * (X + 1)))) := lt_min p1 (lt_min (by positivity) hδ)
  refine ⟨X, min h₁ (min (ρ / (2 * (Kb + 1))) (ρ / (4 * (X + 1)))), min (ρ / (4 * (X + 1))) (ρ / (2 * (B + L * ρ + 1))), hX0, hh₀,
    lt_min hδ (by positivity), min_le_left _ _, ?_, ?_⟩
  · have : min h₁ (min (ρ / (2 * (Kb + 1))) (ρ / (4 * (X + 1)))) ≤ ρ / (2 * (Kb + 1)) := (min_le_right _ _).trans (min_le_left _ _)
    rw [le_div_iff₀ (by positivity)] at this
    linarith
  intro ε hε q hs hc0 hq hfs h hh σ hσ cons hs' hsteps hend
  subst hs
  have hle1 : h ≤ 1 := (hh.2.trans (min_le_left _ _)).trans p2
  have hhK : h * Kb ≤ ρ / 2 := by
    have : h ≤ ρ / (2 * (Kb + 1)) := hh.2.trans ((min_le_right _ _).trans (min_le_left _ _))
    rw [le_div_iff₀ (by positivity)] at this
    linarith [hh.1]
  have hhX : h ≤ ρ / (4 * (X + 1)) := hh.2.trans ((min_le_right _ _).trans (min_le_right _ _))
  have hεX : ε ≤ ρ / (4 * (X + 1)) := hε.2.trans (min_le_left _ _)
  have hp0 := hσ.1
  have hε0 := hε.1
  have hh0 := hh.1.le
  have hsum0 : 0 ≤ hs'.sum := List.sum_nonneg fun z hz => (hsteps z hz).1.le
  have hsumT : hs'.sum ≤ T := (by linarith : hs'.sum ≤ e - a).trans (le_abs_self _)
  set τ := D * (σ + ε) with hτ
  have hτ0 : 0 ≤ τ := by positivity
  set μ := h * ε * (B + L * ρ) with hμ
  have hμ0 : 0 ≤ μ := by positivity
  have hμε : μ ≤ ε * (B + L * ρ) := by
    rw [hμ]
    exact mul_le_mul_of_nonneg_right (mul_le_of_le_one_left hε0 hle1) hK
  have hμρ : μ ≤ ρ / 2 := by
    have h2 : ε ≤ ρ / (2 * (B + L * ρ + 1)) := hε.2.trans (min_le_right _ _)
    rw [le_div_iff₀ (by positivity)] at h2
    linarith
  have hτμ : τ + gain q.s R L * (L * μ) ≤ D' * (σ + ε) := by
    have h1 : gain q.s R L * (L * μ) ≤ gain q.s R L * (L * (ε * (B + L * ρ))) :=
      mul_le_mul_of_nonneg_left (mul_le_mul_of_nonneg_left hμε hL) hG
    have h2 : gain q.s R L * (L * (ε * (B + L * ρ))) ≤ gain q.s R L * (L * (B + L * ρ)) * (σ + ε) := by
      have h3 : 0 ≤ gain q.s R L * (L * (B + L * ρ)) * σ := by positivity
      linarith
    rw [hτ, hD', add_mul]
    linarith
  have hτμ0 : 0 ≤ τ + gain q.s R L * (L * μ) := by positivity
  have hfin : (0 + (τ + gain q.s R L * (L * μ)) * hs'.sum) * Real.exp (lam q.s R L * hs'.sum) ≤ X * (σ + ε) := by
    rw [zero_add]
    calc (τ + gain q.s R L * (L * μ)) * hs'.sum * Real.exp (lam q.s R L * hs'.sum) ≤ D' * (σ + ε) * T * Real.exp (lam q.s R L * T) := by gcongr
      _ = X * (σ + ε) := by rw [hX]; ring
  have hsm : X * (σ + ε) ≤ ρ / 2 := by
    have h3 : σ + ε ≤ 2 * (ρ / (4 * (X + 1))) := by linarith [hσ.2]
    have h4 : (X + 1) * (2 * (ρ / (4 * (X + 1)))) = ρ / 2 := by field_simp; norm_num
    have h5 : 0 ≤ 2 * (ρ / (4 * (X + 1))) := by positivity
    calc X * (σ + ε) ≤ X * (2 * (ρ / (4 * (X + 1)))) := mul_le_mul_of_nonneg_left h3 hX0
      _ ≤ (X + 1) * (2 * (ρ / (4 * (X + 1)))) := mul_le_mul_of_nonneg_right (by linarith) h5
      _ = ρ / 2 := h4
  exact (marchK_error H q hR hq hc0 fsal hε0 hfs h τ μ hle1 hτ0 hhK hμρ hμ0 le_rfl cons hs' hsteps a le_rfl hend (y a) none
    trivial (fun _ => rfl) 0 (by simp) (hfin.trans hsm)).trans hfin

/-- **C103, general form.** Let `q` satisfy the order conditions up to `p ≤ 4`. For every motion there are `C`, `h₀` and `ε₀` such that with every
method whose coefficients are within `ε ≤ ε₀` of those of `q`, whether or not it reuses its last derivative, any sequence of steps of at most `h ≤ h₀`
ends within `C (hᵖ + ε)` of the motion. -/
theorem rkK_converges (M : Motion f y a e U) (q : Coef) (hR : 0 ≤ R) (hq : q.Bounded R) (hrows : q.Rows) (hc0 : q.c 0 = 0) (p : ℕ) (hp1 : 1 ≤ p) (hp : p ≤ 4)
    (ho : q.Order p) (fsal : Bool) : ∃ C h₀ ε₀ : ℝ, 0 ≤ C ∧ 0 < h₀ ∧ 0 < ε₀ ∧ ∀ ε ∈ Icc 0 ε₀, ∀ q' : Coef, q'.s = q.s → q'.c = q.c →
      q'.Bounded R → (∀ i j, |q'.A i j - q.A i j| ≤ ε) → (∀ i, |q'.b i - q.b i| ≤ ε) → (fsal = true → q'.Fsal ε) →
      ∀ h ∈ Ioc 0 h₀, ∀ hs : List ℝ, (∀ s ∈ hs, s ∈ Ioc 0 h) → a + hs.sum ≤ e →
        ‖marchK q' f fsal a (y a) none hs - y (a + hs.sum)‖ ≤ C * (h ^ p + ε) := by
  obtain ⟨L, ρ, B, H⟩ := M.tube
  obtain ⟨C₁, h₁, p1, p2, p3, p4⟩ := M.local_error q hrows p hp ho
  have hL := H.hL
  have hB := H.hB
  have hρ := H.hρ
  have hK : 0 ≤ B + L * ρ := by positivity
  have hΛ := lam_nonneg q.s hR H.hL
  have hKb0 : 0 ≤ q.s * R * (B + L * ρ) + B := by positivity
  obtain ⟨C, h₀, ε₀, hC, hh₀, hε₀, hle, hsm, key⟩ := marchK_tends H q.s hR (D := C₁ + q.s * (B + L * ρ) * (lam q.s R L + 1)) (by positivity) p1 p2 fsal
  refine ⟨C, h₀, ε₀, hC, hh₀, hε₀, fun ε hε q' hs hc hq' hA hb hfs h hh hs' hsteps hend => ?_⟩
  have hh1 : h ≤ h₁ := hh.2.trans hle
  have hle1 : h ≤ 1 := hh1.trans p2
  have hpow : h ^ p ≤ h := by
    have := pow_le_pow_of_le_one hh.1.le hle1 hp1
    rwa [pow_one] at this
  have hp0 : 0 ≤ h ^ p := pow_nonneg hh.1.le p
  have hε0 := hε.1
  refine key ε hε q' hs (by rw [hc]; exact hc0) hq' hfs h hh (h ^ p) ⟨hp0, hpow⟩ (fun t ht s hs1 hte => ?_) hs' hsteps hend
  have hsK : s * (q.s * R * (B + L * ρ) + B) ≤ ρ / 2 := (mul_le_mul_of_nonneg_right (hs1.2.trans hh.2) hKb0).trans hsm
  have e1 := rk_perturb H q q' hR hq hq' hs hc ε ε hε.1 hε.1 hA hb ht hs1.1.le (hs1.2.trans hle1) hte hsK
  have e2 := p4 t ht s ⟨hs1.1.le, hs1.2.trans hh1⟩ hte
  have e3 : C₁ * s ^ (p + 1) ≤ s * (C₁ * h ^ p) := by
    rw [pow_succ]
    have := mul_le_mul_of_nonneg_left (pow_le_pow_left₀ hs1.1.le hs1.2 p) (mul_nonneg p3 hs1.1.le)
    linarith
  have e4 : q.s * (B + L * ρ) * (lam q.s R L * (s * ε) + ε) ≤ q.s * (B + L * ρ) * (lam q.s R L + 1) * (h ^ p + ε) := by
    rw [mul_assoc _ (lam q.s R L + 1)]
    apply mul_le_mul_of_nonneg_left _ (by positivity)
    have h5 : s * ε ≤ ε := mul_le_of_le_one_left hε0 (hs1.2.trans hle1)
    have h6 := mul_le_mul_of_nonneg_left h5 hΛ
    have h8 := mul_nonneg hΛ hp0
    nlinarith
  calc ‖rk q' f t (y t) s - y (t + s)‖ ≤ ‖rk q' f t (y t) s - rk q f t (y t) s‖ + ‖rk q f t (y t) s - y (t + s)‖ :=
        norm_sub_le_norm_sub_add_norm_sub _ _ _
    _ ≤ s * (q.s * (B + L * ρ) * (lam q.s R L * (s * ε) + ε)) + s * (C₁ * h ^ p) := add_le_add e1 (e2.trans e3)
    _ ≤ s * (q.s * (B + L * ρ) * (lam q.s R L + 1) * (h ^ p + ε)) + s * (C₁ * (h ^ p + ε)) := by
        refine add_le_add (mul_le_mul_of_nonneg_left e4 hs1.1.le) (mul_le_mul_of_nonneg_left (mul_le_mul_of_nonneg_left ?_ p3) hs1.1.le)
        linarith
    _ = s * ((C₁ + q.s * (B + L * ρ) * (lam q.s R L + 1)) * (h ^ p + ε)) := by ring

/-- **C103, first order.** The same with a right-hand side that is only Lipschitz, for methods with `n` stages whose weights add up to 1 within `n ε`. -/
theorem rkK_first_order {Γ : ℝ} (M : Rough f y a e L ρ B Γ) (n : ℕ) (hR : 0 ≤ R) (fsal : Bool) : ∃ C h₀ ε₀ : ℝ, 0 ≤ C ∧ 0 < h₀ ∧ 0 < ε₀ ∧
    ∀ ε ∈ Icc 0 ε₀, ∀ q : Coef, q.s = n → q.c 0 = 0 → q.Bounded R → |∑ i ∈ Finset.range q.s, q.b i - 1| ≤ n * ε → (fsal = true → q.Fsal ε) →
      ∀ h ∈ Ioc 0 h₀, ∀ hs : List ℝ, (∀ s ∈ hs, s ∈ Ioc 0 h) → a + hs.sum ≤ e →
        ‖marchK q f fsal a (y a) none hs - y (a + hs.sum)‖ ≤ C * (h + ε) := by
  have H := M.tube
  have hL := M.hL
  have hB := M.hB
  have hρ := M.hρ
  have hΓ := M.hΓ
  have hKb0 : 0 ≤ n * R * (B + L * ρ) + B := by positivity
  obtain ⟨C, h₀, ε₀, hC, hh₀, hε₀, hle, hsm, key⟩ := marchK_tends H n hR
    (D := n * R * (L * (n * R * (B + L * ρ) + B) + Γ) + Γ + n * B) (by positivity) one_pos le_rfl fsal
  refine ⟨C, h₀, ε₀, hC, hh₀, hε₀, fun ε hε q hs hc0 hq hsum hfs h hh hs' hsteps hend => ?_⟩
  subst hs
  have hε0 := hε.1
  have hh0 := hh.1.le
  refine key ε hε q rfl hc0 hq hfs h hh h ⟨hh.1.le, le_rfl⟩ (fun t ht s hs1 hte => ?_) hs' hsteps hend
  have hsK : s * (q.s * R * (B + L * ρ) + B) ≤ ρ / 2 := (mul_le_mul_of_nonneg_right (hs1.2.trans hh.2) hKb0).trans hsm
  refine (M.local_error q hR hq ht hs1.1.le hte hsK hsum).trans (mul_le_mul_of_nonneg_left ?_ hs1.1.le)
  set Z := q.s * R * (L * (q.s * R * (B + L * ρ) + B) + Γ) + Γ with hZ
  have hZ0 : 0 ≤ Z := by positivity
  have h1 : s * Z ≤ h * Z := mul_le_mul_of_nonneg_right hs1.2 hZ0
  have h2 : 0 ≤ ε * Z := mul_nonneg hε0 hZ0
  have h3 : 0 ≤ h * (q.s * B) := by positivity
  linarith

end motion
end Mapleaf.Motion.Lim
