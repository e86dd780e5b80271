import Verif.Motion.LimitStageProps

/-! # C93: convergence of Runge-Kutta methods to the motion -/

set_option maxSynthPendingDepth 3

namespace Mapleaf.Motion.Lim
open Set

section motion
variable {E : Type} [NormedAddCommGroup E] [NormedSpace ℝ E] {f : ℝ → E → E} {y : ℝ → E} {a e L ρ B R : ℝ}

/-! ## Small changes of the coefficients -/

theorem stage_perturb (H : Tube f y a e L ρ B) (q q' : Coef) (hR : 0 ≤ R) (hq : q.Bounded R) (hq' : q'.Bounded R) (hs : q'.s = q.s) (hc : q'.c = q.c)
    (ε : ℝ) (hε : 0 ≤ ε) (hA : ∀ i j, |q'.A i j - q.A i j| ≤ ε) {t h : ℝ} (ht : t ∈ Icc a e) (h0 : 0 ≤ h) (h1 : h ≤ 1)
    (hte : t + h ≤ e) (hsmall : h * (q.s * R * (B + L * ρ) + B) ≤ ρ / 2) (i : ℕ) (hi : i ≤ q.s) :
    ‖stage q' f t (y t) h i - stage q f t (y t) h i‖ ≤ h * ε * (q.s * (B + L * ρ)) * (L * (1 + R * L) ^ i) := by
  have hx : ‖y t - y t‖ ≤ ρ / 2 := by simpa using (half_pos H.hρ).le
  have hK : 0 ≤ B + L * ρ := add_nonneg H.hB (mul_nonneg H.hL H.hρ.le)
  induction i using Nat.strong_induction_on with
  | _ i ih =>
    have hci := hq.c i
    have hti : t + h * q.c i ∈ Icc a e := ⟨by have := mul_nonneg h0 hci.1; linarith [ht.1], by nlinarith [hci.2]⟩
    have in1 := inside H q hR hq ht h0 hte hsmall hx
    have in2 := inside H q' hR hq' ht h0 hte (by rw [hs]; exact hsmall) hx
    rw [hs, hc] at in2
    rw [stage_point, stage_point, hc]
    refine (H.lip _ hti _ _ (in2 i hi).1 (in1 i hi).1).trans ?_
    have e1 : point q' f t (y t) h i - point q f t (y t) h i =
        h • (∑ j ∈ Finset.range i, q'.A i j • (stage q' f t (y t) h j - stage q f t (y t) h j) +
          ∑ j ∈ Finset.range i, (q'.A i j - q.A i j) • stage q f t (y t) h j) := by
      unfold point
      rw [← Finset.sum_add_distrib, add_sub_add_left_eq_sub, ← smul_sub, ← Finset.sum_sub_distrib]
      congr 1
      exact Finset.sum_congr rfl fun j _ => by rw [smul_sub, sub_smul]; abel
    have e2 : ‖∑ j ∈ Finset.range i, q'.A i j • (stage q' f t (y t) h j - stage q f t (y t) h j)‖ ≤
        h * ε * (q.s * (B + L * ρ)) * (R * ∑ j ∈ Finset.range i, L * (1 + R * L) ^ j) := by
      refine (norm_sum_le _ _).trans ?_
      rw [Finset.mul_sum, Finset.mul_sum]
      apply Finset.sum_le_sum
      intro j hj
      have hj' := Finset.mem_range.1 hj
      rw [norm_smul, Real.norm_eq_abs]
      refine (mul_le_mul (hq'.A i j) (ih j hj' (by omega)) (norm_nonneg _) hR).trans (le_of_eq (by ring))
    have e3 : ‖∑ j ∈ Finset.range i, (q'.A i j - q.A i j) • stage q f t (y t) h j‖ ≤ q.s * ε * (B + L * ρ) :=
      sum_le_card hi hε hK (hA i) (fun j hj => (in1 j (by omega)).2)
    rw [e1, ← geom, norm_smul, Real.norm_eq_abs, abs_of_nonneg h0]
    have e4 := (norm_add_le _ _).trans (add_le_add e2 e3)
    have hsum : 0 ≤ R * ∑ j ∈ Finset.range i, L * (1 + R * L) ^ j := by
      have hL := H.hL
      exact mul_nonneg hR (Finset.sum_nonneg fun j _ => by positivity)
    calc L * (h * _) ≤ L * (h * (h * ε * (q.s * (B + L * ρ)) * (R * ∑ j ∈ Finset.range i, L * (1 + R * L) ^ j) + q.s * ε * (B + L * ρ))) :=
          mul_le_mul_of_nonneg_left (mul_le_mul_of_nonneg_left e4 h0) H.hL
      _ ≤ L * (h * (1 * ε * (q.s * (B + L * ρ)) * (R * ∑ j ∈ Finset.range i, L * (1 + R * L) ^ j) + q.s * ε * (B + L * ρ))) := by
          have hL := H.hL
          gcongr
      _ = h * ε * (q.s * (B + L * ρ)) * (L * (1 + R * ∑ j ∈ Finset.range i, L * (1 + R * L) ^ j)) := by ring

theorem rk_perturb (H : Tube f y a e L ρ B) (q q' : Coef) (hR : 0 ≤ R) (hq : q.Bounded R) (hq' : q'.Bounded R) (hs : q'.s = q.s) (hc : q'.c = q.c)
    (ε δ : ℝ) (hε : 0 ≤ ε) (hδ : 0 ≤ δ) (hA : ∀ i j, |q'.A i j - q.A i j| ≤ ε) (hb : ∀ i, |q'.b i - q.b i| ≤ δ) {t h : ℝ} (ht : t ∈ Icc a e)
    (h0 : 0 ≤ h) (h1 : h ≤ 1) (hte : t + h ≤ e) (hsmall : h * (q.s * R * (B + L * ρ) + B) ≤ ρ / 2) :
    ‖rk q' f t (y t) h - rk q f t (y t) h‖ ≤ h * (q.s * (B + L * ρ) * (lam q.s R L * (h * ε) + δ)) := by
  have hx : ‖y t - y t‖ ≤ ρ / 2 := by simpa using (half_pos H.hρ).le
  have hK : 0 ≤ B + L * ρ := add_nonneg H.hB (mul_nonneg H.hL H.hρ.le)
  have in1 := inside H q hR hq ht h0 hte hsmall hx
  have e1 : rk q' f t (y t) h - rk q f t (y t) h =
      h • (∑ i ∈ Finset.range q.s, q'.b i • (stage q' f t (y t) h i - stage q f t (y t) h i) +
        ∑ i ∈ Finset.range q.s, (q'.b i - q.b i) • stage q f t (y t) h i) := by
    unfold rk incr
    rw [hs, ← Finset.sum_add_distrib, add_sub_add_left_eq_sub, ← smul_sub, ← Finset.sum_sub_distrib]
    congr 1
    exact Finset.sum_congr rfl fun j _ => by rw [smul_sub, sub_smul]; abel
  have hRL : 0 ≤ R * L := mul_nonneg hR H.hL
  have hL := H.hL
  have e2 := sum_le_card (u := fun i => stage q' f t (y t) h i - stage q f t (y t) h i) (w := q'.b) (le_refl q.s) hR
    (K := h * ε * (q.s * (B + L * ρ)) * (L * (1 + R * L) ^ q.s)) (by positivity) hq'.b (fun i hi => by
      refine (stage_perturb H q q' hR hq hq' hs hc ε hε hA ht h0 h1 hte hsmall i hi.le).trans ?_
      apply mul_le_mul_of_nonneg_left _ (by positivity)
      exact mul_le_mul_of_nonneg_left (pow_le_pow_right₀ (by linarith) hi.le) H.hL)
  have e3 : ‖∑ i ∈ Finset.range q.s, (q'.b i - q.b i) • stage q f t (y t) h i‖ ≤ q.s * δ * (B + L * ρ) :=
    sum_le_card le_rfl hδ hK hb (fun j hj => (in1 j hj.le).2)
  rw [e1, norm_smul, Real.norm_eq_abs, abs_of_nonneg h0]
  refine mul_le_mul_of_nonneg_left ((norm_add_le _ _).trans ((add_le_add e2 e3).trans (le_of_eq ?_))) h0
  unfold lam
  ring

/-! ## Smooth right-hand sides -/

/-- `y` is a motion: a solution on `[a, e]` of `y' = f(t, y)`, whose right-hand side is four times continuously differentiable around it. -/
structure Motion (f : ℝ → E → E) (y : ℝ → E) (a e : ℝ) (U : Set (ℝ × E)) : Prop where
  isOpen : IsOpen U
  smooth : ContDiffOn ℝ 4 (fun p : ℝ × E => f p.1 p.2) U
  mem : ∀ t ∈ Icc a e, (t, y t) ∈ U
  sol : ∀ t ∈ Icc a e, HasDerivWithinAt y (f t (y t)) (Icc a e) t

variable {U : Set (ℝ × E)}

theorem Motion.compact (M : Motion f y a e U) : IsCompact ((fun t => (t, y t)) '' Icc a e) :=
  isCompact_Icc.image_of_continuousOn (continuousOn_id.prodMk fun t ht => (M.sol t ht).continuousWithinAt)

theorem Motion.tube (M : Motion f y a e U) : ∃ L ρ B, Tube f y a e L ρ B := by
  have hKU : (fun t => (t, y t)) '' Icc a e ⊆ U := by rintro _ ⟨t, ht, rfl⟩; exact M.mem t ht
  have hd : ContDiffOn ℝ 3 (fderiv ℝ fun p : ℝ × E => f p.1 p.2) U := M.smooth.fderiv_of_isOpen M.isOpen (by norm_num)
  obtain ⟨ρ, L, hρ, hL, hnear⟩ := near_bounded M.isOpen hd.continuousOn M.compact hKU
  obtain ⟨B, hB⟩ := M.compact.exists_bound_of_continuousOn (M.smooth.continuousOn.mono hKU)
  have hB' : ∀ t ∈ Icc a e, ‖f t (y t)‖ ≤ |B| := fun t ht => (hB _ ⟨t, ht, rfl⟩).trans (le_abs_self B)
  refine ⟨L, ρ, |B|, ?_, hB', ?_, hL, hρ, abs_nonneg B⟩
  · intro t ht x z hx hz
    have hball : ∀ p ∈ Metric.closedBall (t, y t) ρ, p ∈ U ∧ ‖fderiv ℝ (fun p : ℝ × E => f p.1 p.2) p‖ ≤ L := fun p hp => by
      have := hnear _ ⟨t, ht, rfl⟩ (p - (t, y t)) (by rwa [mem_closedBall_iff_norm] at hp)
      simpa using this
    have mem : ∀ w, ‖w - y t‖ ≤ ρ → (t, w) ∈ Metric.closedBall (t, y t) ρ := fun w hw => by
      rw [mem_closedBall_iff_norm, Prod.mk_sub_mk, sub_self, Prod.norm_mk, norm_zero]
      exact max_le hρ.le hw
    have := Convex.norm_image_sub_le_of_norm_fderiv_le (𝕜 := ℝ) (f := fun p : ℝ × E => f p.1 p.2) (C := L) (s := Metric.closedBall (t, y t) ρ)
      (fun p hp => (M.smooth.differentiableOn four_ne_zero p (hball p hp).1).differentiableAt (M.isOpen.mem_nhds (hball p hp).1))
      (fun p hp => (hball p hp).2) (convex_closedBall _ _) (mem z hz) (mem x hx)
    rw [Prod.mk_sub_mk, sub_self, Prod.norm_mk, norm_zero, max_eq_right (norm_nonneg _)] at this
    exact this
  · intro s hs t ht
    have := (convex_Icc a e).norm_image_sub_le_of_norm_hasDerivWithin_le M.sol hB' ht hs
    rwa [Real.norm_eq_abs] at this

theorem Motion.jet (M : Motion f y a e U) : ∃ D1 D2 D3, Jet (fun p : ℝ × E => ((1 : ℝ), f p.1 p.2)) (fun t => (t, y t)) a e D1 D2 D3 := by
  have hKU : (fun t => (t, y t)) '' Icc a e ⊆ U := by rintro _ ⟨t, ht, rfl⟩; exact M.mem t ht
  have hG : ContDiffOn ℝ 4 (fun p : ℝ × E => ((1 : ℝ), f p.1 p.2)) U := contDiffOn_const.prodMk M.smooth
  obtain ⟨ρ, C, hρ, hC, hT⟩ := taylor_near M.isOpen hG M.compact hKU
  refine ⟨fun t => fderiv ℝ (fun p : ℝ × E => ((1 : ℝ), f p.1 p.2)) (t, y t), fun t => d2 (fun p : ℝ × E => ((1 : ℝ), f p.1 p.2)) (t, y t),
    fun t => d3 (fun p : ℝ × E => ((1 : ℝ), f p.1 p.2)) (t, y t), ⟨C, fun t ht => (hT _ ⟨t, ht, rfl⟩).1⟩, ⟨C, fun t ht => (hT _ ⟨t, ht, rfl⟩).2.1⟩,
    ⟨C, fun t ht => (hT _ ⟨t, ht, rfl⟩).2.2.1⟩, ⟨C, fun t ht => (hT _ ⟨t, ht, rfl⟩).2.2.2.1⟩,
    ⟨ρ, C, hρ, hC, fun t ht v hv => ((hT _ ⟨t, ht, rfl⟩).2.2.2.2 v hv).2⟩, fun t ht => ?_⟩
  exact (hasDerivWithinAt_id t _).prodMk (M.sol t ht)

theorem stage_pair (q : Coef) (hq : q.Rows) (f : ℝ → E → E) (t : ℝ) (x : E) (h : ℝ) (i : ℕ) (hi : i < q.s) :
    stage q (fun (_ : ℝ) (p : ℝ × E) => ((1 : ℝ), f p.1 p.2)) t (t, x) h i = (1, stage q f t x h i) := by
  induction i using Nat.strong_induction_on with
  | _ i ih =>
    rw [stage_point, stage_point]
    have : point q (fun (_ : ℝ) (p : ℝ × E) => ((1 : ℝ), f p.1 p.2)) t (t, x) h i = (t + h * q.c i, point q f t x h i) := by
      unfold point
      have e1 : ∑ j ∈ Finset.range i, q.A i j • stage q (fun (_ : ℝ) (p : ℝ × E) => ((1 : ℝ), f p.1 p.2)) t (t, x) h j =
          (∑ j ∈ Finset.range i, q.A i j, ∑ j ∈ Finset.range i, q.A i j • stage q f t x h j) := by
        rw [prod_mk_sum]
        refine Finset.sum_congr rfl fun j hj => ?_
        have hj' := Finset.mem_range.1 hj
        rw [ih j hj' (by omega), Prod.smul_mk, smul_eq_mul, mul_one]
      rw [e1, hq i hi, Prod.smul_mk, Prod.mk_add_mk, smul_eq_mul]
    rw [this]

theorem rk_pair (q : Coef) (hq : q.Rows) (f : ℝ → E → E) (t : ℝ) (x : E) (h : ℝ) :
    (rk q (fun (_ : ℝ) (p : ℝ × E) => ((1 : ℝ), f p.1 p.2)) t (t, x) h).2 = rk q f t x h := by
  unfold rk incr
  have e1 : ∑ i ∈ Finset.range q.s, q.b i • stage q (fun (_ : ℝ) (p : ℝ × E) => ((1 : ℝ), f p.1 p.2)) t (t, x) h i =
      (∑ i ∈ Finset.range q.s, q.b i, ∑ i ∈ Finset.range q.s, q.b i • stage q f t x h i) := by
    rw [prod_mk_sum]
    refine Finset.sum_congr rfl fun i hi => ?_
    rw [stage_pair q hq f t x h i (Finset.mem_range.1 hi), Prod.smul_mk, smul_eq_mul, mul_one]
  rw [e1]
  simp

theorem Motion.local_error (M : Motion f y a e U) (q : Coef) (hq : q.Rows) (p : ℕ) (hp : p ≤ 4) (ho : q.Order p) :
    UO a e (p + 1) fun t h => rk q f t (y t) h - y (t + h) := by
  obtain ⟨D1, D2, D3, J⟩ := M.jet
  obtain ⟨C, h₀, p1, p2, p3, p4⟩ := Lim.local_error J q hq p hp ho
  refine ⟨C, h₀, p1, p2, p3, fun t ht h hh hte => le_trans ?_ (p4 t ht h hh hte)⟩
  dsimp only
  rw [← rk_pair q hq f t (y t) h]
  exact norm_snd_le (rk q (fun (_ : ℝ) (p : ℝ × E) => ((1 : ℝ), f p.1 p.2)) t (t, y t) h - (t + h, y (t + h)))

/-- **C93, general form.** Let the coefficients `q` satisfy the order conditions up to `p`, with `1 ≤ p ≤ 4`. For every motion there are `C`, `h₀`
and `δ₀` such that, with every method whose coefficients `aᵢⱼ` and `bᵢ` differ from those of `q` by at most `ε ≤ 1` and `δ ≤ δ₀`, any sequence
of steps of at most `h ≤ h₀` from the start of the motion ends within `C (hᵖ + ε h + δ)` of it. -/
theorem rk_converges (M : Motion f y a e U) (q : Coef) (hR : 0 ≤ R) (hq : q.Bounded R) (hrows : q.Rows) (p : ℕ) (hp1 : 1 ≤ p) (hp : p ≤ 4)
    (ho : q.Order p) : ∃ C h₀ δ₀ : ℝ, 0 ≤ C ∧ 0 < h₀ ∧ 0 < δ₀ ∧ ∀ ε ∈ Icc (0 : ℝ) 1, ∀ δ ∈ Icc 0 δ₀, ∀ q' : Coef, q'.s = q.s → q'.c = q.c →
      q'.Bounded R → (∀ i j, |q'.A i j - q.A i j| ≤ ε) → (∀ i, |q'.b i - q.b i| ≤ δ) →
      ∀ h ∈ Ioc 0 h₀, ∀ hs : List ℝ, (∀ s ∈ hs, s ∈ Ioc 0 h) → a + hs.sum ≤ e →
        ‖march (rk q' f) a (y a) hs - y (a + hs.sum)‖ ≤ C * (h ^ p + ε * h + δ) := by
  obtain ⟨L, ρ, B, H⟩ := M.tube
  obtain ⟨C₁, h₁, p1, p2, p3, p4⟩ := M.local_error q hrows p hp ho
  have hL := H.hL
  have hB := H.hB
  have hρ := H.hρ
  have hK : 0 ≤ B + L * ρ := by positivity
  have hΛ := lam_nonneg q.s hR H.hL
  set Kb := q.s * R * (B + L * ρ) + B with hKb
  have hKb0 : 0 ≤ Kb := by positivity
  set D := C₁ + q.s * (B + L * ρ) * (lam q.s R L + 1) with hD
  have hD0 : 0 ≤ D := by positivity
  set T := |e - a| with hT
  set X := D * T * Real.exp (lam q.s R L * T) with hX
  have hX0 : 0 ≤ X := by positivity
  have hδ : 0 < ρ / (6 * (X + 1)) := by positivity
  refine ⟨X, min h₁ (min (ρ / (2 * (Kb + 1))) (ρ / (6 * (X + 1)))), ρ / (6 * (X + 1)), hX0, lt_min p1 (lt_min (by positivity) hδ), hδ, ?_⟩
  intro ε hε δ hδ' q' hs hc hq' hA hb h hh hs' hsteps hend
  have hh1 : h ≤ h₁ := hh.2.trans (min_le_left _ _)
  have hle1 : h ≤ 1 := hh1.trans p2
  have hhK : h * Kb ≤ ρ / 2 := by
    have : h ≤ ρ / (2 * (Kb + 1)) := hh.2.trans ((min_le_right _ _).trans (min_le_left _ _))
    rw [le_div_iff₀ (by positivity)] at this
    linarith [hh.1]
  have hhX : h ≤ ρ / (6 * (X + 1)) := hh.2.trans ((min_le_right _ _).trans (min_le_right _ _))
  have hpow : h ^ p ≤ h := by
    have := pow_le_pow_of_le_one hh.1.le hle1 hp1
    rwa [pow_one] at this
  have hp0 : 0 ≤ h ^ p := pow_nonneg hh.1.le p
  have hε0 := hε.1
  have hh0 := hh.1.le
  have hδ0 := hδ'.1
  have hsum0 : 0 ≤ hs'.sum := List.sum_nonneg fun z hz => (hsteps z hz).1.le
  have hsumT : hs'.sum ≤ T := (by linarith : hs'.sum ≤ e - a).trans (le_abs_self _)
  set τ := D * (h ^ p + ε * h + δ) with hτ
  have hτ0 : 0 ≤ τ := by positivity
  have cons : ∀ t ∈ Icc a e, ∀ s ∈ Ioc 0 h, t + s ≤ e → ‖rk q' f t (y t) s - y (t + s)‖ ≤ s * τ := by
    intro t ht s hs1 hte
    have hsK : s * Kb ≤ ρ / 2 := (mul_le_mul_of_nonneg_right hs1.2 hKb0).trans hhK
    have e1 := rk_perturb H q q' hR hq hq' hs hc ε δ hε.1 hδ'.1 hA hb ht hs1.1.le (hs1.2.trans hle1) hte hsK
    have e2 := p4 t ht s ⟨hs1.1.le, hs1.2.trans hh1⟩ hte
    have e3 : C₁ * s ^ (p + 1) ≤ s * (C₁ * h ^ p) := by
      rw [pow_succ]
      have := mul_le_mul_of_nonneg_left (pow_le_pow_left₀ hs1.1.le hs1.2 p) (mul_nonneg p3 hs1.1.le)
      linarith
    have e4 : q.s * (B + L * ρ) * (lam q.s R L * (s * ε) + δ) ≤ q.s * (B + L * ρ) * (lam q.s R L + 1) * (h ^ p + ε * h + δ) := by
      rw [mul_assoc _ (lam q.s R L + 1)]
      apply mul_le_mul_of_nonneg_left _ (by positivity)
      have h5 : s * ε ≤ ε * h := by rw [mul_comm]; exact mul_le_mul_of_nonneg_left hs1.2 hε.1
      have h6 := mul_le_mul_of_nonneg_left h5 hΛ
      have h7 : 0 ≤ ε * h := mul_nonneg hε.1 hh.1.le
      have h8 := mul_nonneg hΛ hp0
      have h9 := mul_nonneg hΛ hδ'.1
      nlinarith
    calc ‖rk q' f t (y t) s - y (t + s)‖ ≤ ‖rk q' f t (y t) s - rk q f t (y t) s‖ + ‖rk q f t (y t) s - y (t + s)‖ :=
          norm_sub_le_norm_sub_add_norm_sub _ _ _
      _ ≤ s * (q.s * (B + L * ρ) * (lam q.s R L * (s * ε) + δ)) + s * (C₁ * h ^ p) := add_le_add e1 (e2.trans e3)
      _ ≤ s * (q.s * (B + L * ρ) * (lam q.s R L + 1) * (h ^ p + ε * h + δ)) + s * (C₁ * (h ^ p + ε * h + δ)) := by
          refine add_le_add (mul_le_mul_of_nonneg_left e4 hs1.1.le) (mul_le_mul_of_nonneg_left (mul_le_mul_of_nonneg_left ?_ p3) hs1.1.le)
          have := mul_nonneg hε.1 hh.1.le
          linarith [hδ'.1]
      _ = s * τ := by rw [hτ, hD]; ring
  have hfin : τ * hs'.sum * Real.exp (lam q.s R L * hs'.sum) ≤ X * (h ^ p + ε * h + δ) := by
    calc τ * hs'.sum * Real.exp (lam q.s R L * hs'.sum) ≤ τ * T * Real.exp (lam q.s R L * T) := by gcongr
      _ = X * (h ^ p + ε * h + δ) := by rw [hτ, hX]; ring
  have hsm : X * (h ^ p + ε * h + δ) ≤ ρ / 2 := by
    have h3 : h ^ p + ε * h + δ ≤ 3 * (ρ / (6 * (X + 1))) := by
      have : ε * h ≤ h := mul_le_of_le_one_left hh.1.le hε.2
      linarith [hδ'.2]
    have h4 : (X + 1) * (3 * (ρ / (6 * (X + 1)))) = ρ / 2 := by field_simp; norm_num
    have h5 : 0 ≤ 3 * (ρ / (6 * (X + 1))) := by positivity
    calc X * (h ^ p + ε * h + δ) ≤ X * (3 * (ρ / (6 * (X + 1)))) := mul_le_mul_of_nonneg_left h3 hX0
      _ ≤ (X + 1) * (3 * (ρ / (6 * (X + 1)))) := mul_le_mul_of_nonneg_right (by linarith) h5
      _ = ρ / 2 := h4
  have := rk_error H q' hR hq' h τ hle1 hτ0 (by rw [hs]; exact hhK) cons hs' hsteps hend (by rw [hs]; exact hfin.trans hsm)
  rw [hs] at this
  exact this.trans hfin

end motion

end Mapleaf.Motion.Lim
