import Verif.Run.ConvModel
import Mathlib.Tactic.Linarith
import Mathlib.Tactic.FieldSimp
import Mathlib.Tactic.Positivity

/-!
# Grid convergence is exact for power-law errors (C55)
-/

namespace Mapleaf.Run.Conv

/-- three values with error `C·hᵖ` at steps `r²h`, `rh`, `h` -/
structure PowerLaw (c m f r : ℝ) where
  exact : ℝ
  C : ℝ
  h : ℝ
  p : ℝ
  hC : C ≠ 0
  hh : 0 < h
  hp : 0 < p
  hc : c = exact + C * (r ^ 2 * h) ^ p
  hm : m = exact + C * (r * h) ^ p
  hf : f = exact + C * h ^ p

namespace PowerLaw

variable {c m f r : ℝ}

theorem rp_gt (L : PowerLaw c m f r) (hr : 1 < r) : 1 < r ^ L.p := Real.one_lt_rpow hr L.hp

theorem med_sub_fine (L : PowerLaw c m f r) (hr : 1 < r) : m - f = L.C * L.h ^ L.p * (r ^ L.p - 1) := by
  have h1 := L.hm; have h2 := L.hf
  rw [Real.mul_rpow (by linarith) L.hh.le] at h1
  linear_combination h1 - h2

theorem coarse_sub_med (L : PowerLaw c m f r) (hr : 1 < r) :
    c - m = r ^ L.p * (L.C * L.h ^ L.p * (r ^ L.p - 1)) := by
  have h1 := L.hm; have h2 := L.hc
  have hr0 : (0 : ℝ) ≤ r := by linarith
  rw [Real.mul_rpow hr0 L.hh.le] at h1
  rw [Real.mul_rpow (by positivity) L.hh.le, ← Real.rpow_natCast, ← Real.rpow_mul hr0, mul_comm ((2 : ℕ) : ℝ),
    Real.rpow_mul hr0] at h2
  push_cast at h2; rw [Real.rpow_two] at h2
  linear_combination h2 - h1

/-- **Observed order.**  For an error `C·hᵖ` with the exponent inside the limiter range, the observed order
of convergence is exactly `p`, for every ratio above 1, every step and every constant of either sign. -/
theorem order_exact (L : PowerLaw c m f r) (hr : 1 < r) {lo hi : ℝ} (h1 : lo ≤ L.p) (h2 : L.p ≤ hi) :
    orderOf c m f r lo hi = .ok L.p := by
  have hrp := L.rp_gt hr
  have hhp : 0 < L.h ^ L.p := Real.rpow_pos_of_pos L.hh _
  have hne : L.C * L.h ^ L.p * (r ^ L.p - 1) ≠ 0 :=
    mul_ne_zero (mul_ne_zero L.hC hhp.ne') (by linarith)
  have hlog : Real.log r ≠ 0 := (Real.log_pos hr).ne'
  unfold orderOf
  rw [L.med_sub_fine hr, L.coarse_sub_med hr, if_neg hne]
  simp only
  rw [mul_div_assoc, div_self hne, mul_one, if_neg (by linarith), if_neg (by linarith), if_neg hlog,
    Real.log_rpow (by linarith), mul_div_assoc, div_self hlog, mul_one, max_eq_right h1, min_eq_right h2]

/-- **Richardson extrapolation is exact** when used with the exponent of the error. -/
theorem richardson_exact (L : PowerLaw c m f r) (hr : 1 < r) : richardson f m r L.p = .ok L.exact := by
  have hrp := L.rp_gt hr
  have hne : r ^ L.p - 1 ≠ 0 := by linarith
  unfold richardson
  rw [if_neg hne]
  have : f - m = -(L.C * L.h ^ L.p * (r ^ L.p - 1)) := by rw [← L.med_sub_fine hr]; ring
  rw [this, neg_div, mul_div_assoc, div_self hne, mul_one]
  have h2 := L.hf
  congr 1
  linear_combination h2

/-- **The error estimate is the error** of the fine value. -/
theorem errorEstimate_exact (L : PowerLaw c m f r) (hr : 1 < r) : errorEstimate L.p f m r = .ok |f - L.exact| := by
  have hrp := L.rp_gt hr
  have hpos : 0 < r ^ L.p - 1 := by linarith
  unfold errorEstimate
  rw [if_neg hpos.ne']
  have : f - m = -(L.C * L.h ^ L.p * (r ^ L.p - 1)) := by rw [← L.med_sub_fine hr]; ring
  rw [this, abs_neg, abs_mul, abs_of_pos hpos, mul_div_assoc, div_self hpos.ne', mul_one]
  have h2 := L.hf
  congr 2
  linear_combination -h2

/-- **Uncertainty.**  The default uncertainty is at least three times the true error when the observed order
is not below the formal one, so the exact value lies within it. -/
theorem uncertainty_covers (L : PowerLaw c m f r) (hr : 1 < r) {formal : ℝ} (h0 : 0 < formal) (h1 : formal ≤ L.p) :
    ∃ u, uncertainty f m r formal = .ok u ∧ 3 * |f - L.exact| ≤ u := by
  have hrp := L.rp_gt hr
  have hpos : 0 < r ^ L.p - 1 := by linarith
  have hfp : 1 < r ^ formal := Real.one_lt_rpow hr h0
  have hle : r ^ formal ≤ r ^ L.p := Real.rpow_le_rpow_of_exponent_le hr.le h1
  refine ⟨3 * (|f - m| / (r ^ formal - 1)), ?_, ?_⟩
  · unfold uncertainty errorEstimate
    rw [if_neg (by linarith)]
    rfl
  · have h := L.errorEstimate_exact hr
    unfold errorEstimate at h
    rw [if_neg hpos.ne'] at h
    have h := Except.ok.inj h
    rw [← h]
    apply mul_le_mul_of_nonneg_left _ (by norm_num)
    apply div_le_div_of_nonneg_left (abs_nonneg _) (by linarith) (by linarith)

end PowerLaw

/-- **Asymptotic check.**  The check of three values with the observed order is the ratio of the fine and
medium values: it approaches 1 as they agree. -/
theorem asymptotic_spec {c m f r p : ℝ} (L : PowerLaw c m f r) (hp : L.p = p) (hr : 1 < r) (hm : m ≠ 0) (hf : f ≠ 0) :
    ∃ g12 g23, gci m f r p 3 = .ok g12 ∧ gci c m r p 3 = .ok g23 ∧ asymptotic g12 g23 r p = .ok (|f| / |m|) := by
  subst hp
  have hrp := L.rp_gt hr
  have hpos : 0 < r ^ L.p - 1 := by linarith
  have hhp : 0 < L.h ^ L.p := Real.rpow_pos_of_pos L.hh _
  have hne : L.C * L.h ^ L.p * (r ^ L.p - 1) ≠ 0 := mul_ne_zero (mul_ne_zero L.hC hhp.ne') (by linarith)
  refine ⟨|3 * |(m - f) / f| / (r ^ L.p - 1)| * 100, |3 * |(c - m) / m| / (r ^ L.p - 1)| * 100, ?_, ?_, ?_⟩
  · unfold gci; rw [if_neg hf, if_neg hpos.ne']
  · unfold gci; rw [if_neg hm, if_neg hpos.ne']
  · rw [L.med_sub_fine hr, L.coarse_sub_med hr]
    unfold asymptotic
    generalize hE : L.C * L.h ^ L.p * (r ^ L.p - 1) = E at hne
    have hE0 : 0 < |E| := abs_pos.2 hne
    have hf0 : 0 < |f| := abs_pos.2 hf
    have hm0 : 0 < |m| := abs_pos.2 hm
    have hR0 : 0 < r ^ L.p := by linarith
    generalize r ^ L.p = R at hR0 hpos ⊢
    have e1 : |3 * |E / f| / (R - 1)| = 3 * (|E| / |f|) / (R - 1) := by
      rw [abs_div E f, abs_of_pos]; positivity
    have e2 : |3 * |R * E / m| / (R - 1)| = 3 * (R * |E| / |m|) / (R - 1) := by
      rw [abs_div (R * E) m, abs_mul R E, abs_of_pos hR0, abs_of_pos]; positivity
    rw [e1, e2]
    rw [if_neg (by positivity)]
    congr 1
    have : R - 1 ≠ 0 := hpos.ne'
    field_simp

/-- **Limiter.**  Whatever three values are given, the observed order is within the limits, and oscillating
values give the lower one. -/
theorem order_limited {c m f r lo hi p : ℝ} (hlo : lo ≤ hi) (h : orderOf c m f r lo hi = .ok p) :
    lo ≤ p ∧ p ≤ hi ∧ ((c - m) / (m - f) ≤ 0 → p = lo) := by
  unfold orderOf at h
  simp only at h
  split_ifs at h with h1 h2 h3 h4
  · obtain rfl := Except.ok.inj h
    exact ⟨le_refl _, hlo, fun _ => rfl⟩
  · obtain rfl := Except.ok.inj h
    exact ⟨le_min hlo (le_max_left _ _), min_le_left _ _, fun h => absurd h h2⟩

/-- **When it raises.**  Exactly when the medium and fine values agree, or the values change monotonically and
the ratio is not a positive number different from 1. -/
theorem order_raises (c m f r lo hi : ℝ) :
    (∃ e, orderOf c m f r lo hi = .error e) ↔ m = f ∨ (0 < (c - m) / (m - f) ∧ (r ≤ 0 ∨ r = 1)) := by
  unfold orderOf
  by_cases h : m = f
  · simp [h]
  · have h' : m - f ≠ 0 := sub_ne_zero.2 h
    rw [if_neg h']
    simp only [h, false_or]
    by_cases hb : (c - m) / (m - f) ≤ 0
    · simp [hb, not_lt.2 hb]
    · rw [if_neg hb]
      have hb' := not_le.1 hb
      by_cases hr : r ≤ 0
      · simp [hr, hb']
      · have hr' := not_le.1 hr
        rw [if_neg hr]
        by_cases h1 : r = 1
        · simp [h1, hb']
        · have : Real.log r ≠ 0 := Real.log_ne_zero_of_pos_of_ne_one hr' h1
          rw [if_neg this]
          simp [hr, h1]

/-- **Violation.**  Fourth-order convergence (Runge–Kutta 4) is reported as second order with the default
limits, and the extrapolated value is then wrong: the limit is 0, the extrapolation of errors 256, 16, 1 is
not. -/
theorem fourth_order_violated :
    orderOf 256 16 1 2 (1 / 2) 2 = .ok 2 ∧ richardson 1 16 2 2 = .ok (-4) ∧ Nonempty (PowerLaw 256 16 1 2) := by
  refine ⟨?_, ?_, ⟨⟨0, 1, 1, 4, by norm_num, by norm_num, by norm_num, ?_, ?_, ?_⟩⟩⟩
  · have hl : 0 < Real.log 2 := Real.log_pos (by norm_num)
    unfold orderOf
    rw [if_neg (by norm_num)]
    simp only
    rw [if_neg (by norm_num), if_neg (by norm_num), if_neg hl.ne']
    have : ((256 : ℝ) - 16) / (16 - 1) = (2 : ℝ) ^ (4 : ℕ) := by norm_num
    rw [this, Real.log_pow, mul_div_assoc, div_self hl.ne']
    norm_num
  · unfold richardson
    norm_num
  · rw [show (4 : ℝ) = ((4 : ℕ) : ℝ) by norm_num, Real.rpow_natCast]; norm_num
  · rw [show (4 : ℝ) = ((4 : ℕ) : ℝ) by norm_num, Real.rpow_natCast]; norm_num
  · rw [show (4 : ℝ) = ((4 : ℕ) : ℝ) by norm_num, Real.rpow_natCast]; norm_num

/-- **Violation.**  Medium and fine results that agree exactly (a converged direction, such as a sideways
position that stays 0) raise a division by zero. -/
theorem converged_violated (c m r lo hi : ℝ) : orderOf c m m r lo hi = .error .zeroDivision := by
  simp [orderOf]

/-- **Step sizes.**  The steps used are the configured step divided by successive powers of the ratio,
starting with the configured step itself, one for each simulation. -/
theorem stepHistory_spec {K : Type} [Field K] {r : K} (hr : r ≠ 0) (h0 : K) (n : Nat) :
    stepHistory r h0 n = (List.range n).map (fun k : ℕ => h0 / r ^ k) := by
  have key : ∀ n h, stepLoop r n h = (List.range n).map (fun k : ℕ => h / r ^ (k + 1)) := by
    intro n
    induction n with
    | zero => intro h; rfl
    | succ n ih =>
      intro h
      rw [stepLoop, ih, List.range_succ_eq_map]
      simp only [List.map_cons, List.map_map, Nat.zero_add, pow_one, List.cons.injEq, true_and]
      apply List.map_congr_left
      intro k _
      simp only [Function.comp, Nat.succ_eq_add_one]
      field_simp
      ring
  rw [stepHistory, key]
  apply List.map_congr_left
  intro k _
  field_simp
  ring

/-- a concrete power law: limit 5, second order, ratio 2 -/
noncomputable example : PowerLaw 21 9 6 2 where
  exact := 5
  C := 1
  h := 1
  p := 2
  hC := by norm_num
  hh := by norm_num
  hp := by norm_num
  hc := by norm_num
  hm := by norm_num
  hf := by norm_num

end Mapleaf.Run.Conv
