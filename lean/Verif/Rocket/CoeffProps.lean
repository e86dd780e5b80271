import Verif.Rocket.AeroModel
import Mathlib.Analysis.SpecialFunctions.Pow.Continuity
import Mathlib.Analysis.Convex.SpecificFunctions.Basic
import Mathlib.Analysis.SpecialFunctions.Log.Basic
import Mathlib.Analysis.SpecialFunctions.Sqrt
import Mathlib.Analysis.Complex.ExponentialBounds

/-!
# C43: drag coefficient models

What is continuous, what jumps, and the ranges.
-/

namespace Mapleaf.Rocket
open Filter Topology

/-- a function that follows a continuous formula up to `a` but has another value at `a` jumps there -/
theorem jump_of_left {f g : ℝ → ℝ} {a b : ℝ} (hb : b < a) (hg : ContinuousAt g a) (hfg : ∀ x, b < x → x < a → f x = g x)
    (hne : g a ≠ f a) : ¬ ContinuousAt f a := by
  intro hf
  have h1 : Tendsto f (𝓝[<] a) (𝓝 (f a)) := hf.tendsto.mono_left nhdsWithin_le_nhds
  have h2 : Tendsto g (𝓝[<] a) (𝓝 (g a)) := hg.tendsto.mono_left nhdsWithin_le_nhds
  have h3 : f =ᶠ[𝓝[<] a] g := by
    filter_upwards [Ioo_mem_nhdsLT hb] with x hx
    exact hfg x hx.1 hx.2
  exact hne (tendsto_nhds_unique h2 (h1.congr' h3))

/-- the same from the right -/
theorem jump_of_right {f g : ℝ → ℝ} {a b : ℝ} (hb : a < b) (hg : ContinuousAt g a) (hfg : ∀ x, a < x → x < b → f x = g x)
    (hne : g a ≠ f a) : ¬ ContinuousAt f a := by
  intro hf
  have h1 : Tendsto f (𝓝[>] a) (𝓝 (f a)) := hf.tendsto.mono_left nhdsWithin_le_nhds
  have h2 : Tendsto g (𝓝[>] a) (𝓝 (g a)) := hg.tendsto.mono_left nhdsWithin_le_nhds
  have h3 : f =ᶠ[𝓝[>] a] g := by
    filter_upwards [Ioo_mem_nhdsGT hb] with x hx
    exact hfg x hx.1 hx.2
  exact hne (tendsto_nhds_unique h2 (h1.congr' h3))

/-! ## Base drag -/

/-- **C43.** Base drag is continuous in the Mach number. -/
theorem baseDrag_continuous : Continuous baseDragCd := by
  have h : baseDragCd = fun m => (0.12 + 0.13 * min m 1 * min m 1) + (0.25 / max m 1 - 0.25) := by
    funext m
    unfold baseDragCd
    split
    · rename_i h
      rw [min_eq_left h.le, max_eq_right h.le]; ring
    · rename_i h
      rw [min_eq_right (not_lt.1 h), max_eq_left (not_lt.1 h)]; ring
  rw [h]
  have hne : ∀ m : ℝ, max m 1 ≠ 0 := fun m => (lt_of_lt_of_le one_pos (le_max_right m 1)).ne'
  exact (by fun_prop : Continuous fun m : ℝ => 0.12 + 0.13 * min m 1 * min m 1).add
    ((continuous_const.div (by fun_prop) hne).sub continuous_const)

/-- **C43.** Base drag lies in (0, 0.25]; it is largest exactly at Mach 1 and rises up to there, falls after. -/
theorem baseDrag_range (m : ℝ) (h : 0 ≤ m) :
    0 < baseDragCd m ∧ baseDragCd m ≤ 0.25 ∧ (baseDragCd m = 0.25 ↔ m = 1) ∧
    ∀ m', m < m' → (m' ≤ 1 → baseDragCd m < baseDragCd m') ∧ (1 ≤ m → baseDragCd m' < baseDragCd m) := by
  have e1 : ∀ x : ℝ, x < 1 → baseDragCd x = 0.12 + 0.13 * x * x := fun x hx => if_pos hx
  have e2 : ∀ x : ℝ, 1 ≤ x → baseDragCd x = 0.25 / x := fun x hx => if_neg (not_lt.2 hx)
  refine ⟨?_, ?_, ?_, ?_⟩
  · rcases lt_or_ge m 1 with h1 | h1
    · rw [e1 m h1]; nlinarith
    · rw [e2 m h1]; positivity
  · rcases lt_or_ge m 1 with h1 | h1
    · rw [e1 m h1]; nlinarith
    · rw [e2 m h1, div_le_iff₀ (by linarith)]; linarith
  · rcases lt_or_ge m 1 with h1 | h1
    · rw [e1 m h1]
      constructor
      · intro h'; nlinarith
      · intro h'; linarith
    · rw [e2 m h1, div_eq_iff (by linarith : m ≠ 0)]
      constructor
      · intro h'; linarith
      · intro h'; rw [h']; norm_num
  · intro m' hm
    constructor
    · intro h1
      rw [e1 m (by linarith)]
      rcases lt_or_eq_of_le h1 with h2 | h2
      · rw [e1 m' h2]; nlinarith
      · rw [e2 m' h2.ge, h2]; norm_num; nlinarith
    · intro h1
      rw [e2 m h1, e2 m' (by linarith)]
      exact div_lt_div_of_pos_left (by norm_num) (by linarith) hm

/-! ## Cross-flow and blunt-body drag -/

set_option exponentiation.threshold 2000 in
theorem crossFlow_edge : (1.99 : ℝ) < (0.19 : ℝ) ^ (-0.417 : ℝ) ∧ (0.19 : ℝ) ^ (-0.417 : ℝ) < 2 := by
  set y := (0.19 : ℝ) ^ (-0.417 : ℝ) with hy
  have hpos : 0 < y := by positivity
  have hp : y ^ 1000 = (100 / 19 : ℝ) ^ 417 := by
    rw [hy, ← Real.rpow_natCast, ← Real.rpow_mul (by norm_num)]
    have : (-0.417 : ℝ) * ((1000 : ℕ) : ℝ) = -((417 : ℕ) : ℝ) := by norm_num
    rw [this, Real.rpow_neg (by norm_num), Real.rpow_natCast, ← inv_pow]
    norm_num
  constructor
  · by_contra hc
    have := pow_le_pow_left₀ hpos.le (not_lt.1 hc) 1000
    rw [hp] at this
    norm_num at this
  · by_contra hc
    have := pow_le_pow_left₀ (by norm_num) (not_lt.1 hc) 1000
    rw [hp] at this
    norm_num at this

/-- **C43** violated: the cross-flow drag of a cylinder, the drag of blunt bodies, and the axial factor are not continuous. Each jump
is below one percent. -/
theorem crossFlow_continuous_violated :
    ¬ ContinuousAt crossFlowCd 0.9 ∧ ¬ ContinuousAt crossFlowCd 1 ∧ ¬ ContinuousAt bluntCd 1 := by
  refine ⟨?_, ?_, ?_⟩
  · refine jump_of_left (g := fun m => (1 - m * m) ^ (-0.417 : ℝ) - 1) (b := 0) (by norm_num) ?_ ?_ ?_
    · refine ContinuousAt.sub (ContinuousAt.rpow_const (by fun_prop) (Or.inl (by norm_num))) continuousAt_const
    · intro x _ h1
      unfold crossFlowCd
      rw [if_pos h1]
    · unfold crossFlowCd
      rw [if_neg (lt_irrefl _), if_pos (by norm_num)]
      have := crossFlow_edge.2
      intro h
      norm_num at h this
      linarith
  · refine jump_of_right (g := fun m => 1.214 - 0.502 / m ^ 2 + 0.1095 / m ^ 4 + 0.0231 / m ^ 6) (b := 2) (by norm_num) ?_ ?_ ?_
    · have h1 : ∀ k : ℕ, ContinuousAt (fun m : ℝ => m ^ k) 1 := fun k => by fun_prop
      have h2 : ∀ k : ℕ, (1 : ℝ) ^ k ≠ 0 := fun k => by norm_num
      exact ((continuousAt_const.sub (continuousAt_const.div (h1 2) (h2 2))).add (continuousAt_const.div (h1 4) (h2 4))).add
        (continuousAt_const.div (h1 6) (h2 6))
    · intro x h1 _
      unfold crossFlowCd
      rw [if_neg (by linarith), if_neg (by linarith)]
    · unfold crossFlowCd
      norm_num
  · refine jump_of_left (g := fun m => 0.85 * (1 + m ^ 2 / 4 + m ^ 4 / 40)) (b := 0) (by norm_num) (by fun_prop) ?_ ?_
    · intro x _ h1
      unfold bluntCd
      rw [if_pos h1]
    · unfold bluntCd
      norm_num

/-- **C43, part.** Between the joints both are continuous. -/
theorem crossFlow_continuous_partial (m : ℝ) (h0 : -1 < m) :
    (m ≠ 0.9 → m ≠ 1 → ContinuousAt crossFlowCd m) ∧ (m ≠ 1 → ContinuousAt bluntCd m) := by
  constructor
  · intro h1 h2
    rcases lt_trichotomy m 0.9 with h | h | h
    · have e : crossFlowCd =ᶠ[𝓝 m] fun m => (1 - m * m) ^ (-0.417 : ℝ) - 1 := by
        filter_upwards [Iio_mem_nhds h] with x hx
        exact if_pos hx
      refine ContinuousAt.congr ?_ e.symm
      have : 0 < 1 - m * m := by nlinarith
      exact ContinuousAt.sub (ContinuousAt.rpow_const (by fun_prop) (Or.inl this.ne')) continuousAt_const
    · exact absurd h h1
    · rcases lt_trichotomy m 1 with h' | h' | h'
      · have e : crossFlowCd =ᶠ[𝓝 m] fun m => 1 - 1.5 * (m - 0.9) := by
          filter_upwards [Ioo_mem_nhds h h'] with x hx
          unfold crossFlowCd
          rw [if_neg (not_lt.2 hx.1.le), if_pos hx.2.le]
        exact ContinuousAt.congr (by fun_prop) e.symm
      · exact absurd h' h2
      · have e : crossFlowCd =ᶠ[𝓝 m] fun m => 1.214 - 0.502 / m ^ 2 + 0.1095 / m ^ 4 + 0.0231 / m ^ 6 := by
          filter_upwards [Ioi_mem_nhds h'] with x hx
          have hx : 1 < x := hx
          unfold crossFlowCd
          rw [if_neg (by linarith), if_neg (by linarith)]
        refine ContinuousAt.congr ?_ e.symm
        have h1 : ∀ k : ℕ, ContinuousAt (fun m : ℝ => m ^ k) m := fun k => by fun_prop
        have h2 : ∀ k : ℕ, m ^ k ≠ 0 := fun k => by positivity
        exact ((continuousAt_const.sub (continuousAt_const.div (h1 2) (h2 2))).add (continuousAt_const.div (h1 4) (h2 4))).add
          (continuousAt_const.div (h1 6) (h2 6))
  · intro h2
    rcases lt_trichotomy m 1 with h' | h' | h'
    · have e : bluntCd =ᶠ[𝓝 m] fun m => 0.85 * (1 + m ^ 2 / 4 + m ^ 4 / 40) := by
        filter_upwards [Iio_mem_nhds h'] with x hx
        have hx : x < 1 := hx
        unfold bluntCd
        rw [if_pos hx]
      exact ContinuousAt.congr (by fun_prop) e.symm
    · exact absurd h' h2
    · have e : bluntCd =ᶠ[𝓝 m] fun m => 0.85 * (1.84 - 0.76 / m ^ 2 + 0.166 / m ^ 4 + 0.035 / m ^ 6) := by
        filter_upwards [Ioi_mem_nhds h'] with x hx
        have hx : 1 < x := hx
        unfold bluntCd
        rw [if_neg (by linarith)]
      refine ContinuousAt.congr ?_ e.symm
      have h1 : ∀ k : ℕ, ContinuousAt (fun m : ℝ => m ^ k) m := fun k => by fun_prop
      have h2 : ∀ k : ℕ, m ^ k ≠ 0 := fun k => by positivity
      exact continuousAt_const.mul
        (((continuousAt_const.sub (continuousAt_const.div (h1 2) (h2 2))).add (continuousAt_const.div (h1 4) (h2 4))).add
        (continuousAt_const.div (h1 6) (h2 6)))

theorem inv_powers (m : ℝ) (h : 1 ≤ m) : ∃ x : ℝ, 0 < x ∧ x ≤ 1 ∧ 1 / m ^ 2 = x ∧ 1 / m ^ 4 = x ^ 2 ∧ 1 / m ^ 6 = x ^ 3 := by
  have hm : 0 < m := by linarith
  refine ⟨1 / m ^ 2, by positivity, ?_, rfl, ?_, ?_⟩
  · rw [div_le_one (by positivity)]; nlinarith
  · rw [div_pow, one_pow, ← pow_mul]
  · rw [div_pow, one_pow, ← pow_mul]

/-- **C43.** Ranges: cross-flow drag in [0, 1.214], zero exactly at rest, blunt-body drag in [0.85, 1.564]. -/
theorem crossFlow_range (m : ℝ) (h : 0 ≤ m) :
    0 ≤ crossFlowCd m ∧ crossFlowCd m < 1.214 ∧ (crossFlowCd m = 0 ↔ m = 0) ∧ 0.85 ≤ bluntCd m ∧ bluntCd m < 1.564 := by
  have hb : 0.85 ≤ bluntCd m ∧ bluntCd m < 1.564 := by
    unfold bluntCd
    split
    · rename_i h1
      have h2 : m ^ 2 < 1 := by nlinarith
      have h4 : m ^ 4 < 1 := by nlinarith [sq_nonneg m]
      have : 0 ≤ m ^ 2 := by positivity
      have : 0 ≤ m ^ 4 := by positivity
      constructor <;> linarith
    · rename_i h1
      obtain ⟨x, hx0, hx1, e2, e4, e6⟩ := inv_powers m (not_lt.1 h1)
      have r2 : 0.76 / m ^ 2 = 0.76 * x := by rw [← e2]; ring
      have r4 : 0.166 / m ^ 4 = 0.166 * x ^ 2 := by rw [← e4]; ring
      have r6 : 0.035 / m ^ 6 = 0.035 * x ^ 3 := by rw [← e6]; ring
      rw [r2, r4, r6]
      have : 0 ≤ x ^ 2 := by positivity
      have : 0 ≤ x ^ 3 := by positivity
      have : x ^ 2 ≤ x := by nlinarith
      have : x ^ 3 ≤ x := by nlinarith
      constructor <;> linarith
  refine ⟨?_, ?_, ?_, hb⟩ <;> unfold crossFlowCd
  all_goals
    rcases lt_or_ge m 0.9 with h1 | h1
    · rw [if_pos h1]
      have hs : 0.19 < 1 - m * m := by nlinarith
      have hs1 : 1 - m * m ≤ 1 := by nlinarith
      have hge : 1 ≤ (1 - m * m) ^ (-0.417 : ℝ) := Real.one_le_rpow_of_pos_of_le_one_of_nonpos (by linarith) hs1 (by norm_num)
      have hlt : (1 - m * m) ^ (-0.417 : ℝ) < (0.19 : ℝ) ^ (-0.417 : ℝ) := Real.rpow_lt_rpow_of_neg (by norm_num) hs (by norm_num)
      have := crossFlow_edge.2
      first
      | linarith
      | (constructor
         · intro h0
           by_contra hm
           have hm' : 0 < m := lt_of_le_of_ne h (Ne.symm hm)
           have : 1 < (1 - m * m) ^ (-0.417 : ℝ) :=
             Real.one_lt_rpow_of_pos_of_lt_one_of_neg (by linarith) (by nlinarith) (by norm_num)
           linarith
         · intro h0
           rw [h0]; norm_num)
    · rw [if_neg (not_lt.2 h1)]
      rcases le_or_gt m 1 with h2 | h2
      · rw [if_pos h2]
        first
        | linarith
        | (constructor
           · intro h0; linarith
           · intro h0; linarith)
      · rw [if_neg (not_le.2 h2)]
        obtain ⟨x, hx0, hx1, e2, e4, e6⟩ := inv_powers m h2.le
        have r2 : 0.502 / m ^ 2 = 0.502 * x := by rw [← e2]; ring
        have r4 : 0.1095 / m ^ 4 = 0.1095 * x ^ 2 := by rw [← e4]; ring
        have r6 : 0.0231 / m ^ 6 = 0.0231 * x ^ 3 := by rw [← e6]; ring
        rw [r2, r4, r6]
        have : 0 ≤ x ^ 2 := by positivity
        have : 0 ≤ x ^ 3 := by positivity
        have : x ^ 2 ≤ x := by nlinarith
        have : x ^ 3 ≤ x := by nlinarith
        first
        | linarith
        | (constructor
           · intro h0; linarith
           · intro h0; linarith)

/-! ## Skin friction -/

/-- **C43.** Above Mach 1.1 the "rough" correction is never the larger one: rough surfaces get the smooth correction. -/
theorem rough_supersonic (mach : ℝ) (smooth : Bool) : supersonicCorrection mach smooth = 1 / (1 + 0.15 * mach ^ 2) ^ (0.58 : ℝ) := by
  unfold supersonicCorrection
  cases smooth
  · simp only [Bool.false_eq_true, if_false]
    apply max_eq_left
    have hx : 0 ≤ mach ^ 2 := by positivity
    apply one_div_le_one_div_of_le (by positivity)
    have := rpow_one_add_le_one_add_mul_self (s := 0.15 * mach ^ 2) (by linarith) (p := 0.58) (by norm_num) (by norm_num)
    linarith
  · rfl

/-- the weight of the supersonic formula -/
noncomputable def blend (mach : ℝ) : ℝ := max 0 (min 1 ((mach - 0.9) / 0.2))

theorem correction_blend (mach : ℝ) (smooth : Bool) :
    correction mach smooth = (1 - blend mach) * subsonicCorrection mach smooth + blend mach * supersonicCorrection mach smooth := by
  unfold correction blend
  split
  · rename_i h
    have : (mach - 0.9) / 0.2 ≤ 0 := by rw [div_le_iff₀ (by norm_num)]; linarith
    rw [min_eq_right (by linarith), max_eq_left this]; ring
  · rename_i h
    split
    · rename_i h2
      have h3 : 0 ≤ (mach - 0.9) / 0.2 := by apply div_nonneg <;> linarith
      have h4 : (mach - 0.9) / 0.2 ≤ 1 := by rw [div_le_iff₀ (by norm_num)]; linarith
      rw [min_eq_right h4, max_eq_right h3]; ring
    · rename_i h2
      have h4 : 1 ≤ (mach - 0.9) / 0.2 := by rw [le_div_iff₀ (by norm_num)]; linarith
      rw [min_eq_left h4, max_eq_right (by norm_num)]; ring

/-- **C43.** The compressibility correction is continuous in the Mach number, for smooth and rough surfaces. -/
theorem correction_continuous (smooth : Bool) : Continuous fun m => correction m smooth := by
  have h : (fun m => correction m smooth) = fun m => (1 - blend m) * subsonicCorrection m smooth +
      blend m * (1 / (1 + 0.15 * m ^ 2) ^ (0.58 : ℝ)) := by
    funext m; rw [correction_blend, rough_supersonic]
  rw [h]
  have hb : Continuous blend := by unfold blend; fun_prop
  have hs : Continuous fun m => subsonicCorrection m smooth := by
    unfold subsonicCorrection
    cases smooth
    · simp only [Bool.false_eq_true, if_false]; fun_prop
    · simp only [if_true]; fun_prop
  have hp : Continuous fun m : ℝ => (1 + 0.15 * m ^ 2) ^ (0.58 : ℝ) :=
    Continuous.rpow_const (by fun_prop) (fun x => Or.inr (by norm_num))
  have hq : Continuous fun m : ℝ => 1 / (1 + 0.15 * m ^ 2) ^ (0.58 : ℝ) :=
    continuous_const.div hp (fun x => by positivity)
  exact ((continuous_const.sub hb).mul hs).add (hb.mul hq)

/-- **C43.** The correction lies in (0, 1]; there is none exactly at Mach 0. -/
theorem correction_range (m : ℝ) (h : 0 ≤ m) (smooth : Bool) :
    0 < correction m smooth ∧ correction m smooth ≤ 1 ∧ (correction m smooth = 1 ↔ m = 0) := by
  have hx : 0 ≤ m ^ 2 := by positivity
  have hsup : 0 < supersonicCorrection m smooth ∧ (0 < m → supersonicCorrection m smooth < 1) := by
    rw [rough_supersonic]
    refine ⟨by positivity, ?_⟩
    intro hm
    rw [div_lt_one (by positivity)]
    exact Real.one_lt_rpow (by nlinarith) (by norm_num)
  have hsub : (m < 1.1 → 0 < subsonicCorrection m smooth) ∧ (0 < m → subsonicCorrection m smooth < 1) ∧
      (m = 0 → subsonicCorrection m smooth = 1) := by
    unfold subsonicCorrection
    cases smooth
    · simp only [Bool.false_eq_true, if_false]
      refine ⟨fun h1 => by nlinarith, fun h1 => by nlinarith, fun h1 => by rw [h1]; norm_num⟩
    · simp only [if_true]
      refine ⟨fun h1 => by nlinarith, fun h1 => by nlinarith, fun h1 => by rw [h1]; norm_num⟩
  have key : 0 < correction m smooth ∧ (0 < m → correction m smooth < 1) ∧ (m = 0 → correction m smooth = 1) := by
    unfold correction
    split
    · rename_i h1
      exact ⟨hsub.1 (by linarith), hsub.2⟩
    · rename_i h1
      have hm : 0 < m := by linarith
      split
      · rename_i h2
        have a := hsub.1 h2
        have b := hsub.2.1 hm
        have c := hsup.1
        have d := hsup.2 hm
        have h3 : 0 ≤ (m - 0.9) / 0.2 := by apply div_nonneg <;> linarith
        have h4 : (m - 0.9) / 0.2 < 1 := by rw [div_lt_iff₀ (by norm_num)]; linarith
        have e : subsonicCorrection m smooth + (supersonicCorrection m smooth - subsonicCorrection m smooth) * (m - 0.9) / 0.2 =
            (1 - (m - 0.9) / 0.2) * subsonicCorrection m smooth + (m - 0.9) / 0.2 * supersonicCorrection m smooth := by ring
        rw [e]
        set w := (m - 0.9) / 0.2
        refine ⟨?_, fun _ => ?_, fun h0 => absurd h0 hm.ne'⟩
        · have := mul_pos (by linarith : 0 < 1 - w) a
          have := mul_nonneg h3 c.le
          linarith
        · have := mul_lt_mul_of_pos_left b (by linarith : 0 < 1 - w)
          have := mul_le_mul_of_nonneg_left d.le h3
          linarith
      · exact ⟨hsup.1, fun _ => hsup.2 hm, fun h0 => absurd h0 hm.ne'⟩
  refine ⟨key.1, ?_, ?_⟩
  · rcases h.lt_or_eq with h1 | h1
    · exact (key.2.1 h1).le
    · exact (key.2.2 h1.symm).le
  · constructor
    · intro he
      by_contra hm
      exact absurd he (key.2.1 (lt_of_le_of_ne h (Ne.symm hm))).ne
    · exact key.2.2

theorem log_1e4 : 9 < Real.log 1e4 ∧ Real.log 1e4 < 9.211 := by
  have h10 : Real.log 1e4 = 4 * Real.log 10 := by
    rw [show (1e4 : ℝ) = 10 ^ (4 : ℕ) by norm_num, Real.log_pow]; norm_num
  have h1 : (59 : ℕ) * Real.log 10 < (196 : ℕ) * Real.log 2 := by
    rw [← Real.log_pow, ← Real.log_pow]
    exact Real.log_lt_log (by positivity) (by norm_num)
  have h2 : (33 : ℕ) * Real.log 2 < (10 : ℕ) * Real.log 10 := by
    rw [← Real.log_pow, ← Real.log_pow]
    exact Real.log_lt_log (by positivity) (by norm_num)
  have a := Real.log_two_lt_d9
  have b := Real.log_two_gt_d9
  rw [h10]
  push_cast at h1 h2
  constructor <;> linarith

theorem transitional_pos (re : ℝ) (h : 5e5 ≤ re) : 0 < 1 / (1.5 * Real.log re - 5.6) ^ 2 - 1700 / re := by
  have hre : 0 < re := by linarith
  set s := Real.sqrt re with hs
  have hss : s * s = re := Real.mul_self_sqrt hre.le
  have hs7 : 707 ≤ s := by
    rw [hs]; apply Real.le_sqrt_of_sq_le; linarith
  have hlog : Real.log re = 2 * Real.log s := by
    rw [← hss, Real.log_mul (by positivity) (by positivity)]; ring
  have h7 : Real.log 707 < 7 := by
    rw [Real.log_lt_iff_lt_exp (by norm_num)]
    have := Real.exp_one_gt_d9
    have h2 : Real.exp 7 = Real.exp 1 ^ 7 := by rw [← Real.exp_nat_mul]; norm_num
    rw [h2]
    calc (707 : ℝ) < 2.7 ^ 7 := by norm_num
      _ ≤ _ := pow_le_pow_left₀ (by norm_num) (by linarith) 7
  have h8 : Real.log s ≤ s / 707 - 1 + Real.log 707 := by
    have := Real.log_le_sub_one_of_pos (x := s / 707) (by positivity)
    rw [Real.log_div (by positivity) (by norm_num)] at this
    linarith
  have h9 : 9 < Real.log re := lt_trans log_1e4.1 (Real.log_lt_log (by norm_num) (by linarith))
  set t := 1.5 * Real.log re - 5.6 with ht
  have ht0 : 0 < t := by linarith
  have ht1 : t < 3 * s / 707 + 12.4 := by rw [ht, hlog]; linarith
  have ht2 : 41.3 * t < s := by linarith
  rw [sub_pos, div_lt_div_iff₀ hre (by positivity), ← hss]
  nlinarith

/-- **C43.** Exactly the surfaces without roughness get the correction of smooth surfaces. -/
theorem friction_correction (re len mach roughness : ℝ) (turbulent : Bool) :
    (roughness = 0 → mach < 0.9 → skinFriction re len mach roughness turbulent = frictionBase re len roughness turbulent * (1 - 0.1 * mach ^ 2)) ∧
    (roughness ≠ 0 → mach < 0.9 → skinFriction re len mach roughness turbulent = frictionBase re len roughness turbulent * (1 - 0.12 * mach ^ 2)) ∧
    (1.1 ≤ mach → skinFriction re len mach roughness turbulent =
      frictionBase re len roughness turbulent * (1 / (1 + 0.15 * mach ^ 2) ^ (0.58 : ℝ))) := by
  refine ⟨fun h0 h => ?_, fun h0 h => ?_, fun h => ?_⟩
  · unfold skinFriction correction subsonicCorrection
    rw [if_pos h, if_pos (by simpa using h0)]; norm_num
  · unfold skinFriction correction subsonicCorrection
    rw [if_pos h, if_neg (by simpa using h0)]
  · unfold skinFriction correction
    rw [if_neg (by linarith), if_neg (by linarith), rough_supersonic]

/-- **C43.** The friction coefficient of a component of positive length is positive, in every regime. -/
theorem friction_pos (re len mach roughness : ℝ) (turbulent : Bool) (hl : 0 < len) (hr : 0 ≤ roughness) (hm : 0 ≤ mach)
    (hre : re ≤ 1e100) : 0 < skinFriction re len mach roughness turbulent := by
  unfold skinFriction
  apply mul_pos _ (correction_range mach hm _).1
  unfold frictionBase
  generalize hc : (if roughness = 0 then (1e100 : ℝ) else 51 * (roughness / len) ^ (-1.039 : ℝ)) = c
  dsimp only
  by_cases h : re > c
  · rw [if_pos h]
    by_cases hz : roughness = 0
    · rw [if_pos hz] at hc; linarith
    · have : 0 < roughness := lt_of_le_of_ne hr (Ne.symm hz)
      positivity
  · rw [if_neg h]
    have hlog : ∀ x : ℝ, 1e4 ≤ x → 0 < 1.5 * Real.log x - 5.6 := by
      intro x hx
      have := Real.log_le_log (by norm_num) hx
      have := log_1e4.1
      linarith
    split
    · split
      · norm_num
      · rename_i h
        have := hlog re (not_lt.1 h)
        positivity
    · split
      · norm_num
      · rename_i h
        split
        · have : 0 < re := by linarith
          positivity
        · rename_i h2
          exact transitional_pos re (not_lt.1 h2)

/-- **C84.** The friction coefficient is never negative, whatever the Reynolds number. -/
theorem friction_nonneg (re len mach roughness : ℝ) (turbulent : Bool) (hl : 0 < len) (hr : 0 ≤ roughness) (hm : 0 ≤ mach) :
    0 ≤ skinFriction re len mach roughness turbulent := by
  rcases le_or_gt re 1e100 with h | h
  · exact (friction_pos re len mach roughness turbulent hl hr hm h).le
  · have h1 : ¬ re < 1e4 := by norm_num at h ⊢; linarith
    have h2 : ¬ re < 5e5 := by norm_num at h ⊢; linarith
    unfold skinFriction
    refine mul_nonneg ?_ (correction_range mach hm _).1.le
    unfold frictionBase
    generalize (if roughness = 0 then (1e100 : ℝ) else 51 * (roughness / len) ^ (-1.039 : ℝ)) = c
    dsimp only
    rw [if_neg h1, if_neg h1, if_neg h2]
    split
    · positivity
    · split
      · positivity
      · exact (transitional_pos re (not_lt.1 h2)).le

/-- **C43** violated: the friction coefficient of a smooth surface jumps with the Reynolds number, at 1e4 (turbulent) and 5e5
(laminar to transitional). -/
theorem friction_continuous_violated (len : ℝ) :
    ¬ ContinuousAt (fun re => frictionBase re len 0 true) 1e4 ∧ ¬ ContinuousAt (fun re => frictionBase re len 0 false) 5e5 := by
  constructor
  · refine jump_of_left (g := fun _ => 0.0148) (b := 0) (by norm_num) continuousAt_const ?_ ?_
    · intro x _ h1
      simp only [frictionBase, if_true]
      rw [if_neg (by linarith), if_pos h1]
    · simp only [frictionBase, if_true]
      rw [if_neg (by norm_num), if_neg (lt_irrefl _)]
      have h := log_1e4
      have ht : 0 < 1.5 * Real.log 1e4 - 5.6 := by linarith
      have ht2 : 1.5 * Real.log 1e4 - 5.6 < 8.2165 := by linarith
      apply ne_of_lt
      rw [lt_div_iff₀ (by positivity)]
      nlinarith
  · refine jump_of_left (g := fun x => 1.328 / Real.sqrt x) (b := 1e4) (by norm_num) ?_ ?_ ?_
    · exact continuousAt_const.div Real.continuous_sqrt.continuousAt (Real.sqrt_ne_zero'.2 (by norm_num))
    · intro x h0 h1
      simp only [frictionBase, if_true, Bool.false_eq_true, if_false]
      rw [if_neg (by linarith), if_neg (by linarith), if_pos h1]
    · simp only [frictionBase, if_true, Bool.false_eq_true, if_false]
      rw [if_neg (by norm_num), if_neg (by norm_num), if_neg (lt_irrefl _)]
      have h1 : (189 : ℕ) * Real.log 2 < (10 : ℕ) * Real.log 5e5 := by
        rw [← Real.log_pow, ← Real.log_pow]
        exact Real.log_lt_log (by positivity) (by norm_num)
      have b := Real.log_two_gt_d9
      push_cast at h1
      have ht : 14.05 < 1.5 * Real.log 5e5 - 5.6 := by linarith
      have hs : Real.sqrt 5e5 < 708 := by
        rw [Real.sqrt_lt' (by norm_num)]; norm_num
      have hs0 : 0 < Real.sqrt 5e5 := Real.sqrt_pos.2 (by norm_num)
      apply ne_of_gt
      have h2 : 1.328 / Real.sqrt 5e5 > 0.00187 := by
        rw [gt_iff_lt, lt_div_iff₀ hs0]; linarith
      have h3 : 1 / (1.5 * Real.log 5e5 - 5.6) ^ 2 < 0.00507 := by
        rw [div_lt_iff₀ (by positivity)]; nlinarith
      have h4 : (1700 : ℝ) / 5e5 = 0.0034 := by norm_num
      rw [h4]
      linarith

/-- **C43, part.** The laminar formula does join at Reynolds number 1e4. -/
theorem laminar_joint (len : ℝ) : frictionBase 1e4 len 0 false = 0.01328 := by
  simp only [frictionBase, if_true, Bool.false_eq_true, if_false]
  rw [if_neg (by norm_num), if_neg (lt_irrefl _), if_pos (by norm_num)]
  rw [show (1e4 : ℝ) = 100 * 100 by norm_num, Real.sqrt_mul_self (by norm_num)]
  norm_num

/-! ## Axial force factor -/

/-- the angle in degrees -/
noncomputable def deg (aoa : ℝ) : ℝ := |aoa| * 180 / Real.pi

/-- **C43.** The factor between drag and axial force is 1 at zero angle of attack, at most 1.31, and positive at *every* angle. -/
theorem dragToAxial_range (aoa : ℝ) :
    0 < dragToAxial aoa ∧ dragToAxial 0 = 1 ∧ dragToAxial (-aoa) = dragToAxial aoa ∧
    (deg aoa ≤ 90 → dragToAxial aoa ≤ 1.31) := by
  have ha : 0 ≤ |aoa| * 180 / Real.pi := by positivity
  have hdeg : deg aoa = |aoa| * 180 / Real.pi := rfl
  refine ⟨?_, ?_, ?_, ?_⟩
  · unfold dragToAxial
    dsimp only
    set a := |aoa| * 180 / Real.pi
    split
    · rename_i h
      have : 0 ≤ a ^ 2 * (0.003114164 - 0.000122124 * a) := mul_nonneg (by positivity) (by linarith)
      nlinarith
    · rename_i h
      have h17 : 17 < a := not_le.1 h
      have e : 0.000006684 * a ^ 3 - 0.0010727204 * a ^ 2 + 0.030677323 * a + 1.055660807 =
          (a - 90) ^ 2 * (0.000006684 * (a - 90) + 0.0007319596) + 0.000008851 * (a - 90) + 0.000220637 := by ring
      rw [e]
      have h1 : 0.00024 ≤ 0.000006684 * (a - 90) + 0.0007319596 := by linarith
      have h2 := mul_le_mul_of_nonneg_left h1 (sq_nonneg (a - 90))
      nlinarith [sq_nonneg (a - 90 + 0.02)]
  · unfold dragToAxial; norm_num
  · unfold dragToAxial; rw [abs_neg]
  · intro h90
    rw [hdeg] at h90
    unfold dragToAxial
    dsimp only
    set a := |aoa| * 180 / Real.pi
    split
    · rename_i h
      nlinarith [mul_nonneg ha (sq_nonneg (a - 17)), sq_nonneg (a - 17), mul_nonneg ha (sub_nonneg.2 h)]
    · rename_i h
      have h17 : 17 < a := not_le.1 h
      nlinarith [mul_nonneg (sub_nonneg.2 h17.le) (sub_nonneg.2 h90), mul_nonneg (mul_nonneg (sub_nonneg.2 h17.le) (sub_nonneg.2 h90)) ha]

/-- **C43** violated, at 17 degrees the two cubics differ (by 6e-7). -/
theorem axial_factor_violated : ¬ ContinuousAt dragToAxial (17 * Real.pi / 180) := by
  have hpi := Real.pi_pos
  have hd : ∀ x : ℝ, 0 ≤ x → |x| * 180 / Real.pi = x * 180 / Real.pi := fun x hx => by rw [abs_of_nonneg hx]
  refine jump_of_right (g := fun x => 0.000006684 * (x * 180 / Real.pi) ^ 3 - 0.0010727204 * (x * 180 / Real.pi) ^ 2 +
    0.030677323 * (x * 180 / Real.pi) + 1.055660807) (b := Real.pi) (by linarith) (by fun_prop) ?_ ?_
  · intro x h0 _
    have hx : 0 ≤ x := by linarith [mul_pos (by norm_num : (0:ℝ) < 17) hpi]
    unfold dragToAxial
    dsimp only
    rw [hd x hx, if_neg]
    rw [not_le, lt_div_iff₀ hpi]; linarith
  · unfold dragToAxial
    dsimp only
    rw [hd _ (by positivity)]
    have : 17 * Real.pi / 180 * 180 / Real.pi = 17 := by field_simp
    rw [this, if_pos le_rfl]
    norm_num

/-! ## Compressibility parameter -/

/-- **C43.** `getBeta` fails exactly in the transonic gap for Mach numbers ≥ 0; otherwise `beta ^ 2 = |M ^ 2 - 1|`. -/
theorem getBeta_spec (m : ℝ) (h : 0 ≤ m) :
    (getBeta m = .error .runtimeError ↔ 0.9 < m ∧ m < 1.1) ∧
    (¬ (0.9 < m ∧ m < 1.1) → ∃ b, getBeta m = .ok b ∧ 0 < b ∧ b ^ 2 = |m ^ 2 - 1|) := by
  unfold getBeta
  by_cases h1 : m ≤ 0.9
  · have h2 : ¬ (1 - m ^ 2 < 0) := by nlinarith
    have h3 : 0 < 1 - m ^ 2 := by nlinarith
    rw [if_pos h1, if_neg h2]
    refine ⟨⟨by simp, fun h' => absurd h'.1 (not_lt.2 h1)⟩, fun _ => ⟨_, rfl, Real.sqrt_pos.2 h3, ?_⟩⟩
    rw [Real.sq_sqrt h3.le, abs_of_neg (by linarith)]; ring
  · rw [if_neg h1]
    by_cases h2 : m ≥ 1.1
    · have h3 : 0 < m ^ 2 - 1 := by nlinarith
      rw [if_pos h2]
      refine ⟨⟨by simp, fun h' => absurd h'.2 (not_lt.2 h2)⟩, fun _ => ⟨_, rfl, Real.sqrt_pos.2 h3, ?_⟩⟩
      rw [Real.sq_sqrt h3.le, abs_of_pos h3]
    · rw [if_neg h2]
      exact ⟨⟨fun _ => ⟨not_le.1 h1, not_le.1 h2⟩, fun _ => rfl⟩, fun h' => absurd ⟨not_le.1 h1, not_le.1 h2⟩ h'⟩

/-! ## Witnesses -/

example : baseDragCd 0.5 = 0.1525 := by unfold baseDragCd; norm_num
example : bluntCd 2 < 1.564 := (crossFlow_range 2 (by norm_num)).2.2.2.2
/-- hypotheses of `friction_pos` at a realistic flight condition: Re = 3e6, 2 m long, Mach 0.8, 20 micrometres roughness -/
example : 0 < skinFriction 3e6 2 0.8 0.00002 true :=
  friction_pos _ _ _ _ _ (by norm_num) (by norm_num) (by norm_num) (by norm_num)
example : ∃ b, getBeta 2 = .ok b ∧ 0 < b ∧ b ^ 2 = |(2:ℝ) ^ 2 - 1| := (getBeta_spec 2 (by norm_num)).2 (by norm_num)

end Mapleaf.Rocket
