import Verif.Motion.TurnBodyProps
import Verif.Motion.BodyAdaptProps
import Mathlib.Analysis.Convex.SpecificFunctions.Deriv
import Mathlib.Analysis.SpecialFunctions.Trigonometric.Bounds

/-! # C105: rotations and their rotation vectors, as far as the stages of adaptive methods need them -/

namespace Mapleaf.Motion.Turn
open Set Mapleaf.Motion.Lim Mapleaf.Motion.RK Mapleaf.Motion.Body Mapleaf
open NormedSpace (exp)

attribute [local instance] vNorm vSpace

theorem pow_near {A : Type} [NormedRing A] [NormOneClass A] (p q : A) (hp : ‖p‖ ≤ 1) (hq : ‖q‖ ≤ 1) (n : ℕ) : ‖p ^ n - q ^ n‖ ≤ n * ‖p - q‖ := by
  induction n with
  | zero => simp
  | succ n ih =>
    have e : p ^ (n + 1) - q ^ (n + 1) = p ^ n * (p - q) + (p ^ n - q ^ n) * q := by
      rw [pow_succ, pow_succ, mul_sub, sub_mul]; abel
    rw [e]
    have h1 : ‖p ^ n * (p - q)‖ ≤ 1 * ‖p - q‖ := (norm_mul_le _ _).trans (mul_le_mul_of_nonneg_right ((norm_pow_le _ _).trans (pow_le_one₀ (norm_nonneg _) hp)) (norm_nonneg _))
    have h2 : ‖(p ^ n - q ^ n) * q‖ ≤ n * ‖p - q‖ * 1 := (norm_mul_le _ _).trans (mul_le_mul ih hq (norm_nonneg _) (by positivity))
    have := norm_add_le (p ^ n * (p - q)) ((p ^ n - q ^ n) * q)
    push_cast
    linarith

theorem exp_half_pow (u : V3 ℝ) (n : ℕ) (hn : n ≠ 0) : exp (half u) = exp (half ((1 / n : ℝ) • u)) ^ n := by
  letI : NormedAlgebra ℚ (Quaternion ℝ) := NormedAlgebra.restrictScalars ℚ ℝ (Quaternion ℝ)
  rw [← NormedSpace.exp_nsmul, half_smul, ← Nat.cast_smul_eq_nsmul ℝ, smul_smul]
  rw [mul_one_div_cancel (by exact_mod_cast hn), one_smul]

/-- The rotation depends on the rotation vector in a Lipschitz way. -/
theorem exp_half_lip (u v : V3 ℝ) : ‖exp (half u) - exp (half v)‖ ≤ ‖u - v‖ := by
  obtain ⟨η, hη, key⟩ := exp_lip (Quaternion ℝ)
  obtain ⟨n, hn⟩ := exists_nat_gt ((‖u‖ + ‖v‖) / η)
  have hn0 : (0 : ℝ) < n := lt_of_le_of_lt (by positivity) hn
  have hne : n ≠ 0 := by rintro rfl; simp at hn0
  have hb : ∀ w : V3 ℝ, ‖w‖ ≤ ‖u‖ + ‖v‖ → ‖half ((1 / n : ℝ) • w)‖ ≤ η := by
    intro w hw
    rw [norm_half, norm_smul, Real.norm_eq_abs, abs_of_pos (by positivity)]
    rw [div_lt_iff₀ hη] at hn
    have h2 : 1 / (n : ℝ) * ‖w‖ ≤ η := by
      rw [one_div, inv_mul_le_iff₀ hn0]
      linarith
    have h3 : 0 ≤ 1 / (n : ℝ) * ‖w‖ := by positivity
    linarith
  have h1 := key _ _ (hb u (by linarith [norm_nonneg v])) (hb v (by linarith [norm_nonneg u]))
  rw [exp_half_pow u n hne, exp_half_pow v n hne]
  refine (pow_near _ _ (norm_exp_half _).le (norm_exp_half _).le n).trans ?_
  rw [← half_sub, norm_half, ← smul_sub, norm_smul, Real.norm_eq_abs, abs_of_pos (by positivity)] at h1
  calc (n : ℝ) * ‖exp (half ((1 / n : ℝ) • u)) - exp (half ((1 / n : ℝ) • v))‖ ≤ n * (2 * (1 / n * ‖u - v‖ / 2)) := mul_le_mul_of_nonneg_left h1 hn0.le
    _ = ‖u - v‖ := by field_simp

/-- Every rotation but the full turn is the one of a rotation vector of less than a full turn. -/
theorem turn_log {q : Quat ℝ} (hq : Quat.Unit q) (hne : q ≠ ⟨-1, 0, 0, 0⟩) : ∃ w : V3 ℝ, w.length < 2 * Real.pi ∧ Quat.ofRotationVector w = q := by
  have hpi := Real.pi_pos
  by_cases h1 : q = ⟨1, 0, 0, 0⟩
  · exact ⟨0, by rw [(V3.length_zero_iff 0).2 rfl]; linarith, by rw [turn_zero, h1]⟩
  · have hv : (⟨q.q1, q.q2, q.q3⟩ : V3 ℝ) ≠ 0 := fun h0 => ((vec_zero hq).1 h0).elim h1 hne
    set v : V3 ℝ := ⟨q.q1, q.q2, q.q3⟩ with hvdef
    have hl : 0 < v.length := lt_of_le_of_ne (V3.length_nonneg v) (fun h => hv ((V3.length_zero_iff v).1 h.symm))
    have hlen : v.length = √(1 - q.q0 ^ 2) := by
      unfold V3.length
      congr 1
      have := hq.vec
      simp only [hvdef]
      linarith
    have hmem := hq.q0_mem
    have hq0 : q.q0 ≠ -1 := by
      intro h0
      rw [hlen, h0] at hl
      norm_num at hl
    have harc : Real.arccos q.q0 < Real.pi := lt_of_le_of_ne (Real.arccos_le_pi _) (fun h => hq0 (le_antisymm (Real.arccos_eq_pi.1 h) hmem.1))
    refine ⟨(2 * Real.arccos q.q0 / v.length) • v, ?_, ?_⟩
    · rw [V3.length_smul, abs_of_nonneg (div_nonneg (by have := Real.arccos_nonneg q.q0; linarith) hl.le), div_mul_cancel₀ _ hl.ne']
      linarith
    · rw [turn_axis hv, div_mul_cancel₀ _ hl.ne']
      unfold Quat.axisAngle V3.normalize
      rw [if_pos hl, mul_div_cancel_left₀ _ (two_ne_zero), Real.cos_arccos hmem.1 hmem.2, Real.sin_arccos, ← hlen]
      apply Quat.ext4
      · rfl
      all_goals
        show v.length * (_ / v.length) = _
        exact mul_div_cancel₀ _ hl.ne'

/-! ## Rotation vectors from rotations -/

theorem exp_half_parts (u : V3 ℝ) : (exp (half u)).re = Real.cos (‖u‖ / 2) ∧
    ‖exp (half u) - ((exp (half u)).re : Quaternion ℝ)‖ = |Real.sin (‖u‖ / 2)| := by
  have h := Quaternion.exp_of_re_eq_zero _ (half_re u)
  rw [norm_half] at h
  have hre : (exp (half u)).re = Real.cos (‖u‖ / 2) := by
    rw [h]
    simp [half_re]
  refine ⟨hre, ?_⟩
  rw [hre, h, add_sub_cancel_left, norm_smul, norm_half, Real.norm_eq_abs, abs_div, abs_of_nonneg (by positivity : 0 ≤ ‖u‖ / 2)]
  by_cases hu : ‖u‖ = 0
  · simp [hu]
  · field_simp

theorem re_norm_le (q : Quaternion ℝ) : |q.re| ≤ ‖q‖ := by
  have h1 := Quaternion.normSq_eq_norm_mul_self q
  rw [Quaternion.normSq_def'] at h1
  apply abs_le_of_sq_le_sq _ (norm_nonneg _)
  nlinarith [sq_nonneg q.imI, sq_nonneg q.imJ, sq_nonneg q.imK]

theorem im_norm_le (q : Quaternion ℝ) : ‖q - (q.re : Quaternion ℝ)‖ ≤ ‖q‖ := by
  have h1 := Quaternion.normSq_eq_norm_mul_self q
  have h2 := Quaternion.normSq_eq_norm_mul_self (q - (q.re : Quaternion ℝ))
  rw [Quaternion.normSq_def'] at h1 h2
  simp only [Quaternion.re_sub, Quaternion.re_coe, sub_self, Quaternion.imI_sub, Quaternion.imI_coe, sub_zero, Quaternion.imJ_sub, Quaternion.imJ_coe, Quaternion.imK_sub,
    Quaternion.imK_coe] at h2
  apply abs_le_of_sq_le_sq' _ (norm_nonneg _) |>.2
  nlinarith [sq_nonneg q.re]

set_option maxHeartbeats 1000000 in
/-- Neighbouring rotations have neighbouring rotation vectors, away from full turns. -/
theorem log_lip {Ω : ℝ} (h0 : 0 < Ω) (h1 : Ω < 2 * Real.pi) : ∃ M : ℝ, 0 ≤ M ∧ ∀ u v : V3 ℝ, ‖u‖ ≤ Ω → ‖v‖ ≤ Ω → ‖u - v‖ ≤ M * ‖exp (half u) - exp (half v)‖ := by
  have hpi := Real.pi_pos
  have hpi4 := Real.pi_le_four
  -- a lower bound of `sin x / x`
  obtain ⟨m, hm, hsin⟩ : ∃ m : ℝ, 0 < m ∧ ∀ x, 0 ≤ x → x ≤ Ω / 2 → m * x ≤ Real.sin x := by
    have hs : 0 < Real.sin (Ω / 2) := Real.sin_pos_of_pos_of_lt_pi (by linarith) (by linarith)
    refine ⟨Real.sin (Ω / 2) / (Ω / 2), by positivity, fun x hx0 hx => ?_⟩
    have hc := strictConcaveOn_sin_Icc.concaveOn
    have m0 : (0 : ℝ) ∈ Icc 0 Real.pi := ⟨le_rfl, hpi.le⟩
    have m1 : Ω / 2 ∈ Icc 0 Real.pi := ⟨by linarith, by linarith⟩
    have w0 : 0 ≤ 1 - x / (Ω / 2) := by rw [sub_nonneg, div_le_one (by positivity)]; exact hx
    have w1 : 0 ≤ x / (Ω / 2) := by positivity
    have := hc.2 m0 m1 w0 w1 (by ring)
    simp only [smul_eq_mul, mul_zero, Real.sin_zero, zero_add] at this
    rw [div_mul_cancel₀ _ (by positivity)] at this
    calc _ = x / (Ω / 2) * Real.sin (Ω / 2) := by ring
      _ ≤ _ := this
  refine ⟨12 / m, by positivity, fun u v hu hv => ?_⟩
  set δ := ‖exp (half u) - exp (half v)‖ with hδ
  set α := ‖u‖ / 2 with hα
  set β := ‖v‖ / 2 with hβ
  have hα0 : 0 ≤ α := by positivity
  have hβ0 : 0 ≤ β := by positivity
  have hαΩ : α ≤ Ω / 2 := by rw [hα]; linarith
  have hβΩ : β ≤ Ω / 2 := by rw [hβ]; linarith
  have hsα : 0 ≤ Real.sin α := Real.sin_nonneg_of_nonneg_of_le_pi hα0 (by linarith)
  have hsβ : 0 ≤ Real.sin β := Real.sin_nonneg_of_nonneg_of_le_pi hβ0 (by linarith)
  obtain ⟨ru, iu⟩ := exp_half_parts u
  obtain ⟨rv, iv⟩ := exp_half_parts v
  have dc : |Real.cos α - Real.cos β| ≤ δ := by
    rw [← ru, ← rv]
    exact re_norm_le (exp (half u) - exp (half v))
  have im : ‖(exp (half u) - ((exp (half u)).re : Quaternion ℝ)) - (exp (half v) - ((exp (half v)).re : Quaternion ℝ))‖ ≤ δ := by
    have := im_norm_le (exp (half u) - exp (half v))
    refine le_trans (le_of_eq ?_) this
    congr 1
    rw [Quaternion.re_sub, Quaternion.coe_sub]
    abel
  have ds : |Real.sin α - Real.sin β| ≤ δ := by
    have := abs_norm_sub_norm_le (exp (half u) - ((exp (half u)).re : Quaternion ℝ)) (exp (half v) - ((exp (half v)).re : Quaternion ℝ))
    rw [iu, iv, abs_of_nonneg hsα, abs_of_nonneg hsβ] at this
    exact this.trans im
  have dαβ : |α - β| ≤ 4 * δ := by
    have e1 := Real.mul_abs_le_abs_sin (x := (α - β) / 2) (by
      rw [abs_div, abs_two, div_le_div_iff_of_pos_right two_pos]
      exact abs_le.2 ⟨by linarith, by linarith⟩)
    have e2 : (2 * Real.sin ((α - β) / 2)) ^ 2 = (Real.cos α - Real.cos β) ^ 2 + (Real.sin α - Real.sin β) ^ 2 := by
      have c1 := Real.cos_sub α β
      have c2 := Real.cos_sq' ((α - β) / 2)
      have c3 := Real.cos_two_mul ((α - β) / 2)
      rw [show 2 * ((α - β) / 2) = α - β by ring] at c3
      have s1 := Real.sin_sq_add_cos_sq α
      have s2 := Real.sin_sq_add_cos_sq β
      nlinarith
    have e3 : |2 * Real.sin ((α - β) / 2)| ≤ 2 * δ := by
      apply abs_le_of_sq_le_sq _ (by positivity)
      rw [e2]
      have f1 := sq_le_sq' (by linarith [neg_abs_le (Real.cos α - Real.cos β)]) ((le_abs_self _).trans dc)
      have f2 := sq_le_sq' (by linarith [neg_abs_le (Real.sin α - Real.sin β)]) ((le_abs_self _).trans ds)
      nlinarith [sq_nonneg δ]
    rw [abs_mul, abs_two] at e3
    rw [abs_div, abs_two] at e1
    have e4 : |α - β| * (1 / Real.pi) ≤ δ := by
      calc |α - β| * (1 / Real.pi) = 2 / Real.pi * (|α - β| / 2) := by ring
        _ ≤ _ := e1
        _ ≤ δ := by linarith
    rw [mul_one_div, div_le_iff₀ hpi] at e4
    have : 0 ≤ δ := norm_nonneg _
    nlinarith
  -- the vectors
  have hsu : (exp (half u) - ((exp (half u)).re : Quaternion ℝ)) = (Real.sin α / α) • half u := by
    have h := Quaternion.exp_of_re_eq_zero _ (half_re u)
    rw [norm_half] at h
    rw [ru, h, add_sub_cancel_left]
  have hsv : (exp (half v) - ((exp (half v)).re : Quaternion ℝ)) = (Real.sin β / β) • half v := by
    have h := Quaternion.exp_of_re_eq_zero _ (half_re v)
    rw [norm_half] at h
    rw [rv, h, add_sub_cancel_left]
  have hδ0 : 0 ≤ δ := norm_nonneg _
  by_cases hα' : α = 0
  · have hu0 : u = 0 := by
      have : ‖u‖ = 0 := by rw [hα] at hα'; linarith
      exact norm_eq_zero.1 this
    have h2 : ‖v‖ ≤ 8 * δ := by
      rw [hα', zero_sub, abs_neg, abs_of_nonneg hβ0, hβ] at dαβ
      linarith
    have hm1 : m ≤ 1 := by
      have h3 := hsin (Ω / 2) (by positivity) le_rfl
      have h4 := Real.sin_le (by positivity : 0 ≤ Ω / 2)
      exact le_of_mul_le_mul_right ((h3.trans h4).trans (one_mul _).ge) (by positivity : 0 < Ω / 2)
    rw [hu0, zero_sub, norm_neg]
    refine h2.trans (mul_le_mul_of_nonneg_right ?_ hδ0)
    rw [le_div_iff₀ hm]
    linarith
  · have hαp : 0 < α := lt_of_le_of_ne hα0 (Ne.symm hα')
    have hS : m ≤ Real.sin α / α := by rw [le_div_iff₀ hαp]; exact hsin α hα0 hαΩ
    have hS1 : Real.sin α / α ≤ 1 := by rw [div_le_one hαp]; exact Real.sin_le hα0
    have e1 : (Real.sin α / α) • (half u - half v) = ((Real.sin α / α) • half u - (Real.sin β / β) • half v) - (Real.sin α / α - Real.sin β / β) • half v := by
      rw [smul_sub, sub_smul]; abel
    have e2 : ‖(Real.sin α / α - Real.sin β / β) • half v‖ ≤ 5 * δ := by
      rw [norm_smul, norm_half, ← hβ, Real.norm_eq_abs, ← abs_of_nonneg hβ0, ← abs_mul, abs_of_nonneg hβ0]
      have e3 : (Real.sin α / α - Real.sin β / β) * β = Real.sin α / α * (β - α) + (Real.sin α - Real.sin β) := by
        by_cases hb : β = 0
        · rw [hb]; simp; field_simp; ring
        · field_simp; ring
      rw [e3]
      refine (abs_add_le _ _).trans ?_
      rw [abs_mul, abs_of_nonneg (hm.le.trans hS), abs_sub_comm β α]
      have := mul_le_mul hS1 dαβ (abs_nonneg _) zero_le_one
      linarith
    have e3 : ‖(Real.sin α / α) • (half u - half v)‖ ≤ 6 * δ := by
      rw [e1]
      refine (norm_sub_le _ _).trans ?_
      rw [← hsu, ← hsv]
      linarith
    rw [norm_smul, ← half_sub, norm_half, Real.norm_eq_abs, abs_of_nonneg (hm.le.trans hS)] at e3
    have e4 := mul_le_mul_of_nonneg_right hS (by positivity : 0 ≤ ‖u - v‖ / 2)
    rw [div_mul_eq_mul_div, le_div_iff₀ hm]
    linarith

/-! ## The stages -/

/-- The rotation of a stage, near the one by `∑ wⱼ` times a vector when the angular velocities are near it. -/
theorem rots_near (W : V3 ℝ) (σ : ℝ) (ws : List ℝ) (ks : List RBDeriv) (hl : ws.length ≤ ks.length) (hk : ∀ j < ws.length, ‖(ks.getD j 0).angVel - W‖ ≤ σ) :
    ‖Quat.toH (rots ws ks) - exp (half (ws.sum • W))‖ ≤ (ws.map (|·|)).sum * σ := by
  letI : NormedAlgebra ℚ (Quaternion ℝ) := NormedAlgebra.restrictScalars ℚ ℝ (Quaternion ℝ)
  induction ws generalizing ks with
  | nil =>
    have : half ((0 : ℝ) • W) = 0 := by rw [half_smul, zero_smul]
    simp only [rots, List.sum_nil, this, NormedSpace.exp_zero, List.map_nil, zero_mul]
    have : Quat.toH ⟨1, 0, 0, 0⟩ = 1 := by ext <;> simp <;> rfl
    rw [this, sub_self, norm_zero]
  | cons w ws ih =>
    cases ks with
    | nil => simp at hl
    | cons k ks =>
      have h1 := ih ks (by simpa using hl) (fun j hj => by have := hk (j + 1) (by simpa using hj); simpa using this)
      have h2 : ‖k.angVel - W‖ ≤ σ := by simpa using hk 0 (by simp)
      have h3 := exp_half_lip (w • k.angVel) (w • W)
      rw [← smul_sub, norm_smul, Real.norm_eq_abs] at h3
      rw [rots, Quat.toH_mul, turn_exp, List.sum_cons, List.map_cons, List.sum_cons, add_comm w, add_smul, half_add,
        NormedSpace.exp_add_of_commute (by
          rw [half_smul, half_smul]
          exact ((Commute.refl (half W)).smul_left _).smul_right _)]
      have e : Quat.toH (rots ws ks) * exp (half (w • k.angVel)) - exp (half (ws.sum • W)) * exp (half (w • W)) =
          (Quat.toH (rots ws ks) - exp (half (ws.sum • W))) * exp (half (w • k.angVel)) + exp (half (ws.sum • W)) * (exp (half (w • k.angVel)) - exp (half (w • W))) := by
        rw [sub_mul, mul_sub]; abel
      rw [e]
      refine (norm_add_le _ _).trans ?_
      rw [norm_mul, norm_mul, norm_exp_half, norm_exp_half, mul_one, one_mul]
      have := mul_le_mul_of_nonneg_left h2 (abs_nonneg w)
      linarith

/-- The state of a stage is reached by a turn: about the rotation vector of `rots`, which is less than a full turn. -/
theorem stage_turn (ws : List ℝ) (ks : List RBDeriv) (hne : rots ws ks ≠ ⟨-1, 0, 0, 0⟩) : ∃ w : V3 ℝ, ‖w‖ < 2 * Real.pi ∧ Quat.toH (rots ws ks) = exp (half w) ∧
    ∀ (y : RBState) (dt : ℝ), enc (stg y dt ws ks) = advE (enc y) (dt • ((encD (wsum ws ks)).1, w)) := by
  obtain ⟨w, h1, h2⟩ := turn_log (rots_unit ws ks) hne
  refine ⟨w, h1, by rw [← h2, turn_exp], fun y dt => ?_⟩
  have h3 := (partTurn_short w h1 dt).1
  rw [h2] at h3
  unfold advE
  rw [show (dt • ((encD (wsum ws ks)).1, w) : Ch).2 = dt • w from rfl, ← turn_exp, ← h3, show (enc y).2 = Quat.toH y.ori from rfl, ← Quat.toH_mul]
  rfl

end Mapleaf.Motion.Turn
