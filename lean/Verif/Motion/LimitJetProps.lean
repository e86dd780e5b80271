import Mathlib.Analysis.Calculus.MeanValue
import Mathlib.Analysis.Calculus.Deriv.Pow
import Mathlib.Analysis.Calculus.ContDiff.Operations
import Mathlib.Topology.MetricSpace.Thickening

/-! # C93: Taylor's formula, uniform along a compact set -/

set_option maxSynthPendingDepth 3

namespace Mapleaf.Motion.Lim
open Set

section jets
variable {X Z : Type} [NormedAddCommGroup X] [NormedSpace ℝ X] [NormedAddCommGroup Z] [NormedSpace ℝ Z]

/-- A continuous function is bounded near a compact set. -/
theorem near_bounded {φ : X → Z} {U K : Set X} (hU : IsOpen U) (hφ : ContinuousOn φ U) (hK : IsCompact K) (hKU : K ⊆ U) :
    ∃ ρ M : ℝ, 0 < ρ ∧ 0 ≤ M ∧ ∀ p ∈ K, ∀ v : X, ‖v‖ ≤ ρ → p + v ∈ U ∧ ‖φ (p + v)‖ ≤ M := by
  obtain ⟨M, hM⟩ := hK.exists_bound_of_continuousOn (hφ.mono hKU)
  have hV : IsOpen (U ∩ φ ⁻¹' Metric.ball 0 (|M| + 1)) := hφ.isOpen_inter_preimage hU Metric.isOpen_ball
  have hKV : K ⊆ U ∩ φ ⁻¹' Metric.ball 0 (|M| + 1) := fun p hp => ⟨hKU hp, by
    rw [mem_preimage, mem_ball_zero_iff]
    linarith [hM p hp, le_abs_self M]⟩
  obtain ⟨ρ, hρ, hsub⟩ := hK.exists_cthickening_subset_open hV hKV
  refine ⟨ρ, |M| + 1, hρ, by positivity, fun p hp v hv => ?_⟩
  have hmem : p + v ∈ Metric.cthickening ρ K := by
    apply Metric.mem_cthickening_of_dist_le (p + v) p ρ K hp
    simpa [dist_eq_norm] using hv
  have := hsub hmem
  exact ⟨this.1, by have h := this.2; rw [mem_preimage, mem_ball_zero_iff] at h; exact h.le⟩

/-- the mean value inequality on `[0, 1]` -/
theorem unit_bound {φ φ' : ℝ → Z} {C : ℝ} (hC : 0 ≤ C) (hφ : ∀ s ∈ Icc (0 : ℝ) 1, HasDerivAt φ (φ' s) s) (hb : ∀ s ∈ Icc (0 : ℝ) 1, ‖φ' s‖ ≤ C)
    (h0 : φ 0 = 0) (s : ℝ) (hs : s ∈ Icc (0 : ℝ) 1) : ‖φ s‖ ≤ C := by
  have := norm_image_sub_le_of_norm_deriv_le_segment' (fun x hx => (hφ x hx).hasDerivWithinAt) (fun x hx => hb x (Ico_subset_Icc_self hx)) s hs
  rw [h0, sub_zero, sub_zero] at this
  nlinarith [hs.2]

/-- the derivatives of `G` -/
noncomputable def d2 (G : X → Z) : X → X →L[ℝ] X →L[ℝ] Z := fderiv ℝ (fderiv ℝ G)
noncomputable def d3 (G : X → Z) : X → X →L[ℝ] X →L[ℝ] X →L[ℝ] Z := fderiv ℝ (d2 G)
noncomputable def d4 (G : X → Z) : X → X →L[ℝ] X →L[ℝ] X →L[ℝ] X →L[ℝ] Z := fderiv ℝ (d3 G)

/-- A four times continuously differentiable function has, near a compact set, a Taylor expansion with a remainder of the fourth order and
bounded coefficients. -/
theorem taylor_near {G : X → Z} {U K : Set X} (hU : IsOpen U) (hG : ContDiffOn ℝ 4 G U) (hK : IsCompact K) (hKU : K ⊆ U) :
    ∃ ρ M : ℝ, 0 < ρ ∧ 0 ≤ M ∧ ∀ p ∈ K, ‖G p‖ ≤ M ∧ ‖fderiv ℝ G p‖ ≤ M ∧ ‖d2 G p‖ ≤ M ∧ ‖d3 G p‖ ≤ M ∧ ∀ v : X, ‖v‖ ≤ ρ → p + v ∈ U ∧
      ‖G (p + v) - G p - fderiv ℝ G p v - (1 / 2 : ℝ) • d2 G p v v - (1 / 6 : ℝ) • d3 G p v v v‖ ≤ M * ‖v‖ ^ 4 := by
  have g1 : ContDiffOn ℝ 3 (fderiv ℝ G) U := hG.fderiv_of_isOpen hU (by norm_num)
  have g2 : ContDiffOn ℝ 2 (d2 G) U := g1.fderiv_of_isOpen hU (by norm_num)
  have g3 : ContDiffOn ℝ 1 (d3 G) U := g2.fderiv_of_isOpen hU (by norm_num)
  have g4 : ContDiffOn ℝ 0 (d4 G) U := g3.fderiv_of_isOpen hU (by norm_num)
  have diff : ∀ {W : Type} [NormedAddCommGroup W] [NormedSpace ℝ W] {Φ : X → W} {n : WithTop ℕ∞}, n ≠ 0 → ContDiffOn ℝ n Φ U →
      ∀ p ∈ U, HasFDerivAt Φ (fderiv ℝ Φ p) p := fun hn h p hp =>
    ((h.differentiableOn hn p hp).differentiableAt (hU.mem_nhds hp)).hasFDerivAt
  obtain ⟨ρ, M, hρ, hM, hnear⟩ := near_bounded hU g4.continuousOn hK hKU
  obtain ⟨M0, hM0⟩ := hK.exists_bound_of_continuousOn (hG.continuousOn.mono hKU)
  obtain ⟨M1, hM1⟩ := hK.exists_bound_of_continuousOn (g1.continuousOn.mono hKU)
  obtain ⟨M2, hM2⟩ := hK.exists_bound_of_continuousOn (g2.continuousOn.mono hKU)
  obtain ⟨M3, hM3⟩ := hK.exists_bound_of_continuousOn (g3.continuousOn.mono hKU)
  refine ⟨ρ, max M (max (max M0 M1) (max M2 M3)), hρ, le_max_of_le_left hM, fun p hp => ⟨(hM0 p hp).trans (by simp), (hM1 p hp).trans (by simp),
    (hM2 p hp).trans (by simp), (hM3 p hp).trans (by simp), fun v hv => ⟨(hnear p hp v hv).1, ?_⟩⟩⟩
  refine le_trans ?_ (mul_le_mul_of_nonneg_right (le_max_left M _) (by positivity))
  have seg : ∀ s ∈ Icc (0 : ℝ) 1, p + s • v ∈ U ∧ ‖d4 G (p + s • v)‖ ≤ M := fun s hs => hnear p hp _ (by
    rw [norm_smul, Real.norm_eq_abs, abs_of_nonneg hs.1]; nlinarith [hs.2, norm_nonneg v])
  have line : ∀ s : ℝ, HasDerivAt (fun s : ℝ => p + s • v) v s := fun s => by
    simpa using ((hasDerivAt_id s).smul_const v).const_add p
  have chain : ∀ {W : Type} [NormedAddCommGroup W] [NormedSpace ℝ W] {Φ : X → W} {n : WithTop ℕ∞}, n ≠ 0 → ContDiffOn ℝ n Φ U →
      ∀ s ∈ Icc (0 : ℝ) 1, HasDerivAt (fun s : ℝ => Φ (p + s • v)) (fderiv ℝ Φ (p + s • v) v) s := fun hn h s hs =>
    (diff hn h _ (seg s hs).1).comp_hasDerivAt s (line s)
  have lin : ∀ {W : Type} [NormedAddCommGroup W] [NormedSpace ℝ W] (w : W) (s : ℝ), HasDerivAt (fun s : ℝ => s • w) w s := fun w s => by
    simpa using (hasDerivAt_id s).smul_const w
  have quad : ∀ {W : Type} [NormedAddCommGroup W] [NormedSpace ℝ W] (w : W) (s : ℝ), HasDerivAt (fun s : ℝ => (s ^ 2 / 2) • w) (s • w) s := fun w s => by
    have := (((hasDerivAt_pow 2 s).div_const 2).smul_const w)
    simpa using this
  have cub : ∀ {W : Type} [NormedAddCommGroup W] [NormedSpace ℝ W] (w : W) (s : ℝ), HasDerivAt (fun s : ℝ => (s ^ 3 / 6) • w) ((s ^ 2 / 2) • w) s := fun w s => by
    have := (((hasDerivAt_pow 3 s).div_const 6).smul_const w)
    convert this using 2
    push_cast; ring
  have nv := norm_nonneg v
  have b3 : ∀ s ∈ Icc (0 : ℝ) 1, ‖d3 G (p + s • v) - d3 G p‖ ≤ M * ‖v‖ :=
    unit_bound (by positivity) (fun s hs => (chain (Φ := d3 G) one_ne_zero g3 s hs).sub_const _)
      (fun s hs => (ContinuousLinearMap.le_opNorm _ _).trans (mul_le_mul_of_nonneg_right (seg s hs).2 nv)) (by simp)
  have b2 : ∀ s ∈ Icc (0 : ℝ) 1, ‖d2 G (p + s • v) - d2 G p - s • d3 G p v‖ ≤ M * ‖v‖ * ‖v‖ :=
    unit_bound (by positivity) (fun s hs => ((chain (Φ := d2 G) two_ne_zero g2 s hs).sub_const _).sub (lin _ s))
      (fun s hs => by
        rw [show fderiv ℝ (d2 G) (p + s • v) v - d3 G p v = (d3 G (p + s • v) - d3 G p) v from rfl]
        exact (ContinuousLinearMap.le_opNorm _ _).trans (mul_le_mul_of_nonneg_right (b3 s hs) nv)) (by simp)
  have b1 : ∀ s ∈ Icc (0 : ℝ) 1, ‖fderiv ℝ G (p + s • v) - fderiv ℝ G p - s • d2 G p v - (s ^ 2 / 2) • d3 G p v v‖ ≤ M * ‖v‖ * ‖v‖ * ‖v‖ :=
    unit_bound (by positivity) (fun s hs => (((chain (Φ := fderiv ℝ G) three_ne_zero g1 s hs).sub_const _).sub (lin _ s)).sub (quad _ s))
      (fun s hs => by
        rw [show fderiv ℝ (fderiv ℝ G) (p + s • v) v - d2 G p v - s • d3 G p v v = (d2 G (p + s • v) - d2 G p - s • d3 G p v) v from rfl]
        exact (ContinuousLinearMap.le_opNorm _ _).trans (mul_le_mul_of_nonneg_right (b2 s hs) nv)) (by simp)
  have b0 : ∀ s ∈ Icc (0 : ℝ) 1, ‖G (p + s • v) - G p - s • fderiv ℝ G p v - (s ^ 2 / 2) • d2 G p v v - (s ^ 3 / 6) • d3 G p v v v‖ ≤
      M * ‖v‖ * ‖v‖ * ‖v‖ * ‖v‖ :=
    unit_bound (by positivity) (fun s hs => ((((chain (Φ := G) four_ne_zero hG s hs).sub_const _).sub (lin _ s)).sub (quad _ s)).sub (cub _ s))
      (fun s hs => by
        rw [show fderiv ℝ G (p + s • v) v - fderiv ℝ G p v - s • d2 G p v v - (s ^ 2 / 2) • d3 G p v v v =
          (fderiv ℝ G (p + s • v) - fderiv ℝ G p - s • d2 G p v - (s ^ 2 / 2) • d3 G p v v) v from rfl]
        exact (ContinuousLinearMap.le_opNorm _ _).trans (mul_le_mul_of_nonneg_right (b1 s hs) nv)) (by simp)
  have := b0 1 (by simp)
  norm_num at this ⊢
  refine this.trans (le_of_eq (by ring))

end jets

end Mapleaf.Motion.Lim
