import Verif.Motion.TurnCourseProps
import Mathlib.Analysis.Calculus.ContDiff.Operations
import Mathlib.Analysis.SpecialFunctions.Trigonometric.Deriv

/-! # C94: smooth right-hand sides -/

namespace Mapleaf.Motion.Turn
open Set Mapleaf.Motion.Lim Mapleaf.Motion.RK Mapleaf.Motion.Body Mapleaf
open NormedSpace (exp)

attribute [local instance] vNorm vSpace

/-- A solution is smoother than its right-hand side. -/
theorem solution_smooth {E : Type} [NormedAddCommGroup E] [NormedSpace ℝ E] {Φ : ℝ × E → E} {x : ℝ → E} {a e : ℝ} {U : Set (ℝ × E)} (hae : a < e)
    (hΦ : ContDiffOn ℝ 2 Φ U) (hmem : ∀ t ∈ Icc a e, (t, x t) ∈ U) (hd : ∀ t ∈ Icc a e, HasDerivWithinAt x (Φ (t, x t)) (Icc a e) t) :
    ContDiffOn ℝ 2 x (Icc a e) := by
  have hu : UniqueDiffOn ℝ (Icc a e) := uniqueDiffOn_Icc hae
  have hder : ∀ t ∈ Icc a e, derivWithin x (Icc a e) t = Φ (t, x t) := fun t ht => (hd t ht).derivWithin (hu t ht)
  have hdiff : DifferentiableOn ℝ x (Icc a e) := fun t ht => (hd t ht).differentiableWithinAt
  have h0 : ContDiffOn ℝ 0 x (Icc a e) := contDiffOn_zero.2 hdiff.continuousOn
  have up : ∀ n : ℕ, (n : WithTop ℕ∞) ≤ 2 → ContDiffOn ℝ n x (Icc a e) → ContDiffOn ℝ (n + 1) x (Icc a e) := by
    intro n hn hx
    rw [contDiffOn_succ_iff_derivWithin hu]
    refine ⟨hdiff, fun h => by simp at h, ?_⟩
    have : ContDiffOn ℝ n (fun t => Φ (t, x t)) (Icc a e) := (hΦ.of_le hn).comp (contDiffOn_id.prodMk hx) hmem
    exact this.congr hder
  have h1 := up 0 (by norm_num) (by simpa using h0)
  have h2 := up 1 (by norm_num) (by simpa using h1)
  have : ((1 : ℕ) : WithTop ℕ∞) + 1 = 2 := by norm_num
  rwa [this] at h2

/-- A right-hand side which is given by a twice continuously differentiable function of time and state around the motion, at least for unit
orientations. -/
structure SmoothRhs (g : ℝ → RBState → RBDeriv) (G : ℝ × St → Ch) (U : Set (ℝ × St)) (y : ℝ → RBState) (a e : ℝ) : Prop where
  isOpen : IsOpen U
  smooth : ContDiffOn ℝ 2 G U
  mem : ∀ t ∈ Icc a e, (t, enc (y t)) ∈ U
  agree : ∀ t s, Quat.Unit s.ori → (t, enc s) ∈ U → encD (g t s) = G (t, enc s)

section smooth
variable {g : ℝ → RBState → RBDeriv} {y : ℝ → RBState} {a e : ℝ} {G : ℝ × St → Ch} {U : Set (ℝ × St)}

theorem TrueMotion.sol (M : TrueMotion g y a e) (H : SmoothRhs g G U y a e) : ∀ t ∈ Icc a e,
    HasDerivWithinAt (fun t => enc (y t)) ((G (t, enc (y t))).1, half (G (t, enc (y t))).2 * (enc (y t)).2) (Icc a e) t := by
  intro t ht
  rw [← H.agree t (y t) (M.unit t ht) (H.mem t ht)]
  exact (M.vec t ht).prodMk (M.quat t ht)

theorem smooth_lip (M : TrueMotion g y a e) (H : SmoothRhs g G U y a e) : ∃ L ρ : ℝ, 0 ≤ L ∧ 0 < ρ ∧ LipNear g y a e L ρ := by
  have hKU : (fun t => (t, enc (y t))) '' Icc a e ⊆ U := by rintro _ ⟨t, ht, rfl⟩; exact H.mem t ht
  have hK : IsCompact ((fun t => (t, enc (y t))) '' Icc a e) :=
    isCompact_Icc.image_of_continuousOn (continuousOn_id.prodMk fun t ht => (M.sol H t ht).continuousWithinAt)
  have hd : ContDiffOn ℝ 1 (fderiv ℝ G) U := H.smooth.fderiv_of_isOpen H.isOpen (by norm_num)
  obtain ⟨ρ, L, hρ, hL, hnear⟩ := near_bounded H.isOpen hd.continuousOn hK hKU
  refine ⟨L, ρ, hL, hρ, ?_⟩
  intro t ht s s' hs hs' h1 h2
  have hball : ∀ p ∈ Metric.closedBall (t, enc (y t)) ρ, p ∈ U ∧ ‖fderiv ℝ G p‖ ≤ L := fun p hp => by
    have := hnear _ ⟨t, ht, rfl⟩ (p - (t, enc (y t))) (by rwa [mem_closedBall_iff_norm] at hp)
    simpa using this
  have mem : ∀ w, ‖w - enc (y t)‖ ≤ ρ → (t, w) ∈ Metric.closedBall (t, enc (y t)) ρ := fun w hw => by
    rw [mem_closedBall_iff_norm, Prod.mk_sub_mk, sub_self, Prod.norm_mk, norm_zero]
    exact max_le hρ.le hw
  have := Convex.norm_image_sub_le_of_norm_fderiv_le (𝕜 := ℝ) (f := G) (C := L) (s := Metric.closedBall (t, enc (y t)) ρ)
    (fun p hp => (H.smooth.differentiableOn two_ne_zero p (hball p hp).1).differentiableAt (H.isOpen.mem_nhds (hball p hp).1))
    (fun p hp => (hball p hp).2) (convex_closedBall _ _) (mem (enc s') h2) (mem (enc s) h1)
  rw [show ((t, enc s) : ℝ × St) - (t, enc s') = (0, enc s - enc s') from Prod.ext (sub_self t) rfl,
    show ‖((0 : ℝ), enc s - enc s')‖ = ‖enc s - enc s'‖ by rw [Prod.norm_mk, norm_zero, max_eq_right (norm_nonneg _)]] at this
  unfold apartD apart
  rw [H.agree t s hs (hball _ (mem _ h1)).1, H.agree t s' hs' (hball _ (mem _ h2)).1]
  exact this

theorem smooth_rate (M : TrueMotion g y a e) (H : SmoothRhs g G U y a e) (hae : a < e) : ∃ Γ : ℝ, ∃ γ' : ℝ → Ch, 0 ≤ Γ ∧
    (∀ t ∈ Icc a e, HasDerivWithinAt (fun t => encD (g t (y t))) (γ' t) (Icc a e) t) ∧ (∀ t ∈ Icc a e, ‖γ' t‖ ≤ Γ) ∧
    (∀ s ∈ Icc a e, ∀ t ∈ Icc a e, ‖γ' s - γ' t‖ ≤ Γ * |s - t|) := by
  have hu : UniqueDiffOn ℝ (Icc a e) := uniqueDiffOn_Icc hae
  have hΦ : ContDiffOn ℝ 2 (fun p : ℝ × St => (((G p).1, half (G p).2 * p.2.2) : St)) U := by
    refine (contDiff_fst.comp_contDiffOn H.smooth).prodMk (ContDiffOn.mul ?_ (contDiff_snd.comp contDiff_snd).contDiffOn)
    exact halfL.contDiff.comp_contDiffOn (contDiff_snd.comp_contDiffOn H.smooth)
  have hx := solution_smooth (x := fun t => enc (y t)) hae hΦ H.mem (M.sol H)
  have hγ : ContDiffOn ℝ 2 (fun t => encD (g t (y t))) (Icc a e) := by
    refine (H.smooth.comp (contDiffOn_id.prodMk hx) H.mem).congr fun t ht => ?_
    exact H.agree t (y t) (M.unit t ht) (H.mem t ht)
  have h2 : ContDiffOn ℝ 1 (derivWithin (fun t => encD (g t (y t))) (Icc a e)) (Icc a e) := hγ.derivWithin hu (by norm_num)
  have h3 : ContDiffOn ℝ 0 (derivWithin (derivWithin (fun t => encD (g t (y t))) (Icc a e)) (Icc a e)) (Icc a e) := h2.derivWithin hu (by norm_num)
  obtain ⟨B1, hB1⟩ := isCompact_Icc.exists_bound_of_continuousOn h2.continuousOn
  obtain ⟨B2, hB2⟩ := isCompact_Icc.exists_bound_of_continuousOn h3.continuousOn
  have h4 : ∀ t ∈ Icc a e, HasDerivWithinAt (derivWithin (fun t => encD (g t (y t))) (Icc a e))
      (derivWithin (derivWithin (fun t => encD (g t (y t))) (Icc a e)) (Icc a e) t) (Icc a e) t := fun t ht =>
    ((h2.differentiableOn one_ne_zero) t ht).hasDerivWithinAt
  refine ⟨|B1| + |B2|, derivWithin (fun t => encD (g t (y t))) (Icc a e), by positivity, fun t ht => ((hγ.differentiableOn two_ne_zero) t ht).hasDerivWithinAt,
    fun t ht => (hB1 t ht).trans (by linarith [le_abs_self B1, abs_nonneg B2]), ?_⟩
  exact lip_of_bound h4 (fun t ht => (hB2 t ht).trans (by linarith [le_abs_self B2, abs_nonneg B1]))

/-- **C94.** A body with a smooth right-hand side: Euler's flights approach the motion like `h`, those of Heun's method and of the 3/8 rule like
`h²`. -/
theorem body_converges_smooth (mp : String × ℕ) (hm : mp ∈ [("Euler", 1), ("RK2Heun", 2), ("RK4_3/8", 2)]) (f : ℝ → RBState → Except PyErr RBDeriv)
    (hf : ∀ t s, Quat.Unit s.ori → f t s = .ok (g t s)) (M : TrueMotion g y a e) (H : SmoothRhs g G U y a e) (hae : a < e) :
    ∃ C h₀ : ℝ, 0 ≤ C ∧ 0 < h₀ ∧ ∀ h ∈ Ioc 0 h₀, ∀ hs : List ℝ, (∀ k ∈ hs, 0 < k ∧ k ≤ h) → a + hs.sum ≤ e →
      ∃ s', flySteps mp.1 f a (y a) hs = .ok s' ∧ Quat.Unit s'.ori ∧ apart s' (y (a + hs.sum)) ≤ C * h ^ mp.2 := by
  obtain ⟨L, ρ, hL, hρ, lip⟩ := smooth_lip M H
  obtain ⟨Γ, γ', hΓ, hγ, hb, hl⟩ := smooth_rate M H hae
  simp only [List.mem_cons, List.not_mem_nil, or_false] at hm
  rcases hm with rfl | rfl | rfl
  · simpa using body_converges_rough "Euler" (by simp) f hf M hL hρ hΓ lip (lip_of_bound hγ hb) hae.le
  · exact body_converges "RK2Heun" (by simp) f hf M hL hρ hΓ lip γ' hγ hb hl hae.le
  · exact body_converges "RK4_3/8" (by simp) f hf M hL hρ hΓ lip γ' hγ hb hl hae.le

/-- **C94.** The same for the methods with zeros in their tableaus. What is missing: see `body_converges_partial`. -/
theorem body_converges_smooth_partial (f : ℝ → RBState → Except PyErr RBDeriv)
    (hf : ∀ t s, Quat.Unit s.ori → f t s = .ok (g t s)) (M : TrueMotion g y a e) (H : SmoothRhs g G U y a e) (hae : a < e) :
    ∃ C h₀ ε₀ : ℝ, 0 ≤ C ∧ 0 < h₀ ∧ 0 < ε₀ ∧ ∀ ε ∈ Ioc 0 ε₀, ∀ h ∈ Ioc 0 h₀, ∀ hs : List ℝ, (∀ k ∈ hs, 0 < k ∧ k ≤ h) → a + hs.sum ≤ e →
      (∃ s', flyTableau (rk4 ε) f a (y a) hs = .ok s' ∧ Quat.Unit s'.ori ∧ apart s' (y (a + hs.sum)) ≤ C * (h ^ 2 + ε * h)) ∧
      (∃ s', flyTableau (midpoint ε) f a (y a) hs = .ok s' ∧ Quat.Unit s'.ori ∧ apart s' (y (a + hs.sum)) ≤ C * (h ^ 2 + ε)) := by
  obtain ⟨L, ρ, hL, hρ, lip⟩ := smooth_lip M H
  obtain ⟨Γ, γ', hΓ, hγ, hb, hl⟩ := smooth_rate M H hae
  exact body_converges_partial f hf M hL hρ hΓ lip γ' hγ hb hl hae.le

end smooth

end Mapleaf.Motion.Turn
