import Verif.Motion.AdaptLimitProps
import Verif.Motion.LimitClaims
import Mathlib.Analysis.SpecialFunctions.SmoothTransition
import Mathlib.Analysis.Calculus.ContDiff.Basic

/-! # C103: flights with adaptive steps converge to the true motion; what the target error means -/

namespace Mapleaf.Motion.Lim
open Set Mapleaf.Motion.RK

section claims
variable {E : Type} [NormedAddCommGroup E] [NormedSpace ℝ E] {f : ℝ → E → E} {y : ℝ → E} {a e : ℝ} {U : Set (ℝ × E)}

theorem Coef.Bounded.near {q q' : Coef} {R ε : ℝ} (h : q.Bounded R) (hε : ε ≤ 1) (hA : ∀ i j, |q'.A i j - q.A i j| ≤ ε) (hb : ∀ i, |q'.b i - q.b i| ≤ ε)
    (hc : q'.c = q.c) : q'.Bounded (R + 1) := by
  refine ⟨fun i j => ?_, fun i => ?_, fun i => by rw [hc]; exact h.c i⟩
  · have h1 := abs_add_le (q'.A i j - q.A i j) (q.A i j)
    rw [sub_add_cancel] at h1
    linarith [hA i j, h.A i j]
  · have h1 := abs_add_le (q'.b i - q.b i) (q.b i)
    rw [sub_add_cancel] at h1
    linarith [hb i, h.b i]

/-- **C103.** For every motion with a smooth right-hand side there are `C`, `h₀` and `ε₀` such that every flight from its start with an adaptive method,
whatever the settings, the estimates of the error, the requested steps and the discarded attempts, whose accepted steps are at most `h ≤ h₀` ends
within `C (hᵖ + ε)` of the motion. `ε ≤ ε₀` is the distance of the coefficients from the exact ones, `1e-16` in the code (`code_near`).
What is missing: the full orders of `RK45Adaptive` (5) and `RK78Adaptive` (8), for which order 4 is shown; and the error does not vanish with the step,
because the code replaces zeros by `1e-16`. -/
theorem adaptive_converges_partial (mp : String × ℕ) (hmp : mp ∈ [("RK12Adaptive", 2), ("RK23Adaptive", 3), ("RK45Adaptive", 4), ("RK78Adaptive", 4)]) (fsal : Bool)
    (M : Motion f y a e U) : ∃ C h₀ ε₀ : ℝ, 0 ≤ C ∧ 0 < h₀ ∧ 0 < ε₀ ∧ ∀ ε ∈ Icc 0 ε₀, ∀ tab, NearTab mp.1 fsal ε tab → ∀ s : Settings ℝ, 0 < s.minTimeStep →
      ∀ mag fuel dts hs b', adaptSteps s mag tab fsal f fuel ⟨a, y a, none⟩ dts = .ok (hs, b') → ∀ h ∈ Ioc 0 h₀, (∀ x ∈ hs, x ≤ h) → b'.time ≤ e →
        ‖b'.state - y b'.time‖ ≤ C * (h ^ mp.2 + ε) := by
  obtain ⟨hb, hr, ho, hc0, hp1, hp4⟩ := ideal_fit mp hmp
  have hb18 : (coefI (ideal mp.1)).Bounded 18 := ⟨fun i j => (hb.A i j).trans (by norm_num), fun i => (hb.b i).trans (by norm_num), hb.c⟩
  obtain ⟨C, h₀, ε₀, hC, hh₀, hε₀, key⟩ := rkK_converges M _ (by norm_num) hb18 hr hc0 mp.2 hp1 hp4 ho fsal
  refine ⟨C, h₀, min ε₀ 1, hC, hh₀, lt_min hε₀ one_pos, fun ε hε tab hn s hmin mag fuel dts hs b' hrun h hh hle hend => ?_⟩
  obtain ⟨r1, r2, _, r4⟩ := adapt_marchK s mag tab hn.shape fsal f fuel dts _ _ _ hrun
  have hb' := hb.near (hε.2.trans (min_le_right _ _)) hn.A hn.b hn.c
  norm_num at hb'
  dsimp only at r1 r2
  rw [r1] at hend ⊢
  rw [r2]
  exact key ε ⟨hε.1, hε.2.trans (min_le_left _ _)⟩ (coefA tab) hn.s hn.c hb' hn.A hn.b hn.fsal h hh hs (fun x hx => ⟨hmin.trans_le (r4 x hx), hle x hx⟩) hend

/-- **C103.** Without smoothness — a right-hand side that is Lipschitz in the state near the motion, and in time along it — the same flights end within
`C (h + ε)` of the motion. -/
theorem adaptive_converges_rough_partial {L ρ B Γ : ℝ} (m : String) (hm : m ∈ ["RK12Adaptive", "RK23Adaptive", "RK45Adaptive", "RK78Adaptive"]) (fsal : Bool)
    (M : Rough f y a e L ρ B Γ) : ∃ C h₀ ε₀ : ℝ, 0 ≤ C ∧ 0 < h₀ ∧ 0 < ε₀ ∧ ∀ ε ∈ Icc 0 ε₀, ∀ tab, NearTab m fsal ε tab → ∀ s : Settings ℝ, 0 < s.minTimeStep →
      ∀ mag fuel dts hs b', adaptSteps s mag tab fsal f fuel ⟨a, y a, none⟩ dts = .ok (hs, b') → ∀ h ∈ Ioc 0 h₀, (∀ x ∈ hs, x ≤ h) → b'.time ≤ e →
        ‖b'.state - y b'.time‖ ≤ C * (h + ε) := by
  obtain ⟨p, hmp⟩ : ∃ p, (m, p) ∈ adaptiveOrders := by
    simp only [List.mem_cons, List.not_mem_nil, or_false] at hm
    rcases hm with rfl | rfl | rfl | rfl
    · exact ⟨2, by simp [adaptiveOrders]⟩
    · exact ⟨3, by simp [adaptiveOrders]⟩
    · exact ⟨4, by simp [adaptiveOrders]⟩
    · exact ⟨4, by simp [adaptiveOrders]⟩
  obtain ⟨hb, _, ho, hc0, hp1, _⟩ := ideal_fit (m, p) hmp
  dsimp only at hb ho hc0 hp1
  obtain ⟨C, h₀, ε₀, hC, hh₀, hε₀, key⟩ := rkK_first_order (R := 18) M (coefI (ideal m)).s (by norm_num) fsal
  refine ⟨C, h₀, min ε₀ 1, hC, hh₀, lt_min hε₀ one_pos, fun ε hε tab hn s hmin mag fuel dts hs b' hrun h hh hle hend => ?_⟩
  obtain ⟨r1, r2, _, r4⟩ := adapt_marchK s mag tab hn.shape fsal f fuel dts _ _ _ hrun
  have hb' := hb.near (hε.2.trans (min_le_right _ _)) hn.A hn.b hn.c
  norm_num at hb'
  dsimp only at r1 r2
  rw [r1] at hend ⊢
  rw [r2]
  refine key ε ⟨hε.1, hε.2.trans (min_le_left _ _)⟩ (coefA tab) hn.s (by rw [hn.c]; exact hc0) hb' ?_ hn.fsal h hh hs
    (fun x hx => ⟨hmin.trans_le (r4 x hx), hle x hx⟩) hend
  have h1 := ho.o1 hp1
  unfold Coef.dot at h1
  simp only [mul_one] at h1
  rw [hn.s, ← h1, ← Finset.sum_sub_distrib]
  refine (Finset.abs_sum_le_sum_abs _ _).trans ((Finset.sum_le_sum fun i _ => hn.b i).trans ?_)
  rw [Finset.sum_const, Finset.card_range, nsmul_eq_mul]

/-- **C103.** Such flights exist: with a positive smallest step and a target below 500000, every sequence of requested steps is flown without error, and
the steps accepted are at most the requested ones, or the smallest step. -/
theorem adaptive_flies (m : String) (hm : m ∈ ["RK12Adaptive", "RK23Adaptive", "RK45Adaptive", "RK78Adaptive"]) (f : ℝ → E → E) (mag : E → ℝ) (s : Settings ℝ)
    (hmin : 0 < s.minTimeStep) (htar : s.targetError < 500000) (dts : List ℝ) (hdts : ∀ dt ∈ dts, 0 ≤ dt) (b : Adapted E) :
    ∃ tab fsal hs b' n, adaptiveWorking m = .ok (tab, fsal) ∧ NearTab m fsal (1 / 10 ^ 16) tab ∧ (∀ fuel > n, adaptSteps s mag tab fsal f fuel b dts = .ok (hs, b')) ∧
      List.Forall₂ (fun h dt => s.minTimeStep ≤ h ∧ h ≤ max s.minTimeStep dt) hs dts := by
  obtain ⟨p, hmp⟩ : ∃ p, (m, p) ∈ adaptiveOrders := by
    simp only [List.mem_cons, List.not_mem_nil, or_false] at hm
    rcases hm with rfl | rfl | rfl | rfl
    · exact ⟨2, by simp [adaptiveOrders]⟩
    · exact ⟨3, by simp [adaptiveOrders]⟩
    · exact ⟨4, by simp [adaptiveOrders]⟩
    · exact ⟨4, by simp [adaptiveOrders]⟩
  obtain ⟨tab, fsal, w1, w2⟩ := code_near (m, p) hmp
  suffices h : ∃ hs b' n, (∀ fuel > n, adaptSteps s mag tab fsal f fuel b dts = .ok (hs, b')) ∧
      List.Forall₂ (fun h dt => s.minTimeStep ≤ h ∧ h ≤ max s.minTimeStep dt) hs dts by
    obtain ⟨hs, b', n, h1, h2⟩ := h
    exact ⟨tab, fsal, hs, b', n, w1, w2, h1, h2⟩
  induction dts generalizing b with
  | nil => exact ⟨[], b, 0, fun _ _ => rfl, .nil⟩
  | cons dt dts ih =>
    choose g hg _ _ using attempt_rkK mag tab w2.shape b.cache f b.time b.state
    obtain ⟨n, _, _, hL⟩ := adaptive_accepts s hmin htar g dt
    have hstep : ∀ fuel > n, adaptStep s mag tab fsal f fuel b dt = .ok (max s.minTimeStep (dt / 3 ^ n),
        ⟨b.time + max s.minTimeStep (dt / 3 ^ n), (g (max s.minTimeStep (dt / 3 ^ n))).newValue, newCache fsal b.cache (g (max s.minTimeStep (dt / 3 ^ n)))⟩) := by
      intro fuel hf
      obtain ⟨L, h1, h2, h3, _, _⟩ := hL fuel hf
      have hgf : (fun h => attempt mag tab b.cache f b.time b.state h) = fun h => .ok (g h) := funext hg
      unfold adaptStep
      rw [hgf, h1]
      dsimp only
      rw [h3, h2]
    obtain ⟨hs, b', n', k1, k2⟩ := ih (fun z hz => hdts z (by simp [hz]))
      ⟨b.time + max s.minTimeStep (dt / 3 ^ n), (g (max s.minTimeStep (dt / 3 ^ n))).newValue, newCache fsal b.cache (g (max s.minTimeStep (dt / 3 ^ n)))⟩
    refine ⟨max s.minTimeStep (dt / 3 ^ n) :: hs, b', max n n', fun fuel hf => ?_,
      .cons ⟨le_max_left _ _, accepted_le s dt n (hdts dt (by simp))⟩ k2⟩
    rw [adaptSteps, hstep fuel (lt_of_le_of_lt (le_max_left _ _) hf)]
    dsimp only
    rw [k1 fuel (lt_of_le_of_lt (le_max_right _ _) hf)]

end claims

/-! ## The target error -/

/-- no stage between 0.76 and 0.79 of the step -/
theorem no_stage (mp : String × ℕ) (h : mp ∈ adaptiveOrders) (i : ℕ) : (coefI (ideal mp.1)).c i ≤ 76 / 100 ∨ 79 / 100 ≤ (coefI (ideal mp.1)).c i := by
  have key (tab : Tableau ℚ) (hall : ∀ r ∈ tab, r.headD 0 ≤ 76 / 100 ∨ 79 / 100 ≤ r.headD 0) : (coefI tab).c i ≤ 76 / 100 ∨ 79 / 100 ≤ (coefI tab).c i := by
    have hI : coefI tab = coefOf (castT (tab.take (tab.length - 1))) (castL (tab.getLast?.getD [])) := rfl
    rw [hI, coef_c]
    have : qc (tab.take (tab.length - 1)) i ≤ 76 / 100 ∨ 79 / 100 ≤ qc (tab.take (tab.length - 1)) i := by
      unfold qc
      rw [List.getD_eq_getElem?_getD]
      cases hr : ([0] :: tab.take (tab.length - 1) : Tableau ℚ)[i]? with
      | none => left; simp; norm_num
      | some r =>
        simp only [Option.getD_some]
        rcases List.mem_cons.1 (List.mem_of_getElem? hr) with rfl | hr'
        · left; norm_num
        · exact hall r (List.mem_of_mem_take hr')
    rcases this with h | h
    · left
      have : ((qc (tab.take (tab.length - 1)) i : ℚ) : ℝ) ≤ ((76 / 100 : ℚ) : ℝ) := by exact_mod_cast h
      push_cast at this
      exact this
    · right
      have : ((79 / 100 : ℚ) : ℝ) ≤ ((qc (tab.take (tab.length - 1)) i : ℚ) : ℝ) := by exact_mod_cast h
      push_cast at this
      exact this
  simp only [adaptiveOrders, List.mem_cons, List.not_mem_nil, or_false] at h
  rcases h with rfl | rfl | rfl | rfl <;> exact key _ (by decide +kernel)

/-- a pulse: `y` rises from 0 to `A` between 0.76 and 0.79 of the step -/
noncomputable def pulse (A t₀ h t : ℝ) : ℝ := A * Real.smoothTransition ((t - t₀ - 76 / 100 * h) / (3 / 100 * h))

theorem pulse_smooth (A t₀ h : ℝ) : ContDiff ℝ (⊤ : ℕ∞) (pulse A t₀ h) :=
  contDiff_const.mul (Real.smoothTransition.contDiff.comp (((contDiff_id.sub contDiff_const).sub contDiff_const).div_const _))

theorem pulse_flat (A t₀ h t : ℝ) (hh : 0 < h) (ht : t ≤ t₀ + 76 / 100 * h ∨ t₀ + 79 / 100 * h ≤ t) : deriv (pulse A t₀ h) t = 0 := by
  have hd : DifferentiableAt ℝ (pulse A t₀ h) t := (pulse_smooth A t₀ h).differentiable (by simp) t
  rcases ht with ht | ht
  · have h1 := hd.hasDerivAt.hasDerivWithinAt (s := Iic t)
    have h2 : HasDerivWithinAt (pulse A t₀ h) 0 (Iic t) t := by
      refine (hasDerivWithinAt_const t (Iic t) (0 : ℝ)).congr (fun x hx => ?_) ?_
      · unfold pulse
        rw [Real.smoothTransition.zero_of_nonpos (div_nonpos_of_nonpos_of_nonneg (by have : x ≤ t := hx; linarith) (by positivity)), mul_zero]
      · unfold pulse
        rw [Real.smoothTransition.zero_of_nonpos (div_nonpos_of_nonpos_of_nonneg (by linarith) (by positivity)), mul_zero]
    exact (uniqueDiffWithinAt_Iic t).eq_deriv _ h1 h2
  · have h1 := hd.hasDerivAt.hasDerivWithinAt (s := Ici t)
    have h2 : HasDerivWithinAt (pulse A t₀ h) 0 (Ici t) t := by
      refine (hasDerivWithinAt_const t (Ici t) A).congr (fun x hx => ?_) ?_
      · unfold pulse
        rw [Real.smoothTransition.one_of_one_le ((one_le_div (by positivity)).2 (by have : t ≤ x := hx; linarith)), mul_one]
      · unfold pulse
        rw [Real.smoothTransition.one_of_one_le ((one_le_div (by positivity)).2 (by linarith)), mul_one]
    exact (uniqueDiffWithinAt_Ici t).eq_deriv _ h1 h2

theorem wsum_zeros (w : List ℝ) (ks : List ℝ) (h : ∀ k ∈ ks, k = 0) : wsum w ks = 0 := by
  unfold wsum
  apply List.sum_eq_zero
  intro x hx
  obtain ⟨i, hi, rfl⟩ := List.getElem_of_mem hx
  rw [List.getElem_zipWith, h _ (List.getElem_mem _), smul_zero]

/-- **C103 violated.** The target error does not bound the error: for every method, every step `h` at least the smallest, every target and every `A` there
is a motion with a smooth right-hand side (all derivatives exist) that moves by `A` during the step, while a call that requests `h` accepts `h` at its
first attempt with an estimated error of zero, and does not move. -/
theorem target_error_violated (m : String) (hm : m ∈ ["RK12Adaptive", "RK23Adaptive", "RK45Adaptive", "RK78Adaptive"]) (s : Settings ℝ)
    (ht0 : 0 ≤ s.targetError) (ht : s.targetError < 500000) (t₀ h A : ℝ) (hmin : 0 < s.minTimeStep) (hh : s.minTimeStep ≤ h) :
    ∃ y g : ℝ → ℝ, (∀ t, HasDerivAt y (g t) t) ∧ ContDiff ℝ (⊤ : ℕ∞) y ∧ y t₀ = 0 ∧ y (t₀ + h) = A ∧
      ∃ tab fsal, adaptiveWorking m = .ok (tab, fsal) ∧ ∀ fuel > 0, ∃ r, adaptiveCall s (fun h => attempt (fun x => |x|) tab none (fun t _ => g t) t₀ (0 : ℝ) h) fuel h = .ok r ∧
        r.dt = h ∧ r.tried = [h] ∧ r.result.error = 0 ∧ r.result.newValue = 0 := by
  have hpos : 0 < h := hmin.trans_le hh
  obtain ⟨p, hmp⟩ : ∃ p, (m, p) ∈ adaptiveOrders := by
    simp only [List.mem_cons, List.not_mem_nil, or_false] at hm
    rcases hm with rfl | rfl | rfl | rfl
    · exact ⟨2, by simp [adaptiveOrders]⟩
    · exact ⟨3, by simp [adaptiveOrders]⟩
    · exact ⟨4, by simp [adaptiveOrders]⟩
    · exact ⟨4, by simp [adaptiveOrders]⟩
  obtain ⟨tab, fsal, w1, w2⟩ := code_near (m, p) hmp
  refine ⟨pulse A t₀ h, deriv (pulse A t₀ h), fun t => ((pulse_smooth A t₀ h).differentiable (by simp) t).hasDerivAt, pulse_smooth A t₀ h, ?_, ?_, tab, fsal, w1, ?_⟩
  · unfold pulse
    rw [Real.smoothTransition.zero_of_nonpos (div_nonpos_of_nonpos_of_nonneg (by linarith) (by positivity)), mul_zero]
  · unfold pulse
    rw [Real.smoothTransition.one_of_one_le ((one_le_div (by positivity)).2 (by linarith)), mul_one]
  choose g ks b bc g1 g2 g3 g4 g5 g6 g7 g8 g9 using attempt_spec (fun x : ℝ => |x|) tab w2.shape none (fun t _ => deriv (pulse A t₀ h) t) t₀ (0 : ℝ)
  have hz : ∀ k ∈ ks h, k = 0 := by
    have hex : Explicit 0 tab.dropLast.dropLast := by rw [dropLast_dropLast]; exact w2.shape.explicit
    have hk := isStagesK_iff tab.dropLast.dropLast (b h) hex _ t₀ (0 : ℝ) h _ _ (g4 h)
    have hcoef : coefA tab = coefOf tab.dropLast.dropLast (b h) := by unfold coefA; rw [g2 h]; rfl
    rw [← hcoef] at hk
    intro k hk'
    rw [hk] at hk'
    obtain ⟨i, _, rfl⟩ := List.mem_map.1 hk'
    by_cases hi : i = 0
    · subst hi
      rw [stageK_zero]
      exact pulse_flat A t₀ h t₀ hpos (.inl (by nlinarith))
    · rw [stageK_point _ _ _ _ _ _ _ hi]
      apply pulse_flat A t₀ h _ hpos
      rw [w2.c]
      rcases no_stage (m, p) hmp i with hc | hc
      · left; dsimp only at hc; nlinarith
      · right; dsimp only at hc; nlinarith
  have herr : (g h).error = 0 := by rw [g7, wsum_zeros _ _ hz, wsum_zeros _ _ hz]; simp
  have hval : (g h).newValue = 0 := by rw [g5, wsum_zeros _ _ hz]; simp
  have hgf : (fun h' => attempt (fun x : ℝ => |x|) tab none (fun t _ => deriv (pulse A t₀ h) t) t₀ (0 : ℝ) h') = fun h' => .ok (g h') := funext g1
  intro fuel hf
  obtain ⟨n, hno, _, hL⟩ := adaptive_accepts s hmin ht g h
  have hmax : max s.minTimeStep (h / 3 ^ 0) = h := by rw [pow_zero, div_one, max_eq_right hh]
  have hn : n = 0 := by
    by_contra hne
    apply hno 0 (by omega)
    left
    rw [hmax, herr]
    positivity
  subst hn
  obtain ⟨L, l1, l2, l3, l4, _⟩ := hL fuel hf
  rw [hgf]
  rw [hmax] at l2
  refine ⟨L, l1, l2, ?_, ?_, ?_⟩
  · rw [l4]; simp [max_eq_right hh]
  · rw [l3, l2, herr]
  · rw [l3, l2, hval]

/-! ## Bodies -/

attribute [local instance] vNorm vSpace

open Stepper in
/-- **C103, bodies.** A body that is a point mass (3-DoF) under a force and a mass that depend smoothly on time, position and velocity: the positions and
velocities of its flights with adaptive steps converge to the true ones. What is missing is as in `adaptive_converges_partial`. -/
theorem fall_adapts_partial (mp : String × ℕ) (hmp : mp ∈ [("RK12Adaptive", 2), ("RK23Adaptive", 3), ("RK45Adaptive", 4), ("RK78Adaptive", 4)]) (fsal : Bool)
    (force : ℝ → V3 ℝ × V3 ℝ → V3 ℝ) (mass : ℝ → V3 ℝ × V3 ℝ → ℝ) (pos vel : ℝ → V3 ℝ) (a e : ℝ) (U : Set (ℝ × V3 ℝ × V3 ℝ)) (hU : IsOpen U)
    (hforce : ContDiffOn ℝ 4 (fun p : ℝ × V3 ℝ × V3 ℝ => force p.1 p.2) U) (hmass : ContDiffOn ℝ 4 (fun p : ℝ × V3 ℝ × V3 ℝ => mass p.1 p.2) U)
    (hpos : ∀ p ∈ U, mass p.1 p.2 ≠ 0) (mem : ∀ t ∈ Icc a e, (t, pos t, vel t) ∈ U)
    (hv : ∀ t ∈ Icc a e, HasDerivWithinAt pos (vel t) (Icc a e) t)
    (ha : ∀ t ∈ Icc a e, HasDerivWithinAt vel ((1 / mass t (pos t, vel t)) • force t (pos t, vel t)) (Icc a e) t) :
    ∃ C h₀ ε₀ : ℝ, 0 ≤ C ∧ 0 < h₀ ∧ 0 < ε₀ ∧ ∀ ε ∈ Icc 0 ε₀, ∀ tab, NearTab mp.1 fsal ε tab → ∀ s : Settings ℝ, 0 < s.minTimeStep →
      ∀ mag fuel dts hs b', adaptSteps s mag tab fsal (fall force mass) fuel ⟨a, (pos a, vel a), none⟩ dts = .ok (hs, b') →
        ∀ h ∈ Ioc 0 h₀, (∀ x ∈ hs, x ≤ h) → b'.time ≤ e →
          (b'.state.1 - pos b'.time).length ≤ C * (h ^ mp.2 + ε) ∧ (b'.state.2 - vel b'.time).length ≤ C * (h ^ mp.2 + ε) := by
  have M : Motion (fall force mass) (fun t => (pos t, vel t)) a e U := by
    refine ⟨hU, ?_, mem, fun t ht => (hv t ht).prodMk (ha t ht)⟩
    refine ContDiffOn.prodMk (contDiff_snd.comp contDiff_snd).contDiffOn ?_
    exact ContDiffOn.smul (contDiffOn_const.div hmass hpos) hforce
  obtain ⟨C, h₀, ε₀, hC, hh, hε₀, key⟩ := adaptive_converges_partial mp hmp fsal M
  refine ⟨C, h₀, ε₀, hC, hh, hε₀, fun ε hε tab hn s hmin mag fuel dts hs b' hrun h hh hle hend => ?_⟩
  have k := key ε hε tab hn s hmin mag fuel dts hs b' hrun h hh hle hend
  exact ⟨le_trans (norm_fst_le (b'.state - (pos b'.time, vel b'.time))) k, le_trans (norm_snd_le (b'.state - (pos b'.time, vel b'.time))) k⟩

/-! ## Cases -/

/-- growth `y' = y` on `[0, 1]` -/
example : Motion (fun _ x : ℝ => x) Real.exp 0 1 univ where
  isOpen := isOpen_univ
  smooth := contDiff_snd.contDiffOn
  mem := fun _ _ => trivial
  sol := fun t _ => (Real.hasDerivAt_exp t).hasDerivWithinAt

/-- the settings of the template: a flight of ten requested steps of 0.05 s, with the default method -/
example : ∃ tab fsal hs b' n, adaptiveWorking "RK45Adaptive" = .ok (tab, fsal) ∧ NearTab "RK45Adaptive" fsal (1 / 10 ^ 16) tab ∧
    (∀ fuel > n, adaptSteps ⟨1 / 1000, 1 / 10000, 30, 3 / 10, 3 / 2, 9 / 10⟩ (fun x : ℝ => |x|) tab fsal (fun _ x => x) fuel ⟨0, 1, none⟩ (List.replicate 10 (1 / 20)) = .ok (hs, b')) ∧
    List.Forall₂ (fun h dt => (1 / 10000 : ℝ) ≤ h ∧ h ≤ max (1 / 10000) dt) hs (List.replicate 10 (1 / 20)) :=
  adaptive_flies "RK45Adaptive" (by simp) (fun _ x : ℝ => x) _ ⟨1 / 1000, 1 / 10000, 30, 3 / 10, 3 / 2, 9 / 10⟩ (by norm_num) (by norm_num) _
    (fun dt hdt => by rw [List.eq_of_mem_replicate hdt]; norm_num) _

/-- the same settings and a step of one second meet the hypotheses of `target_error_violated` -/
example : (0 : ℝ) ≤ 1 / 1000 ∧ (1 / 1000 : ℝ) < 500000 ∧ (0 : ℝ) < 1 / 10000 ∧ (1 / 10000 : ℝ) ≤ 1 := by norm_num

end Mapleaf.Motion.Lim
