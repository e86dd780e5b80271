import Verif.Motion.BodyFlyClaims
import Verif.Motion.TurnedBodyProps
import Mathlib.Analysis.Real.Pi.Bounds

/-! # C105: rigid bodies under smooth forces, moments and inertia, with the adaptive integrators -/

namespace Mapleaf.Motion.Turn
open Set Mapleaf.Motion.Lim Mapleaf.Motion.RK Mapleaf.Motion.Body Mapleaf

attribute [local instance] vNorm vSpace

section rigid
variable {force moment : ℝ → RBState → V3 ℝ} {inertia : ℝ → RBState → MassProps} {y : ℝ → RBState} {a e : ℝ} {U : Set (ℝ × St)}

/-- **C105.** A rigid body that moves by the equations of Newton and Euler and turns less than once per second: with every adaptive method, every positive smallest step, every
target error below 500000 and all requested steps of at most `h ≤ h₀`, the simulated flight is flown without error and ends within `C (h² + ε)` of the motion in position,
velocity, angular velocity and orientation. What is missing: see `body_adaptive_converges_partial`. -/
theorem rigid_adaptive_converges_partial (m : String) (hm : m ∈ ["RK12Adaptive", "RK23Adaptive", "RK45Adaptive", "RK78Adaptive"]) (fsal : Bool)
    (hne : ∀ t s, (inertia t s).mass ≠ 0 ∧ (inertia t s).moi.x ≠ 0 ∧ (inertia t s).moi.y ≠ 0 ∧ (inertia t s).moi.z ≠ 0)
    (R : RigidMotion force moment inertia y a e) (H : SmoothBody force moment inertia U) (mem : ∀ t ∈ Icc a e, (t, enc (y t)) ∈ U) (hae : a < e)
    {Ω : ℝ} (hΩ : Ω < 2 * Real.pi) (slow : ∀ t ∈ Icc a e, (y t).angVel.length ≤ Ω) :
    ∃ C h₀ ε₀ : ℝ, 0 ≤ C ∧ 0 < h₀ ∧ 0 < ε₀ ∧ ∀ ε ∈ Icc 0 ε₀, ∀ tab, NearTab m fsal ε tab → ∀ s : Settings ℝ, 0 < s.minTimeStep → s.targetError < 500000 →
      ∀ h ∈ Ioc 0 h₀, ∀ dts : List ℝ, (∀ dt ∈ dts, max s.minTimeStep dt ≤ h) → a + (dts.map (max s.minTimeStep)).sum ≤ e →
        ∃ hs b' n, (∀ fuel > n, flyAdaptive bodyArith s tab fsal (bodyRhs force moment inertia) fuel ⟨a, y a, none⟩ dts = .ok (hs, b')) ∧
          List.Forall₂ (fun k dt => s.minTimeStep ≤ k ∧ k ≤ max s.minTimeStep dt) hs dts ∧ b'.time = a + hs.sum ∧ Quat.Unit b'.state.ori ∧
          ∀ r, r = C * (h ^ 2 + ε) →
            (b'.state.pos - (y b'.time).pos).length ≤ r ∧ (b'.state.vel - (y b'.time).vel).length ≤ r ∧
            (b'.state.angVel - (y b'.time).angVel).length ≤ r ∧ ‖Quat.toH b'.state.ori - Quat.toH (y b'.time).ori‖ ≤ r := by
  obtain ⟨g, hg, M, S⟩ := rigid_setup hne R H mem
  obtain ⟨g', hg'⟩ := rigid_rhs (force := force) (moment := moment) hne
  have slow' : ∀ t ∈ Icc a e, (g t (y t)).angVel.length ≤ Ω := by
    intro t ht
    have hu := R.unit t ht
    have e1 := hg t (y t) hu
    rw [(hg' t (y t) hu).1] at e1
    injection e1 with e1
    rw [← e1, (hg' t (y t) hu).2.2.2.1, ENV.rotF_length (ENV.unit_ne hu)]
    exact slow t ht
  obtain ⟨L, ρ, hL, hρ, lip⟩ := smooth_lip M S
  obtain ⟨Γ, γ', hΓ, hγ, hb, hl⟩ := smooth_rate M S hae
  obtain ⟨C, h₀, ε₀, hC, hh₀, hε₀, key⟩ := body_adaptive_converges_partial m hm fsal (bodyRhs force moment inertia) hg M hL hρ hΓ lip γ' hγ hb hl hae.le hΩ slow'
  refine ⟨C, h₀, ε₀, hC, hh₀, hε₀, fun ε hε tab hn s hmin htar h hh dts hdts hsum => ?_⟩
  obtain ⟨hs, b', n, k1, k2, k3, k4, k5⟩ := (key ε hε tab hn s hmin h hh dts).1 htar hdts hsum
  refine ⟨hs, b', n, k1, k2, k3, k4, ?_⟩
  rintro r rfl
  exact (apart_le_iff _ _ _).1 k5

/-- **C105.** Whatever the spin, a flight that completes with accepted steps of at most `h` ends within `C (h + ε)` of the motion. What is missing: see
`body_adaptive_rough_partial`. -/
theorem rigid_adaptive_rough_partial (m : String) (hm : m ∈ ["RK12Adaptive", "RK23Adaptive", "RK45Adaptive", "RK78Adaptive"]) (fsal : Bool)
    (hne : ∀ t s, (inertia t s).mass ≠ 0 ∧ (inertia t s).moi.x ≠ 0 ∧ (inertia t s).moi.y ≠ 0 ∧ (inertia t s).moi.z ≠ 0)
    (R : RigidMotion force moment inertia y a e) (H : SmoothBody force moment inertia U) (mem : ∀ t ∈ Icc a e, (t, enc (y t)) ∈ U) (hae : a < e) :
    ∃ C h₀ ε₀ : ℝ, 0 ≤ C ∧ 0 < h₀ ∧ 0 < ε₀ ∧ ∀ ε ∈ Icc 0 ε₀, ∀ tab, NearTab m fsal ε tab → ∀ s : Settings ℝ, 0 < s.minTimeStep → ∀ fuel dts hs b',
      flyAdaptive bodyArith s tab fsal (bodyRhs force moment inertia) fuel ⟨a, y a, none⟩ dts = .ok (hs, b') → ∀ h ∈ Ioc 0 h₀, (∀ x ∈ hs, x ≤ h) → b'.time ≤ e →
        b'.time = a + hs.sum ∧ hs.length = dts.length ∧ Quat.Unit b'.state.ori ∧ apart b'.state (y b'.time) ≤ C * (h + ε) := by
  obtain ⟨g, hg, M, S⟩ := rigid_setup hne R H mem
  obtain ⟨L, ρ, hL, hρ, lip⟩ := smooth_lip M S
  obtain ⟨Γ, γ', hΓ, hγ, hb, _⟩ := smooth_rate M S hae
  exact body_adaptive_rough_partial m hm fsal (bodyRhs force moment inertia) hg M hL hρ hΓ lip (lip_of_bound hγ hb) hae.le

/-- The rocket of `spinning_up`, flown with the default method. -/
example : ∃ C h₀ ε₀ : ℝ, 0 ≤ C ∧ 0 < h₀ ∧ 0 < ε₀ ∧ ∀ ε ∈ Icc 0 ε₀, ∀ tab, NearTab "RK45Adaptive" true ε tab → ∀ s : Settings ℝ, 0 < s.minTimeStep → s.targetError < 500000 →
      ∀ h ∈ Ioc 0 h₀, ∀ dts : List ℝ, (∀ dt ∈ dts, max s.minTimeStep dt ≤ h) → 0 + (dts.map (max s.minTimeStep)).sum ≤ 1 →
        ∃ hs b' n, (∀ fuel > n, flyAdaptive bodyArith s tab true (bodyRhs (fun _ _ => ⟨0, 0, 6⟩) (fun _ _ => ⟨0, 0, 4⟩) (fun _ _ => ⟨3, ⟨5, 5, 2⟩, ⟨0, 0, 1⟩⟩)) fuel
            ⟨0, ⟨⟨0, 0, 0⟩, ⟨0, 0, 0⟩, ⟨1, 0, 0, 0⟩, ⟨0, 0, 0⟩⟩, none⟩ dts = .ok (hs, b')) ∧ b'.time = 0 + hs.sum ∧
          (b'.state.pos - ⟨0, 0, b'.time ^ 2⟩).length ≤ C * (h ^ 2 + ε) := by
  have hpi := Real.pi_gt_three
  obtain ⟨C, h₀, ε₀, hC, hh₀, hε₀, key⟩ := rigid_adaptive_converges_partial "RK45Adaptive" (by simp) true (by norm_num) spinning_up.1 spinning_up.2 (fun _ _ => mem_univ _) one_pos
    (Ω := 2) (by linarith) (by
      intro t ht
      have e : (⟨0, 0, 2 * t⟩ : V3 ℝ) = (2 * t) • ⟨0, 0, 1⟩ := by apply V3.ext' <;> simp
      show (⟨0, 0, 2 * t⟩ : V3 ℝ).length ≤ 2
      have e1 : (⟨0, 0, 1⟩ : V3 ℝ).length = 1 := by simp [V3.length]
      rw [e, V3.length_smul, e1, mul_one]
      rw [abs_of_nonneg (by linarith [ht.1])]
      linarith [ht.2])
  refine ⟨C, h₀, ε₀, hC, hh₀, hε₀, fun ε hε tab hn s hmin htar h hh dts hdts hsum => ?_⟩
  obtain ⟨hs, b', n, k1, _, k3, _, k5⟩ := key ε hε tab hn s hmin htar h hh dts hdts hsum
  refine ⟨hs, b', n, fun fuel hf => ?_, k3, (k5 _ rfl).1⟩
  have := k1 fuel hf
  norm_num at this
  exact this

/-- such tableaus, steps and requests: the code's own, and every step within the second -/
example : ∃ tab fsal, adaptiveWorking "RK45Adaptive" = .ok (tab, fsal) ∧ NearTab "RK45Adaptive" fsal (1 / 10 ^ 16) tab := code_near ("RK45Adaptive", 4) (by simp [adaptiveOrders])

end rigid
end Mapleaf.Motion.Turn
