import Verif.Rocket.BodyProps
import Verif.Rocket.MotorProps
import Verif.Rocket.RecoveryProps

/-!
# Exact values where ranges were proved before (C31, C32, C43, C44)
-/

namespace Mapleaf.Rocket
open Mapleaf.Motion V3

/-! ## pressure drag of cones and transitions -/

/-- **C43.** The numbers of the pressure drag of a cone: the slope at Mach 1 is `5/3 (1 - sin/2)` on both sides, and the cubic leaves at
Mach 1.3 with the slope of the chord of Hoerner's formula from 1.3 to 1.301. -/
theorem conePressure_slopes (angle : ℝ) (h0 : 0 < angle) (h1 : angle ≤ Real.pi / 2) :
    (∀ m, m < 1 → conePressureCd angle m =
      .ok (Real.sin angle * m ^ (5 / 3 * (1 - Real.sin angle / 2) / Real.sin angle))) ∧
    ∃ t : Fin 4 → ℝ, (∀ m, 1 < m → m < 1.3 → conePressureCd angle m = .ok ((cubicPoly t).eval m)) ∧
      (Polynomial.derivative (cubicPoly t)).eval 1 = 5 / 3 * (1 - Real.sin angle / 2) ∧
      (Polynomial.derivative (cubicPoly t)).eval 1.3 = 1000 *
        (0.5 * Real.sin angle / Real.sqrt (1.301 ^ 2 - 1) - 0.5 * Real.sin angle / Real.sqrt (1.3 ^ 2 - 1)) := by
  have hsin : 0 < Real.sin angle := Real.sin_pos_of_pos_of_lt_pi h0 (by linarith [Real.pi_pos])
  have hslope : sonicSlope angle = 5 / 3 * (1 - Real.sin angle / 2) := by unfold sonicSlope; ring
  have hsub : subsonicCoeffs angle = .ok (Real.sin angle, sonicSlope angle / Real.sin angle) := by
    unfold subsonicCoeffs; rw [if_neg hsin.ne']
  have hh : ∀ m : ℝ, 1 < m → hoerner angle m = .ok (2.1 * Real.sin angle ^ 2 + 0.5 * Real.sin angle / Real.sqrt (m ^ 2 - 1)) := by
    intro m hm
    unfold hoerner
    rw [if_neg (by nlinarith), if_neg (Real.sqrt_pos.2 (by nlinarith)).ne']
  obtain ⟨p, t', _, hlow, _⟩ := conePressure_joint angle h0 h1
  obtain ⟨t, ht⟩ : ∃ t, transonicCoeffs angle = .ok t := by
    have := hlow 0 (by norm_num)
    unfold conePressureCd at this
    rw [hsub] at this
    cases h : transonicCoeffs angle with
    | error e => rw [h] at this; cases this
    | ok t => exact ⟨t, rfl⟩
  have ht' := ht
  unfold transonicCoeffs at ht'
  rw [hh 1.3 (by norm_num), hh 1.301 (by norm_num)] at ht'
  simp only [bind, Except.bind] at ht'
  obtain ⟨-, -, -, e3, e4⟩ := ((cubicCoefficients_spec ..).2 t).1 ht'
  refine ⟨?_, t, ?_, ?_, ?_⟩
  · intro m hm
    unfold conePressureCd
    rw [hsub, ht, ← hslope]
    simp only
    rw [if_pos hm]
  · intro m hm hm'
    unfold conePressureCd
    rw [hsub, ht]
    simp only
    rw [if_neg (by linarith), if_pos ⟨hm, hm'⟩]
    unfold cubicPoly
    simp
  · rw [e3, hslope]
  · rw [e4]; ring

example : (0 : ℝ) < Real.pi / 12 ∧ Real.pi / 12 ≤ Real.pi / 2 := ⟨by positivity, by linarith [Real.pi_pos]⟩

/-- **C44.** The pressure drag of a transition, exactly: narrowing, the base drag coefficient times a factor that falls linearly from 1 to 0
while the length grows from one to three differences of diameters; widening, that of the cone with the half angle of the transition, a
right angle at length zero. -/
theorem transPressure_ok_iff (t : Trans) (mach c : ℝ) :
    t.pressureCd mach = .ok c ↔
      (t.endDiameter < t.startDiameter ∧ ∃ k, c = baseDragCd mach * k ∧
        (t.length < t.startDiameter - t.endDiameter → k = 1) ∧
        (t.startDiameter - t.endDiameter ≤ t.length → t.length < 3 * (t.startDiameter - t.endDiameter) →
          k = (3 - t.length / (t.startDiameter - t.endDiameter)) / 2) ∧
        (3 * (t.startDiameter - t.endDiameter) ≤ t.length → k = 0)) ∨
      (t.startDiameter < t.endDiameter ∧ ∃ a, conePressureCd a mach = .ok c ∧
        (t.length = 0 → a = Real.pi / 2) ∧
        (t.length ≠ 0 → a = Real.arctan ((t.endDiameter - t.startDiameter) / 2 / t.length))) := by
  unfold Trans.pressureCd
  rcases lt_trichotomy t.endDiameter t.startDiameter with h | h | h
  · have hd : 0 < t.startDiameter - t.endDiameter := by linarith
    have hk : t.cdFactor = some (if t.length < t.startDiameter - t.endDiameter then 1
        else if t.length < 3 * (t.startDiameter - t.endDiameter) then (3 - t.length / (t.startDiameter - t.endDiameter)) / 2
        else 0) := by
      unfold Trans.cdFactor
      dsimp only
      rw [if_neg h.ne', if_pos h.le, abs_of_pos hd]
      have e1 : t.length / (t.startDiameter - t.endDiameter) < 1 ↔ t.length < t.startDiameter - t.endDiameter := div_lt_one hd
      have e2 : t.length / (t.startDiameter - t.endDiameter) < 3 ↔ t.length < 3 * (t.startDiameter - t.endDiameter) := div_lt_iff₀ hd
      simp only [e1, e2]
    rw [if_pos h, hk]
    simp only [Except.ok.injEq, h, true_and, not_lt.2 h.le, false_and, or_false]
    constructor
    · rintro rfl
      refine ⟨_, rfl, fun h1 => if_pos h1, fun h1 h2 => ?_, fun h1 => ?_⟩
      · rw [if_neg (by linarith), if_pos h2]
      · rw [if_neg (by linarith), if_neg (by linarith)]
    · rintro ⟨k, rfl, k1, k2, k3⟩
      congr 1
      by_cases h1 : t.length < t.startDiameter - t.endDiameter
      · rw [if_pos h1, k1 h1]
      · by_cases h2 : t.length < 3 * (t.startDiameter - t.endDiameter)
        · rw [if_neg h1, if_pos h2, k2 (not_lt.1 h1) h2]
        · rw [if_neg h1, if_neg h2, k3 (not_lt.1 h2)]
  · rw [if_neg (by rw [h]; exact lt_irrefl _)]
    unfold Trans.halfAngle
    rw [if_pos h.le]
    simp [h]
  · have hk : t.halfAngle = some (if t.length = 0 then Real.pi / 2 else
        Real.arctan ((t.endDiameter - t.startDiameter) / 2 / t.length)) := by
      unfold Trans.halfAngle
      rw [if_neg (not_le.2 h)]
      by_cases hl : t.length = 0
      · rw [if_pos hl, if_pos hl]
      · rw [if_neg hl, if_neg hl, abs_of_neg (by linarith), neg_sub]
    rw [if_neg (not_lt.2 h.le), hk]
    simp only [h, true_and, not_lt.2 h.le, false_and, false_or]
    constructor
    · intro hc
      exact ⟨_, hc, fun hl => if_pos hl, fun hl => if_neg hl⟩
    · rintro ⟨a, hc, a1, a2⟩
      by_cases hl : t.length = 0
      · rw [if_pos hl, ← a1 hl]; exact hc
      · rw [if_neg hl, ← a2 hl]; exact hc

/-- **C44.** A transition of length zero has neither wetted area nor volume; its forces act at its position. -/
theorem trans_flat (t : Trans) (h : t.length = 0) : t.geometry = .ok (0, 0, t.position) := by
  unfold Trans.geometry
  rw [if_pos h]

/-! ## motors -/

section
variable {K : Type} [Field K] [LinearOrder K] [IsStrictOrderedRing K]

/-- **C31.** The rocket's shut-off time is the later one of the two. -/
theorem rocketShutOff_spec (old : Option K) (new : K) :
    new ≤ rocketShutOff old new ∧ (∀ o, old = some o → o ≤ rocketShutOff old new) ∧
    (rocketShutOff old new = new ∨ old = some (rocketShutOff old new)) := by
  cases old with
  | none => exact ⟨le_refl _, fun o h => (nomatch h), Or.inl rfl⟩
  | some o =>
    refine ⟨le_max_right _ _, fun o' h => ?_, ?_⟩
    · cases h; exact le_max_left _ _
    · rcases max_choice o new with h | h
      · right; exact congrArg some h.symm
      · left; exact h

/-- **C31.** A propellant there is none of adds nothing: no mass, no moments of inertia, at the origin. -/
theorem propInertia_none (times weights : List K) (mois : List (V3 K)) (initCG finalCG ts : K) :
    ∃ i, propInertia times weights mois 0 initCG finalCG ts = .ok i ∧ i.mass = 0 ∧ i.moi = ⟨0, 0, 0⟩ ∧ i.cg = ⟨0, 0, 0⟩ := by
  unfold propInertia
  rw [if_pos rfl]
  exact ⟨_, rfl, rfl, rfl, rfl⟩

end

/-! ## parachute triggers -/

/-- **C32.** Which events a parachute can be deployed by, exactly. -/
theorem triggerKind_ok_iff {K : Type} (trigger : String) (value : Option K) (k : Kind K) :
    triggerKind trigger value = .ok k ↔
      ((trigger = "Apogee" ∨ trigger = "apogee") ∧ k = .apogee) ∨ (trigger = "motorBurnout" ∧ k = .burnout) ∨
      ∃ v, value = some v ∧
        (((trigger = "Altitude" ∨ trigger = "descendingThroughAltitude") ∧ k = .below v) ∨
         (trigger = "ascendingThroughAltitude" ∧ k = .above v) ∨
         ((trigger = "Time" ∨ trigger = "timeReached") ∧ k = .timeReached v)) := by
  unfold triggerKind
  by_cases h1 : trigger = "Apogee" ∨ trigger = "apogee"
  · rw [if_pos h1]
    rcases h1 with rfl | rfl <;> simp [eq_comm]
  rw [if_neg h1]
  by_cases h2 : trigger = "motorBurnout"
  · subst h2; simp [eq_comm]
  rw [if_neg h2]
  by_cases h3 : trigger = "Altitude" ∨ trigger = "descendingThroughAltitude"
  · rw [if_pos h3]
    cases value <;> rcases h3 with rfl | rfl <;> simp [eq_comm]
  rw [if_neg h3]
  by_cases h4 : trigger = "ascendingThroughAltitude"
  · subst h4; cases value <;> simp [eq_comm]
  rw [if_neg h4]
  by_cases h5 : trigger = "Time" ∨ trigger = "timeReached"
  · rw [if_pos h5]
    cases value <;> rcases h5 with rfl | rfl <;> simp [eq_comm]
  rw [if_neg h5]
  simp [h1, h2, h3, h4, h5]

example : triggerKind "Altitude" (some (300 : ℚ)) = .ok (.below 300) := by
  rw [triggerKind_ok_iff]; right; right; exact ⟨300, rfl, Or.inl ⟨Or.inl rfl, rfl⟩⟩

end Mapleaf.Rocket
