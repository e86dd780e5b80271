import Verif.Rocket.GeomProps
import Verif.Rocket.CoeffProps
import Verif.Motion.InterpProps

/-!
# C44 (continued): transitions, body tubes, stages; pressure drag of cones
-/

namespace Mapleaf.Rocket
open Mapleaf.Motion V3 intervalIntegral

/-- **C44** violated: the centre of pressure of a nose cone is computed as if its tip were at the origin; a cone or ogive whose tip is
further than its length from the origin has its centre of pressure outside. -/
theorem nose_position_violated (n : Nose) (hs : n.shape = .tangentOgive) (hD : 0 < n.baseDiameter) (hL : n.baseDiameter / 2 ≤ n.length)
    (tipZ : ℝ) (ht : n.length < |tipZ|) : ∃ c, n.cpLocation = .ok c ∧ ¬ (tipZ - n.length ≤ c.z ∧ c.z ≤ tipZ) := by
  obtain ⟨c, hc, -, -, h1, h2⟩ := n.ogive_cp hs hD hL
  refine ⟨c, hc, ?_⟩
  rintro ⟨h3, h4⟩
  rcases le_total 0 tipZ with h | h
  · rw [abs_of_nonneg h] at ht; linarith
  · rw [abs_of_nonpos h] at ht; linarith

example : ∃ c, (Nose.mk 3 0.1 .tangentOgive).cpLocation = .ok c ∧ -0.3 ≤ c.z ∧ c.z ≤ 0 := by
  have hl : (Nose.mk 3 0.1 .tangentOgive).length = 0.3 := by norm_num [Nose.length]
  obtain ⟨c, hc, -, -, h1, h2⟩ := (Nose.mk 3 0.1 .tangentOgive).ogive_cp rfl (by norm_num) (by rw [hl]; norm_num)
  rw [hl] at h1
  exact ⟨c, hc, h1, h2⟩

namespace Trans

/-- the transition's radius -/
noncomputable def coneRadius (t : Trans) (d : ℝ) : ℝ := (d / t.length * (t.endDiameter - t.startDiameter) + t.startDiameter) / 2

theorem getRadius_spec (t : Trans) (hL : t.length ≠ 0) (d : ℝ) :
    t.getRadius d = .ok (t.coneRadius d) ∧ t.coneRadius 0 = t.startDiameter / 2 ∧ t.coneRadius t.length = t.endDiameter / 2 := by
  refine ⟨by unfold getRadius; rw [if_neg hL]; rfl, by simp [coneRadius], ?_⟩
  unfold coneRadius; rw [div_self hL]; ring

theorem integral_linear (a b L : ℝ) : (∫ x in (0 : ℝ)..L, (a * x + b)) = a * L ^ 2 / 2 + b * L := by
  rw [intervalIntegral.integral_add (by apply Continuous.intervalIntegrable; fun_prop) (by simp), intervalIntegral.integral_const_mul, integral_id,
    intervalIntegral.integral_const, smul_eq_mul]
  ring

theorem integral_linear_sq (a b L : ℝ) : (∫ x in (0 : ℝ)..L, (a * x + b) ^ 2) = a ^ 2 * L ^ 3 / 3 + a * b * L ^ 2 + b ^ 2 * L := by
  have : (fun x : ℝ => (a * x + b) ^ 2) = fun x => a ^ 2 * x ^ 2 + (2 * a * b * x + b ^ 2) := by funext x; ring
  rw [this, intervalIntegral.integral_add (by apply Continuous.intervalIntegrable; fun_prop) (by apply Continuous.intervalIntegrable; fun_prop),
    integral_linear, intervalIntegral.integral_const_mul, integral_pow]
  push_cast
  ring

theorem revVolume_eq (t : Trans) (hL : t.length ≠ 0) : revVolume t.coneRadius t.length =
    Real.pi * t.length * (t.startDiameter ^ 2 + t.startDiameter * t.endDiameter + t.endDiameter ^ 2) / 12 := by
  unfold revVolume coneRadius
  rw [intervalIntegral.integral_const_mul]
  have : (fun x : ℝ => ((x / t.length * (t.endDiameter - t.startDiameter) + t.startDiameter) / 2) ^ 2) =
      fun x => ((t.endDiameter - t.startDiameter) / t.length / 2 * x + t.startDiameter / 2) ^ 2 := by funext x; congr 1; ring
  rw [this, integral_linear_sq]
  field_simp
  ring

theorem lateralArea_eq (t : Trans) (hL : 0 < t.length) :
    lateralArea t.coneRadius (fun _ => (t.endDiameter - t.startDiameter) / 2 / t.length) t.length =
    Real.pi * (t.startDiameter + t.endDiameter) / 2 * Real.sqrt (t.length ^ 2 + ((t.endDiameter - t.startDiameter) / 2) ^ 2) := by
  unfold lateralArea coneRadius
  have hq : Real.sqrt (1 + ((t.endDiameter - t.startDiameter) / 2 / t.length) ^ 2) =
      Real.sqrt (t.length ^ 2 + ((t.endDiameter - t.startDiameter) / 2) ^ 2) / t.length := by
    have e : 1 + ((t.endDiameter - t.startDiameter) / 2 / t.length) ^ 2 = (t.length ^ 2 + ((t.endDiameter - t.startDiameter) / 2) ^ 2) / t.length ^ 2 := by
      field_simp
    rw [e, Real.sqrt_div (by positivity), Real.sqrt_sq hL.le]
  simp only [hq]
  set S := Real.sqrt (t.length ^ 2 + ((t.endDiameter - t.startDiameter) / 2) ^ 2)
  have : (fun x : ℝ => 2 * Real.pi * ((x / t.length * (t.endDiameter - t.startDiameter) + t.startDiameter) / 2) * (S / t.length)) =
      fun x => (Real.pi * S * (t.endDiameter - t.startDiameter) / t.length ^ 2) * x + Real.pi * S * t.startDiameter / t.length := by
    funext x; field_simp
  rw [this, integral_linear]
  field_simp
  ring

/-- **C44.** When a transition can be built, and its wetted area: always the lateral area of its shape. -/
theorem geometry_wetted (t : Trans) (hL : 0 < t.length) (hs : 0 ≤ t.startDiameter) (he : 0 ≤ t.endDiameter) :
    (t.geometry = .error .zeroDivision ↔ t.startDiameter = t.endDiameter) ∧
    ∀ w v c, t.geometry = .ok (w, v, c) →
      w = lateralArea t.coneRadius (fun _ => (t.endDiameter - t.startDiameter) / 2 / t.length) t.length ∧
      c = barrowmanCP t.length t.topArea t.bottomArea v t.position := by
  have hsl : (max t.startDiameter t.endDiameter - min t.startDiameter t.endDiameter) / t.length = 0 ↔ t.startDiameter = t.endDiameter := by
    rw [div_eq_zero_iff, or_iff_left hL.ne', max_sub_min_eq_abs, abs_eq_zero, sub_eq_zero, eq_comm]
  constructor
  · unfold geometry
    rw [if_neg hL.ne']
    dsimp only
    rw [← hsl]
    split <;> simp_all
  · intro w v c h
    unfold geometry at h
    rw [if_neg hL.ne'] at h
    dsimp only at h
    split at h
    · cases h
    · rename_i hne
      have hne' := fun h' => hne (hsl.2 h')
      simp only [Except.ok.injEq, Prod.mk.injEq] at h
      obtain ⟨h1, h2, h3⟩ := h
      refine ⟨?_, ?_⟩
      · rw [← h1, lateralArea_eq t hL]
        have key : ∀ M m : ℝ, 0 ≤ m → m < M → ∀ x, 0 ≤ x →
            Real.sqrt ((x / 2) ^ 2 + (x / ((M - m) / t.length)) ^ 2) = x / (M - m) * Real.sqrt (t.length ^ 2 + ((M - m) / 2) ^ 2) := by
          intro M m hm hM x hx
          have hd : 0 < M - m := by linarith
          have e : (x / 2) ^ 2 + (x / ((M - m) / t.length)) ^ 2 = (x / (M - m)) ^ 2 * (t.length ^ 2 + ((M - m) / 2) ^ 2) := by
            field_simp; ring
          rw [e, Real.sqrt_mul (by positivity), Real.sqrt_sq (by positivity)]
        rcases lt_or_gt_of_ne hne' with hlt | hgt
        · rw [max_eq_right hlt.le, min_eq_left hlt.le, key _ _ hs hlt _ he, key _ _ hs hlt _ hs]
          have hd : t.endDiameter - t.startDiameter ≠ 0 := by linarith
          field_simp
          ring
        · rw [max_eq_left hgt.le, min_eq_right hgt.le, key _ _ he hgt _ he, key _ _ he hgt _ hs]
          have hd : t.startDiameter - t.endDiameter ≠ 0 := by linarith
          have : ((t.endDiameter - t.startDiameter) / 2) ^ 2 = ((t.startDiameter - t.endDiameter) / 2) ^ 2 := by ring
          rw [this]
          field_simp
          ring
      · rw [← h3, ← h2]

/-- **C44.** A narrowing transition has the volume of its shape, and its centre of pressure inside. -/
theorem narrowing (t : Trans) (hL : 0 < t.length) (he : 0 ≤ t.endDiameter) (hse : t.endDiameter < t.startDiameter) :
    ∃ w c, t.geometry = .ok (w, revVolume t.coneRadius t.length, c) ∧ c.x = t.position.x ∧ c.y = t.position.y ∧
      t.position.z - t.length ≤ c.z ∧ c.z ≤ t.position.z := by
  have hs : 0 < t.startDiameter := by linarith
  have hp := Real.pi_pos
  have hd : t.startDiameter - t.endDiameter ≠ 0 := by linarith
  have hv : t.topArea * (t.startDiameter / ((t.startDiameter - t.endDiameter) / t.length)) / 3 -
      t.bottomArea * (t.endDiameter / ((t.startDiameter - t.endDiameter) / t.length)) / 3 = revVolume t.coneRadius t.length := by
    rw [revVolume_eq t hL.ne']
    unfold topArea bottomArea
    field_simp
    ring
  have hne : t.topArea ≠ t.bottomArea := by
    unfold topArea bottomArea
    have : t.endDiameter ^ 2 < t.startDiameter ^ 2 := by nlinarith
    intro h
    have : t.endDiameter ^ 2 * Real.pi < t.startDiameter ^ 2 * Real.pi := mul_lt_mul_of_pos_right this hp
    linarith
  refine ⟨_, _, by
    unfold geometry
    rw [if_neg hL.ne']
    dsimp only
    rw [max_eq_left hse.le, min_eq_right hse.le, if_neg (div_ne_zero hd hL.ne'), hv], ?_⟩
  refine ⟨rfl, rfl, ?_⟩
  have := (barrowmanCP_inside t.length t.topArea t.bottomArea (revVolume t.coneRadius t.length) t.position hne).2.2.2 (Or.inr ?_)
  · convert this
  · rw [revVolume_eq t hL.ne']
    unfold topArea bottomArea
    have h1 : t.endDiameter ^ 2 < t.startDiameter ^ 2 := by nlinarith
    have h2 : t.endDiameter ^ 2 ≤ t.startDiameter * t.endDiameter := by nlinarith
    have h3 : t.startDiameter * t.endDiameter ≤ t.startDiameter ^ 2 := by nlinarith
    have hpl : 0 < Real.pi * t.length := by positivity
    refine ⟨?_, ?_, by nlinarith⟩
    · nlinarith [mul_le_mul_of_nonneg_left h2 hpl.le, mul_lt_mul_of_pos_left h1 hpl]
    · nlinarith [mul_le_mul_of_nonneg_left h3 hpl.le, mul_lt_mul_of_pos_left h1 hpl]

/-- **C44** violated: a widening transition gets a volume that is not positive, and a centre of pressure at or behind its lower end
whenever its upper diameter is not zero. -/
theorem widening_violated (t : Trans) (hL : 0 < t.length) (hs : 0 < t.startDiameter) (hse : t.startDiameter < t.endDiameter) :
    ∃ w v c, t.geometry = .ok (w, v, c) ∧ v < 0 ∧ 0 < revVolume t.coneRadius t.length ∧ c.z < t.position.z - t.length := by
  have he : 0 < t.endDiameter := by linarith
  have hp := Real.pi_pos
  have hd : 0 < t.endDiameter - t.startDiameter := by linarith
  have hv : t.topArea * (t.endDiameter / ((t.endDiameter - t.startDiameter) / t.length)) / 3 -
      t.bottomArea * (t.startDiameter / ((t.endDiameter - t.startDiameter) / t.length)) / 3 =
      -(Real.pi * t.length * t.startDiameter * t.endDiameter / 12) := by
    unfold topArea bottomArea
    field_simp
    ring
  have hA : t.topArea < t.bottomArea := by
    unfold topArea bottomArea
    have : t.startDiameter ^ 2 < t.endDiameter ^ 2 := by nlinarith
    have := mul_lt_mul_of_pos_right this hp
    linarith
  refine ⟨_, _, _, by
    unfold geometry
    rw [if_neg hL.ne']
    dsimp only
    rw [max_eq_right hse.le, min_eq_left hse.le, if_neg (div_ne_zero hd.ne' hL.ne'), hv], ?_, ?_, ?_⟩
  · rw [neg_lt_zero]; positivity
  · rw [revVolume_eq t hL.ne']; positivity
  · unfold barrowmanCP
    dsimp only
    rw [if_neg hA.ne]
    have h1 : 0 < t.bottomArea - t.topArea := by linarith
    have h2 : t.length < (t.length * t.bottomArea - -(Real.pi * t.length * t.startDiameter * t.endDiameter / 12)) / (t.bottomArea - t.topArea) := by
      rw [lt_div_iff₀ h1]
      have : 0 < Real.pi * t.length * t.startDiameter * t.endDiameter / 12 := by positivity
      have h3 : 0 ≤ t.length * t.topArea := by unfold topArea; positivity
      linarith
    linarith

/-- **C44.** Cutting a transition in two anywhere: radii agree at the cut, volumes and lateral areas add up. -/
theorem split (t : Trans) (x : ℝ) (hx : 0 < x) (hx' : x < t.length) :
    let a : Trans := ⟨t.startDiameter, 2 * t.coneRadius x, x, t.position⟩
    let b : Trans := ⟨2 * t.coneRadius x, t.endDiameter, t.length - x, ⟨t.position.x, t.position.y, t.position.z - x⟩⟩
    (∀ d, a.coneRadius d = t.coneRadius d) ∧ (∀ d, b.coneRadius d = t.coneRadius (x + d)) ∧
    revVolume a.coneRadius a.length + revVolume b.coneRadius b.length = revVolume t.coneRadius t.length := by
  intro a b
  have hL : t.length ≠ 0 := by linarith
  have hx0 : x ≠ 0 := hx.ne'
  have hlx : t.length - x ≠ 0 := by linarith
  have ha : ∀ d, a.coneRadius d = t.coneRadius d := by
    intro d
    simp only [a, coneRadius]
    field_simp
    ring
  have hb : ∀ d, b.coneRadius d = t.coneRadius (x + d) := by
    intro d
    simp only [b, coneRadius]
    field_simp
    ring
  refine ⟨ha, hb, ?_⟩
  unfold revVolume
  rw [funext ha, funext hb]
  have h2 : (∫ d in (0 : ℝ)..(t.length - x), Real.pi * t.coneRadius (x + d) ^ 2) = ∫ y in x..t.length, Real.pi * t.coneRadius y ^ 2 := by
    have := integral_comp_add_left (fun y => Real.pi * t.coneRadius y ^ 2) x (a := 0) (b := t.length - x)
    simpa using this
  show (∫ d in (0 : ℝ)..x, Real.pi * t.coneRadius d ^ 2) + (∫ d in (0 : ℝ)..(t.length - x), Real.pi * t.coneRadius (x + d) ^ 2) = _
  rw [h2]
  have hc : Continuous fun y => Real.pi * t.coneRadius y ^ 2 := by unfold coneRadius; fun_prop
  exact integral_add_adjacent_intervals (hc.intervalIntegrable _ _) (hc.intervalIntegrable _ _)

/-- **C44.** The drag factor of a narrowing transition is between 0 and 1; which transitions and boat tails can be flown. -/
theorem drag_defined (t : Trans) :
    (∀ k, t.cdFactor = some k → 0 ≤ k ∧ k ≤ 1) ∧
    (∀ mach aref off, aref ≠ 0 → ((∃ c, t.boatTailCd mach aref off = .ok c) ↔ t.endDiameter ≤ t.startDiameter)) ∧
    (∀ mach, t.startDiameter = t.endDiameter → t.pressureCd mach = .error .attributeError) := by
  refine ⟨?_, ?_, ?_⟩
  · intro k hk
    unfold cdFactor at hk
    dsimp only at hk
    split at hk
    · generalize (if t.startDiameter = t.endDiameter then (100 : ℝ) else t.length / |t.startDiameter - t.endDiameter|) = ar at hk
      obtain rfl := Option.some.inj hk
      by_cases h1 : ar < 1
      · rw [if_pos h1]; norm_num
      · rw [if_neg h1]
        by_cases h3 : ar < 3
        · rw [if_pos h3]; constructor <;> linarith
        · rw [if_neg h3]; norm_num
    · cases hk
  · intro mach aref off ha
    unfold boatTailCd cdFactor
    dsimp only
    by_cases h : t.endDiameter ≤ t.startDiameter
    · rw [if_pos h]; simp [h, ha]
    · rw [if_neg h]; simp [h]
  · intro mach h
    unfold pressureCd halfAngle
    rw [if_neg (by rw [h]; exact lt_irrefl _), if_pos h.ge]

/-- **C44.** Base drag: with the engine off a boat tail's drag grows by the base drag of its lower end; the automatically added boat tail
of length zero and equal diameters has base drag only. -/
theorem boatTail_base (t : Trans) (mach aref : ℝ) (ha : aref ≠ 0) (hse : t.endDiameter ≤ t.startDiameter) :
    (∃ c, t.boatTailCd mach aref false = .ok c ∧ t.boatTailCd mach aref true = .ok (c + baseDragCd mach * t.bottomArea / aref)) ∧
    (t.endDiameter = t.startDiameter → t.boatTailCd mach aref false = .ok 0) := by
  unfold boatTailCd cdFactor
  dsimp only
  rw [if_pos hse]
  simp only
  rw [if_neg ha, if_neg ha]
  refine ⟨⟨_, rfl, rfl⟩, fun h => ?_⟩
  have : t.topArea = t.bottomArea := by unfold topArea bottomArea; rw [h]
  simp [this]

end Trans

/-- an ordinary boat tail meets the hypotheses -/
example : ∃ w c, (Trans.mk 0.1 0.06 0.2 ⟨0, 0, -2⟩).geometry = .ok (w, revVolume (Trans.mk 0.1 0.06 0.2 ⟨0, 0, -2⟩).coneRadius 0.2, c) ∧
    -2.2 ≤ c.z ∧ c.z ≤ -2 := by
  obtain ⟨w, c, h, -, -, h1, h2⟩ := (Trans.mk 0.1 0.06 0.2 ⟨0, 0, -2⟩).narrowing (by norm_num) (by norm_num) (by norm_num)
  refine ⟨w, c, h, ?_, h2⟩
  norm_num at h1 ⊢
  exact h1

/-- **C44.** Body tube: volume, areas and centre of pressure of the cylinder; cutting it in two adds up. -/
theorem tube_geometry (t : Tube) :
    t.volume = revVolume (fun _ => t.outerDiameter / 2) t.length ∧ t.planform = sectionArea (fun _ => t.outerDiameter / 2) t.length ∧
    t.wetted = lateralArea (fun _ => t.outerDiameter / 2) (fun _ => 0) t.length ∧
    t.cpLocation = ⟨t.position.x, t.position.y, t.position.z - t.length / 2⟩ ∧
    (∀ d, t.getRadius d = t.outerDiameter / 2) ∧
    ∀ x p, (Tube.mk t.outerDiameter x t.position).volume + (Tube.mk t.outerDiameter (t.length - x) p).volume = t.volume ∧
      (Tube.mk t.outerDiameter x t.position).wetted + (Tube.mk t.outerDiameter (t.length - x) p).wetted = t.wetted := by
  refine ⟨?_, ?_, ?_, ?_, fun _ => rfl, fun x p => ⟨?_, ?_⟩⟩
  · unfold Tube.volume revVolume; rw [intervalIntegral.integral_const, smul_eq_mul]; ring
  · unfold Tube.planform sectionArea; rw [intervalIntegral.integral_const, smul_eq_mul]; ring
  · unfold Tube.wetted lateralArea; simp; ring
  · unfold Tube.cpLocation; ext <;> simp
  · unfold Tube.volume; ring
  · unfold Tube.wetted; ring

/-! ## Pressure drag of cones -/

/-- **C43** violated: at exactly Mach 1 the pressure drag of nose cones and widening transitions divides by zero. -/
theorem sonic_violated (angle : ℝ) (hs : Real.sin angle ≠ 0) : conePressureCd angle 1 = .error .zeroDivision := by
  have h1 : ∃ s, subsonicCoeffs angle = .ok s := ⟨_, by unfold subsonicCoeffs; rw [if_neg hs]⟩
  have hh : ∀ m : ℝ, 1 < m → ∃ x, hoerner angle m = .ok x := by
    intro m hm
    refine ⟨2.1 * Real.sin angle ^ 2 + 0.5 * Real.sin angle / Real.sqrt (m ^ 2 - 1), ?_⟩
    unfold hoerner
    rw [if_neg (by nlinarith), if_neg (Real.sqrt_pos.2 (by nlinarith)).ne']
  obtain ⟨s, hs'⟩ := h1
  obtain ⟨a, ha⟩ := hh 1.3 (by norm_num)
  obtain ⟨b, hb⟩ := hh 1.301 (by norm_num)
  obtain ⟨t, ht⟩ : ∃ t, transonicCoeffs angle = .ok t := by
    unfold transonicCoeffs
    rw [ha, hb]
    simp only [bind, Except.bind]
    rcases hc : cubicCoefficients (1 : ℝ) 1.3 (Real.sin angle) a (sonicSlope angle) ((b - a) / 0.001) with e | c
    · exfalso
      unfold cubicCoefficients at hc
      unfold getInvAMatrix at hc
      split at hc
      · rename_i h
        split at h
        · rename_i h0
          rw [cubicMatrix_det] at h0
          norm_num at h0
        · cases h
      · cases hc
    · exact ⟨c, rfl⟩
  unfold conePressureCd
  rw [hs', ht]
  simp only
  rw [if_neg (lt_irrefl _), if_neg (by norm_num)]
  unfold hoerner
  norm_num

/-- **C43.** Away from Mach 1 the pressure drag of a cone is defined; around it the power law, the cubic and Hoerner's formula fit together:
both one-sided limits at Mach 1 are `sin angle`, the slopes on both sides agree there, and at 1.3 the values agree. -/
theorem conePressure_joint (angle : ℝ) (h0 : 0 < angle) (h1 : angle ≤ Real.pi / 2) :
    ∃ (p : ℝ) (t : Fin 4 → ℝ), 0 < p ∧ (∀ m, m < 1 → conePressureCd angle m = .ok (Real.sin angle * m ^ p)) ∧
      (∀ m, 1 < m → m < 1.3 → conePressureCd angle m = .ok ((cubicPoly t).eval m)) ∧
      (∀ m, 1.3 ≤ m → conePressureCd angle m = .ok (2.1 * Real.sin angle ^ 2 + 0.5 * Real.sin angle / Real.sqrt (m ^ 2 - 1))) ∧
      (cubicPoly t).eval 1 = Real.sin angle ∧
      HasDerivAt (fun m : ℝ => Real.sin angle * m ^ p) ((Polynomial.derivative (cubicPoly t)).eval 1) 1 ∧
      (cubicPoly t).eval 1.3 = 2.1 * Real.sin angle ^ 2 + 0.5 * Real.sin angle / Real.sqrt (1.3 ^ 2 - 1) := by
  have hsin : 0 < Real.sin angle := Real.sin_pos_of_pos_of_lt_pi h0 (by linarith [Real.pi_pos])
  have hsin1 := Real.sin_le_one angle
  have hsub : subsonicCoeffs angle = .ok (Real.sin angle, sonicSlope angle / Real.sin angle) := by
    unfold subsonicCoeffs; rw [if_neg hsin.ne']
  have hh : ∀ m : ℝ, 1 < m → hoerner angle m = .ok (2.1 * Real.sin angle ^ 2 + 0.5 * Real.sin angle / Real.sqrt (m ^ 2 - 1)) := by
    intro m hm
    unfold hoerner
    rw [if_neg (by nlinarith), if_neg (Real.sqrt_pos.2 (by nlinarith)).ne']
  have hslope : 0 < sonicSlope angle := by
    unfold sonicSlope
    have : 0 < 1 - 0.5 * Real.sin angle := by linarith
    positivity
  have ha := hh 1.3 (by norm_num)
  have hb := hh 1.301 (by norm_num)
  set a := 2.1 * Real.sin angle ^ 2 + 0.5 * Real.sin angle / Real.sqrt (1.3 ^ 2 - 1) with haa
  set b := 2.1 * Real.sin angle ^ 2 + 0.5 * Real.sin angle / Real.sqrt (1.301 ^ 2 - 1) with hbb
  obtain ⟨t, ht⟩ : ∃ t, cubicCoefficients (1 : ℝ) 1.3 (Real.sin angle) a (sonicSlope angle) ((b - a) / 0.001) = .ok t := by
    rcases hc : cubicCoefficients (1 : ℝ) 1.3 (Real.sin angle) a (sonicSlope angle) ((b - a) / 0.001) with e | c
    · exfalso
      unfold cubicCoefficients at hc
      unfold getInvAMatrix at hc
      split at hc
      · rename_i h
        split at h
        · rename_i h0
          rw [cubicMatrix_det] at h0
          norm_num at h0
        · cases h
      · cases hc
    · exact ⟨c, rfl⟩
  have htr : transonicCoeffs angle = .ok t := by
    unfold transonicCoeffs
    rw [ha, hb]
    simp only [bind, Except.bind]
    exact ht
  obtain ⟨-, e1, e2, e3, -⟩ := ((cubicCoefficients_spec (1 : ℝ) 1.3 (Real.sin angle) a (sonicSlope angle) ((b - a) / 0.001)).2 t).1 ht
  have heval : ∀ m : ℝ, (cubicPoly t).eval m = t 0 + t 1 * m + t 2 * m ^ 2 + t 3 * m ^ 3 := by
    intro m; unfold cubicPoly; simp
  refine ⟨sonicSlope angle / Real.sin angle, t, by positivity, ?_, ?_, ?_, e1, ?_, e2⟩
  · intro m hm
    unfold conePressureCd
    rw [hsub, htr]
    simp only
    rw [if_pos hm]
  · intro m hm hm'
    unfold conePressureCd
    rw [hsub, htr]
    simp only
    rw [if_neg (by linarith), if_pos ⟨hm, hm'⟩, heval]
  · intro m hm
    unfold conePressureCd
    rw [hsub, htr]
    simp only
    rw [if_neg (by norm_num at hm ⊢; linarith), if_neg (by rintro ⟨-, h⟩; linarith), hh m (by norm_num at hm ⊢; linarith)]
  · rw [e3]
    have := (Real.hasDerivAt_rpow_const (x := 1) (p := sonicSlope angle / Real.sin angle) (Or.inl one_ne_zero)).const_mul (Real.sin angle)
    refine this.congr_deriv ?_
    rw [Real.one_rpow]
    field_simp

example : ∃ c, conePressureCd (Real.pi / 12) 0.5 = .ok c ∧ 0 < c := by
  have hp := Real.pi_pos
  obtain ⟨p, t, -, h, -⟩ := conePressure_joint (Real.pi / 12) (by linarith) (by linarith)
  exact ⟨_, h 0.5 (by norm_num), mul_pos (Real.sin_pos_of_pos_of_lt_pi (by linarith) (by linarith)) (by positivity)⟩

/-! ## Stages -/

section stage
variable {K : Type} [Field K] [LinearOrder K] [IsStrictOrderedRing K]

/-- the body components of a stage, top to bottom -/
def bodies (comps : List (BodyComp K)) : List (BodyPart K) := comps.filterMap id

/-- **C44.** The radius of a stage at a distance below its top is that of the first body component covering the place; ValueError exactly
where no component is. (Body components' own radius functions do not raise AttributeError.) -/
theorem stageRadius_spec (posZ : K) (comps : List (BodyComp K)) (d : K) (hr : ∀ b ∈ bodies comps, ∀ x, b.radius x ≠ .error .attributeError) :
    stageRadius posZ comps d = match (bodies comps).find? (fun b => decide (posZ - d ≤ b.z ∧ posZ - d ≥ b.z - b.length)) with
      | none => .error .valueError
      | some b => b.radius (b.z - (posZ - d)) := by
  induction comps with
  | nil => rfl
  | cons c l ih =>
    cases c with
    | none => exact ih hr
    | some b =>
      have ih := ih fun b' hb' => hr b' (by simp [bodies] at hb' ⊢; exact Or.inr hb')
      have hb := hr b (by simp [bodies])
      rw [stageRadius]
      have e : bodies (some b :: l) = b :: bodies l := rfl
      rw [e, List.find?_cons]
      by_cases h : posZ - d ≤ b.z ∧ posZ - d ≥ b.z - b.length
      · rw [if_pos h]
        simp only [h, decide_true, and_self]
        have := hb (b.z - (posZ - d))
        split
        · rename_i h'; exact absurd h' this
        · rfl
      · rw [if_neg h, ih]
        simp only [h, decide_false]

theorem firstBody_eq (comps : List (BodyComp K)) : firstBody comps = (bodies comps).head? := by
  unfold firstBody bodies
  induction comps with
  | nil => rfl
  | cons c l ih => cases c with
    | none => simpa using ih
    | some b => simp

/-- **C44.** The length of a stage: from the top of its first body component to the bottom of its last; undefined exactly without body
components. For components stacked without gaps it is the sum of their lengths. -/
theorem stageLength_spec (comps : List (BodyComp K)) :
    (stageLength comps = none ↔ bodies comps = []) ∧
    (∀ t b, (bodies comps).head? = some t → (bodies comps).getLast? = some b → stageLength comps = some (t.z - (b.z - b.length))) ∧
    ((bodies comps).IsChain (fun a b => b.z = a.z - a.length) → bodies comps ≠ [] → stageLength comps = some ((bodies comps).map BodyPart.length).sum) := by
  have hrev : firstBody comps.reverse = (bodies comps).getLast? := by
    rw [firstBody_eq]
    unfold bodies
    rw [List.filterMap_reverse, List.head?_reverse]
  have hval : ∀ t b, (bodies comps).head? = some t → (bodies comps).getLast? = some b → stageLength comps = some (t.z - (b.z - b.length)) := by
    intro t b ht hb
    unfold stageLength
    rw [hrev, firstBody_eq, ht, hb]
  refine ⟨?_, hval, ?_⟩
  · constructor
    · intro h
      by_contra hne
      obtain ⟨t, ht⟩ : ∃ t, (bodies comps).head? = some t := ⟨_, List.head?_eq_some_head hne⟩
      obtain ⟨b, hb⟩ : ∃ b, (bodies comps).getLast? = some b := ⟨_, List.getLast?_eq_some_getLast hne⟩
      rw [hval t b ht hb] at h
      cases h
    · intro h
      unfold stageLength
      rw [hrev, firstBody_eq, h]
      rfl
  · intro hch hne
    have tele : ∀ (l : List (BodyPart K)) (a : BodyPart K), (a :: l).IsChain (fun a b => b.z = a.z - a.length) →
        ∀ b, (a :: l).getLast? = some b → a.z - (b.z - b.length) = ((a :: l).map BodyPart.length).sum := by
      intro l
      induction l with
      | nil => intro a _ b hb; simp at hb; subst hb; simp
      | cons c l ih =>
        intro a hch b hb
        rw [List.isChain_cons_cons] at hch
        have := ih c hch.2 b (by simpa using hb)
        rw [List.map_cons, List.sum_cons, ← this, hch.1]
        ring
    obtain ⟨t, l, htl⟩ : ∃ t l, bodies comps = t :: l := List.exists_cons_of_ne_nil hne
    obtain ⟨b, hb⟩ : ∃ b, (bodies comps).getLast? = some b := ⟨_, List.getLast?_eq_some_getLast hne⟩
    rw [hval t b (by rw [htl]; rfl) hb]
    rw [htl] at hch hb ⊢
    rw [tele l t hch b hb]

/-- **C44.** The largest diameter of a stage is the largest of its components' (and 0). -/
theorem stageMaxDiameter_spec (comps : List (BodyComp K)) :
    0 ≤ stageMaxDiameter comps ∧ (∀ b ∈ bodies comps, b.maxDiameter ≤ stageMaxDiameter comps) ∧
    (stageMaxDiameter comps = 0 ∨ ∃ b ∈ bodies comps, stageMaxDiameter comps = b.maxDiameter) := by
  have key : ∀ (l : List (BodyComp K)) (m : K),
      let r := l.foldl (fun m c => match c with | some b => max b.maxDiameter m | none => m) m
      m ≤ r ∧ (∀ b ∈ bodies l, b.maxDiameter ≤ r) ∧ (r = m ∨ ∃ b ∈ bodies l, r = b.maxDiameter) := by
    intro l
    induction l with
    | nil => intro m; simp [bodies]
    | cons c l ih =>
      intro m
      cases c with
      | none => exact ih m
      | some b =>
        obtain ⟨h1, h2, h3⟩ := ih (max b.maxDiameter m)
        have e : bodies (some b :: l) = b :: bodies l := rfl
        rw [e]
        refine ⟨(le_max_right _ _).trans h1, ?_, ?_⟩
        · intro b' hb'
          rcases List.mem_cons.1 hb' with rfl | hb'
          · exact (le_max_left _ _).trans h1
          · exact h2 b' hb'
        · rcases h3 with h3 | ⟨b', hb', h3⟩
          · rcases max_choice b.maxDiameter m with h4 | h4
            · exact Or.inr ⟨b, by simp, h3.trans h4⟩
            · exact Or.inl (h3.trans h4)
          · exact Or.inr ⟨b', by simp [hb'], h3⟩
  exact key comps 0

/-- a nose of length 1 on a tube of length 3 -/
def exComps : List (BodyComp ℚ) :=
  [none, some ⟨0, 1, 1 / 10, fun d => .ok (d / 20), false⟩, some ⟨-1, 3, 1 / 10, fun _ => .ok (1 / 20), true⟩, none]

example : (bodies exComps).IsChain (fun a b => b.z = a.z - a.length) ∧ stageLength exComps = some 4 ∧ stageMaxDiameter exComps = 1 / 10 ∧
    (stageRadius 0 exComps (1 / 2)).toOption = some (1 / 40) ∧ (stageRadius 0 exComps 2).toOption = some (1 / 20) ∧
    (stageRadius 0 exComps 5).toOption = none := by
  refine ⟨?_, by decide +kernel, by decide +kernel, by decide +kernel, by decide +kernel, by decide +kernel⟩
  simp [exComps, bodies]

end stage
end Mapleaf.Rocket
