import Verif.Rocket.GeomModel
import Verif.Rocket.AeroForceProps
import Mathlib.Analysis.SpecialFunctions.Integrals.Basic
import Mathlib.Analysis.SpecialFunctions.Trigonometric.InverseDeriv
import Mathlib.Analysis.Real.Pi.Bounds

/-!
# C44: component geometry agrees with the shape

The specification is the solid of revolution of the component's own radius function: volume `∫ π r²`, planform area `∫ 2 r`, lateral
area `∫ 2 π r √(1 + r'²)`.
-/

namespace Mapleaf.Rocket
open Mapleaf.Motion V3 MeasureTheory intervalIntegral

/-- volume of the solid of revolution -/
noncomputable def revVolume (r : ℝ → ℝ) (L : ℝ) : ℝ := ∫ x in (0 : ℝ)..L, Real.pi * r x ^ 2
/-- area of its longitudinal section -/
noncomputable def sectionArea (r : ℝ → ℝ) (L : ℝ) : ℝ := ∫ x in (0 : ℝ)..L, 2 * r x
/-- area of its lateral surface -/
noncomputable def lateralArea (r r' : ℝ → ℝ) (L : ℝ) : ℝ := ∫ x in (0 : ℝ)..L, 2 * Real.pi * r x * Real.sqrt (1 + r' x ^ 2)

/-! ## Integrals -/

theorem integral_circle (rho L : ℝ) (hL : 0 ≤ L) (hr : L ≤ rho) (hr0 : 0 < rho) :
    ∫ u in (0 : ℝ)..L, Real.sqrt (rho ^ 2 - u ^ 2) = (L * Real.sqrt (rho ^ 2 - L ^ 2) + rho ^ 2 * Real.arcsin (L / rho)) / 2 := by
  have hcont : Continuous fun u : ℝ => (u * Real.sqrt (rho ^ 2 - u ^ 2) + rho ^ 2 * Real.arcsin (u / rho)) / 2 := by
    have h1 := Real.continuous_arcsin
    have h2 : Continuous fun u : ℝ => u / rho := continuous_id.div_const rho
    have h3 := h1.comp h2
    have h4 : Continuous fun u : ℝ => Real.sqrt (rho ^ 2 - u ^ 2) := by fun_prop
    exact ((continuous_id.mul h4).add (continuous_const.mul h3)).div_const 2
  have hint : IntervalIntegrable (fun u : ℝ => Real.sqrt (rho ^ 2 - u ^ 2)) volume 0 L := by
    apply Continuous.intervalIntegrable; fun_prop
  rw [integral_eq_sub_of_hasDerivAt_of_le hL hcont.continuousOn ?_ hint]
  · simp
  · intro u hu
    have hpos : 0 < rho ^ 2 - u ^ 2 := by nlinarith [hu.1, hu.2]
    have hs : 0 < Real.sqrt (rho ^ 2 - u ^ 2) := Real.sqrt_pos.2 hpos
    have hss : Real.sqrt (rho ^ 2 - u ^ 2) ^ 2 = rho ^ 2 - u ^ 2 := Real.sq_sqrt hpos.le
    have d1 : HasDerivAt (fun u : ℝ => rho ^ 2 - u ^ 2) (-(2 * u)) u := by
      have := ((hasDerivAt_id u).pow 2).const_sub (rho ^ 2)
      refine this.congr_deriv ?_
      simp
    have d2 := d1.sqrt hpos.ne'
    have d3 := (hasDerivAt_id u).mul d2
    have d4 : HasDerivAt (fun u : ℝ => u / rho) (1 / rho) u := (hasDerivAt_id u).div_const rho
    have hlt : u / rho < 1 := by rw [div_lt_one hr0]; linarith [hu.2]
    have hgt : -1 < u / rho := by have : 0 < u / rho := div_pos hu.1 hr0; linarith
    have d5 := (Real.hasDerivAt_arcsin hgt.ne' hlt.ne).comp u d4
    have d6 := (d3.add (d5.const_mul (rho ^ 2))).div_const 2
    refine d6.congr_deriv ?_
    have hq : Real.sqrt (1 - (u / rho) ^ 2) = Real.sqrt (rho ^ 2 - u ^ 2) / rho := by
      have e : 1 - (u / rho) ^ 2 = (rho ^ 2 - u ^ 2) / rho ^ 2 := by field_simp
      rw [e, Real.sqrt_div hpos.le, Real.sqrt_sq hr0.le]
    rw [hq]
    simp only [id]
    set S := Real.sqrt (rho ^ 2 - u ^ 2)
    field_simp
    nlinarith [hss]

/-- `∫ (√(ρ²−u²) − c)²` and `∫ (√(ρ²−u²) − c)` over the nose -/
theorem ogive_integrals (rho L c : ℝ) (hL : 0 ≤ L) (hr : L ≤ rho) (hr0 : 0 < rho) (hc : 0 ≤ c) (hcr : c ^ 2 = rho ^ 2 - L ^ 2) :
    (∫ x in (0 : ℝ)..L, Real.pi * (Real.sqrt (rho ^ 2 - (L - x) ^ 2) - c) ^ 2) =
      Real.pi * (L * rho ^ 2 - L ^ 3 / 3 - c * rho ^ 2 * Real.arcsin (L / rho)) ∧
    (∫ x in (0 : ℝ)..L, 2 * (Real.sqrt (rho ^ 2 - (L - x) ^ 2) - c)) = rho ^ 2 * Real.arcsin (L / rho) - L * c := by
  have hcirc := integral_circle rho L hL hr hr0
  have hs : Real.sqrt (rho ^ 2 - L ^ 2) = c := by rw [← hcr]; exact Real.sqrt_sq hc
  rw [hs] at hcirc
  have hint : IntervalIntegrable (fun u : ℝ => Real.sqrt (rho ^ 2 - u ^ 2)) volume 0 L := by
    apply Continuous.intervalIntegrable; fun_prop
  constructor
  · have h1 : (∫ x in (0 : ℝ)..L, Real.pi * (Real.sqrt (rho ^ 2 - (L - x) ^ 2) - c) ^ 2) =
        ∫ u in (0 : ℝ)..L, Real.pi * (Real.sqrt (rho ^ 2 - u ^ 2) - c) ^ 2 := by
      have := integral_comp_sub_left (fun u : ℝ => Real.pi * (Real.sqrt (rho ^ 2 - u ^ 2) - c) ^ 2) L (a := 0) (b := L)
      simpa using this
    rw [h1, intervalIntegral.integral_const_mul]
    have h2 : (∫ u in (0 : ℝ)..L, (Real.sqrt (rho ^ 2 - u ^ 2) - c) ^ 2) =
        ∫ u in (0 : ℝ)..L, ((rho ^ 2 + c ^ 2 - u ^ 2) - 2 * c * Real.sqrt (rho ^ 2 - u ^ 2)) := by
      apply integral_congr
      intro u hu
      rw [Set.uIcc_of_le hL] at hu
      have : Real.sqrt (rho ^ 2 - u ^ 2) ^ 2 = rho ^ 2 - u ^ 2 := Real.sq_sqrt (by nlinarith [hu.1, hu.2])
      show (Real.sqrt (rho ^ 2 - u ^ 2) - c) ^ 2 = (rho ^ 2 + c ^ 2 - u ^ 2) - 2 * c * Real.sqrt (rho ^ 2 - u ^ 2)
      nlinarith
    rw [h2, intervalIntegral.integral_sub (by apply Continuous.intervalIntegrable; fun_prop) (hint.const_mul _), intervalIntegral.integral_const_mul, hcirc,
      intervalIntegral.integral_sub (by simp) (by apply Continuous.intervalIntegrable; fun_prop), integral_pow]
    simp only [intervalIntegral.integral_const, smul_eq_mul, sub_zero]
    push_cast
    have : L * (rho ^ 2 + c ^ 2) - (L ^ (2 + 1) - 0 ^ (2 + 1)) / (2 + 1) - 2 * c * ((L * c + rho ^ 2 * Real.arcsin (L / rho)) / 2) =
        L * rho ^ 2 - L ^ 3 / 3 - c * rho ^ 2 * Real.arcsin (L / rho) := by ring
    rw [this]
  · have h1 : (∫ x in (0 : ℝ)..L, 2 * (Real.sqrt (rho ^ 2 - (L - x) ^ 2) - c)) = ∫ u in (0 : ℝ)..L, 2 * (Real.sqrt (rho ^ 2 - u ^ 2) - c) := by
      have := integral_comp_sub_left (fun u : ℝ => 2 * (Real.sqrt (rho ^ 2 - u ^ 2) - c)) L (a := 0) (b := L)
      simpa using this
    rw [h1, intervalIntegral.integral_const_mul, intervalIntegral.integral_sub hint (by simp), hcirc]
    simp only [intervalIntegral.integral_const, smul_eq_mul, sub_zero]
    ring

/-! ## Nose cones -/

namespace Nose

/-- the tangent ogive's radius at a distance from the tip -/
noncomputable def ogiveRadius (n : Nose) (d : ℝ) : ℝ :=
  Real.sqrt (n.curvature ^ 2 - (n.length - d) ^ 2) - (n.curvature - n.baseDiameter / 2)

theorem curvature_facts (n : Nose) (hD : 0 < n.baseDiameter) (hL : 0 < n.length) :
    0 < n.curvature ∧ n.length ≤ n.curvature ∧ (n.curvature - n.baseDiameter / 2) ^ 2 = n.curvature ^ 2 - n.length ^ 2 ∧
    (0 ≤ n.curvature - n.baseDiameter / 2 ↔ n.baseDiameter / 2 ≤ n.length) := by
  have e : n.curvature * n.baseDiameter = (n.baseDiameter / 2) ^ 2 + n.length ^ 2 := by
    unfold curvature; field_simp
  have h0 : 0 < n.curvature := by unfold curvature; positivity
  refine ⟨h0, ?_, by nlinarith, ?_⟩
  · by_contra h
    rw [not_le] at h
    nlinarith [sq_nonneg (n.baseDiameter / 2 - n.length)]
  · constructor
    · intro h
      by_contra h'
      rw [not_le] at h'
      nlinarith
    · intro h
      by_contra h'
      rw [not_le] at h'
      nlinarith

/-- **C44.** The radius of a tangent ogive at least as long as its base radius: an arc from the tip (radius 0) to the base, tangent to the
body, growing all the way. -/
theorem ogive_shape (n : Nose) (hs : n.shape = .tangentOgive) (hD : 0 < n.baseDiameter) (hL : n.baseDiameter / 2 ≤ n.length) :
    (∀ d, 0 ≤ d → d ≤ n.length → n.getRadius d = .ok (some (n.ogiveRadius d))) ∧ n.ogiveRadius 0 = 0 ∧
    n.ogiveRadius n.length = n.baseDiameter / 2 ∧
    (∀ d e, 0 ≤ d → d < e → e ≤ n.length → n.ogiveRadius d < n.ogiveRadius e) ∧ HasDerivAt n.ogiveRadius 0 n.length := by
  have hL0 : 0 < n.length := by linarith
  obtain ⟨h0, hle, hsq, hc⟩ := curvature_facts n hD hL0
  have hc := hc.2 hL
  refine ⟨?_, ?_, ?_, ?_, ?_⟩
  · intro d hd hd'
    unfold getRadius
    rw [hs]
    simp only
    rw [if_neg hD.ne']
    have e : ((n.baseDiameter / 2) ^ 2 + n.length ^ 2) / n.baseDiameter = n.curvature := by
      unfold curvature; congr 1; ring
    rw [e, if_neg (by nlinarith)]
    rfl
  · unfold ogiveRadius
    rw [sub_zero, ← hsq, Real.sqrt_sq hc, sub_self]
  · unfold ogiveRadius
    rw [sub_self, zero_pow (by norm_num), sub_zero, Real.sqrt_sq h0.le]; ring
  · intro d e hd hde he
    unfold ogiveRadius
    have : Real.sqrt (n.curvature ^ 2 - (n.length - d) ^ 2) < Real.sqrt (n.curvature ^ 2 - (n.length - e) ^ 2) :=
      Real.sqrt_lt_sqrt (by nlinarith) (by nlinarith)
    linarith
  · unfold ogiveRadius
    have d1 : HasDerivAt (fun d : ℝ => n.curvature ^ 2 - (n.length - d) ^ 2) 0 n.length := by
      have := (((hasDerivAt_id n.length).const_sub n.length).pow 2).const_sub (n.curvature ^ 2)
      refine this.congr_deriv ?_
      simp
    have := (d1.sqrt (by rw [sub_self, zero_pow (by norm_num), sub_zero]; positivity)).sub_const (n.curvature - n.baseDiameter / 2)
    refine this.congr_deriv ?_
    simp

/-- **C44** violated for blunt ogives: shorter than the base radius, the profile does not close at the tip. -/
theorem ogive_tip_violated (n : Nose) (hD : 0 < n.baseDiameter) (hL0 : 0 < n.length) :
    n.ogiveRadius 0 = 0 ↔ n.baseDiameter / 2 ≤ n.length := by
  obtain ⟨h0, hle, hsq, hc⟩ := curvature_facts n hD hL0
  unfold ogiveRadius
  rw [sub_zero, ← hsq, Real.sqrt_sq_eq_abs, sub_eq_zero, abs_eq_self, hc]

/-- **C44.** Volume and planform area of a tangent ogive are those of its shape. -/
theorem ogive_volume (n : Nose) (hs : n.shape = .tangentOgive) (hD : 0 < n.baseDiameter) (hL : n.baseDiameter / 2 ≤ n.length) :
    n.volume = .ok (revVolume n.ogiveRadius n.length) ∧ n.planform = .ok (sectionArea n.ogiveRadius n.length) := by
  have hL0 : 0 < n.length := by linarith
  obtain ⟨h0, hle, hsq, hc⟩ := curvature_facts n hD hL0
  have hc := hc.2 hL
  obtain ⟨i1, i2⟩ := ogive_integrals n.curvature n.length _ hL0.le hle h0 hc hsq
  have ha : pyAsin (n.length / n.curvature) = .ok (Real.arcsin (n.length / n.curvature)) := by
    unfold pyAsin
    rw [if_neg]
    rw [not_or, not_lt, not_lt]
    constructor
    · have : 0 < n.length / n.curvature := by positivity
      linarith
    · exact (div_le_one h0).2 hle
  have hne : ¬ (n.baseDiameter = 0 ∨ n.curvature = 0) := by rw [not_or]; exact ⟨hD.ne', h0.ne'⟩
  constructor
  · unfold volume revVolume ogiveRadius
    rw [hs, i1]
    simp only
    rw [if_neg hne, ha]
  · unfold planform sectionArea ogiveRadius
    rw [hs, i2]
    simp only
    rw [if_neg hne, ha]
    simp only [Except.ok.injEq]
    ring

/-- a sum of right-end values of an increasing function: between the integral and the integral plus one strip -/
theorem right_sum (f : ℝ → ℝ) (N : Nat) (h : ℝ) (hh : 0 ≤ h) (hf : ∀ x y, 0 ≤ x → x ≤ y → y ≤ N * h → f x ≤ f y) (h0 : f 0 = 0) :
    (∫ x in (0 : ℝ)..(N * h), f x) ≤ ((List.range (N + 1)).map fun i : Nat => f (i * h) * h).sum ∧
    ((List.range (N + 1)).map fun i : Nat => f (i * h) * h).sum ≤ (∫ x in (0 : ℝ)..(N * h), f x) + f (N * h) * h := by
  have hmono : ∀ i : Nat, i < N → MonotoneOn f (Set.Icc (i * h) ((i + 1 : ℕ) * h)) := by
    intro i hi x hx y hy hxy
    have h1 : (0 : ℝ) ≤ i * h := by positivity
    have h2 : ((i + 1 : ℕ) : ℝ) * h ≤ N * h := mul_le_mul_of_nonneg_right (by exact_mod_cast hi) hh
    exact hf x y (h1.trans hx.1) hxy (hy.2.trans h2)
  have hmonoAll : MonotoneOn f (Set.Icc 0 (N * h)) := fun x hx y hy hxy => hf x y hx.1 hxy hy.2
  have hint : ∀ i : Nat, i < N → IntervalIntegrable f MeasureTheory.volume (i * h) ((i + 1 : ℕ) * h) := by
    intro i hi
    apply MonotoneOn.intervalIntegrable
    rw [Set.uIcc_of_le (mul_le_mul_of_nonneg_right (by exact_mod_cast Nat.le_succ i) hh)]
    exact hmono i hi
  have key : ∀ M : Nat, M ≤ N →
      (∫ x in (0 : ℝ)..(M * h), f x) ≤ ((List.range (M + 1)).map fun i : Nat => f (i * h) * h).sum ∧
      ((List.range (M + 1)).map fun i : Nat => f (i * h) * h).sum ≤ (∫ x in (0 : ℝ)..(M * h), f x) + f (M * h) * h := by
    intro M
    induction M with
    | zero => intro _; simp [h0]
    | succ M ih =>
      intro hM
      obtain ⟨i1, i2⟩ := ih (by omega)
      have hle : (M : ℝ) * h ≤ ((M + 1 : ℕ) : ℝ) * h := mul_le_mul_of_nonneg_right (by exact_mod_cast Nat.le_succ M) hh
      have hsplit : (∫ x in (0 : ℝ)..((M + 1 : ℕ) * h), f x) = (∫ x in (0 : ℝ)..(M * h), f x) + ∫ x in (M * h)..((M + 1 : ℕ) * h), f x := by
        rw [integral_add_adjacent_intervals]
        · apply MonotoneOn.intervalIntegrable
          rw [Set.uIcc_of_le (by positivity)]
          exact hmonoAll.mono (Set.Icc_subset_Icc le_rfl (mul_le_mul_of_nonneg_right (by exact_mod_cast (by omega : M ≤ N)) hh))
        · exact hint M (by omega)
      have hwidth : ((M + 1 : ℕ) : ℝ) * h - M * h = h := by push_cast; ring
      have hup : (∫ x in (M * h)..((M + 1 : ℕ) * h), f x) ≤ f ((M + 1 : ℕ) * h) * h := by
        have := integral_mono_on hle (hint M (by omega)) (by simp : IntervalIntegrable (fun _ => f ((M + 1 : ℕ) * h)) MeasureTheory.volume (M * h) ((M + 1 : ℕ) * h))
          fun x hx => hmono M (by omega) hx (Set.right_mem_Icc.2 hle) hx.2
        rw [intervalIntegral.integral_const, hwidth, smul_eq_mul] at this
        linarith
      have hlo : f (M * h) * h ≤ ∫ x in (M * h)..((M + 1 : ℕ) * h), f x := by
        have := integral_mono_on hle (by simp : IntervalIntegrable (fun _ => f (M * h)) MeasureTheory.volume (M * h) ((M + 1 : ℕ) * h)) (hint M (by omega))
          fun x hx => hmono M (by omega) (Set.left_mem_Icc.2 hle) hx hx.1
        rw [intervalIntegral.integral_const, hwidth, smul_eq_mul] at this
        linarith
      rw [List.range_succ, List.map_append, List.sum_append, hsplit]
      simp only [List.map_cons, List.map_nil, List.sum_cons, List.sum_nil, add_zero]
      constructor <;> linarith
  exact key N le_rfl

/-- **C44.** The ogive's "wetted area" is, to within one of its 2000 strips, `∫ 2 π r dx`, that is π times the planform area. -/
theorem ogive_wetted (n : Nose) (hs : n.shape = .tangentOgive) (hD : 0 < n.baseDiameter) (hL : n.baseDiameter / 2 ≤ n.length) :
    ∃ w, n.wetted = .ok w ∧ Real.pi * sectionArea n.ogiveRadius n.length ≤ w ∧
      w ≤ Real.pi * sectionArea n.ogiveRadius n.length + 2 * Real.pi * (n.baseDiameter / 2) * (n.length / 2000) := by
  have hL0 : 0 < n.length := by linarith
  obtain ⟨-, s0, sL, smono, -⟩ := ogive_shape n hs hD hL
  refine ⟨_, by unfold wetted; rw [hs]; simp only; rw [if_neg hD.ne'], ?_⟩
  have e : (fun x : Nat => 2 * Real.pi * (Real.sqrt (n.curvature ^ 2 - (n.length - x * (n.length / 2000)) ^ 2) + n.baseDiameter / 2 - n.curvature) *
      (n.length / 2000)) = fun x : Nat => (2 * Real.pi * n.ogiveRadius (x * (n.length / 2000))) * (n.length / 2000) := by
    funext x; unfold ogiveRadius; ring
  have hend : ((2000 : ℕ) : ℝ) * (n.length / 2000) = n.length := by push_cast; ring
  obtain ⟨h1, h2⟩ := right_sum (fun x => 2 * Real.pi * n.ogiveRadius x) 2000 (n.length / 2000) (by positivity)
    (by
      intro x y hx hxy hy
      rw [hend] at hy
      rcases hxy.eq_or_lt with rfl | h
      · exact le_rfl
      · have := smono x y hx h hy
        have hp := Real.pi_pos
        show 2 * Real.pi * n.ogiveRadius x ≤ 2 * Real.pi * n.ogiveRadius y
        nlinarith)
    (by simp [s0])
  rw [hend] at h1 h2
  have hi : (∫ x in (0 : ℝ)..n.length, 2 * Real.pi * n.ogiveRadius x) = Real.pi * sectionArea n.ogiveRadius n.length := by
    unfold sectionArea
    rw [← intervalIntegral.integral_const_mul]
    congr 1; funext x; ring
  rw [hi] at h1 h2
  rw [e]
  refine ⟨h1, h2.trans (le_of_eq ?_)⟩
  simp only [sL]

/-- **C44** violated: the slope factor is missing from the ogive's wetted area. For a hemisphere (length = base radius = 1) the code gives
less than 5; the area is `2π`, more than 6.2. -/
theorem ogive_wetted_violated : ∃ w, (Nose.mk (1 / 2) 2 .tangentOgive).wetted = .ok w ∧ w < 5 ∧ 6.2 < 2 * Real.pi := by
  have hl : (Nose.mk (1 / 2) 2 .tangentOgive).length = 1 := by norm_num [length]
  have hc : (Nose.mk (1 / 2) 2 .tangentOgive).curvature = 1 := by unfold curvature; rw [hl]; norm_num
  obtain ⟨w, hw, -, h2⟩ := ogive_wetted ⟨1 / 2, 2, .tangentOgive⟩ rfl (by norm_num) (by rw [hl]; norm_num)
  refine ⟨w, hw, ?_, by linarith [Real.pi_gt_d2]⟩
  have hp := (ogive_volume ⟨1 / 2, 2, .tangentOgive⟩ rfl (by norm_num) (by rw [hl]; norm_num)).2
  unfold planform at hp
  simp only at hp
  rw [hl, hc, if_neg (by norm_num)] at hp
  have ha : pyAsin ((1 : ℝ) / 1) = .ok (Real.pi / 2) := by
    unfold pyAsin; rw [if_neg (by norm_num)]; norm_num
  rw [ha] at hp
  simp only [Except.ok.injEq] at hp
  rw [hl] at h2
  rw [← hp] at h2
  have h3 := Real.pi_lt_d2
  have h4 := Real.pi_gt_d2
  norm_num at h2
  nlinarith

/-- the cone's radius -/
noncomputable def coneRadius (n : Nose) (d : ℝ) : ℝ := n.baseDiameter / 2 * (d / n.length)

/-- **C44.** Cone: the radius function, planform and wetted area are those of the shape. -/
theorem cone_areas (n : Nose) (hs : n.shape = .cone) (hD : 0 < n.baseDiameter) (hL : 0 < n.length) :
    (∀ d, n.getRadius d = .ok (some (n.coneRadius d))) ∧
    n.planform = .ok (sectionArea n.coneRadius n.length) ∧
    n.wetted = .ok (lateralArea n.coneRadius (fun _ => n.baseDiameter / 2 / n.length) n.length) := by
  have hi : ∀ k : ℝ, (∫ x in (0 : ℝ)..n.length, k * x) = k * n.length ^ 2 / 2 := by
    intro k; rw [intervalIntegral.integral_const_mul, integral_id]; ring
  refine ⟨fun d => ?_, ?_, ?_⟩
  · unfold getRadius; rw [hs]; simp only; rw [if_neg hL.ne']; rfl
  · unfold planform sectionArea coneRadius
    rw [hs]
    simp only
    have : (fun x : ℝ => 2 * (n.baseDiameter / 2 * (x / n.length))) = fun x => n.baseDiameter / n.length * x := by
      funext x; field_simp
    rw [this, hi]
    congr 1; field_simp
  · unfold wetted lateralArea coneRadius
    rw [hs]
    simp only
    have hq : Real.sqrt (1 + (n.baseDiameter / 2 / n.length) ^ 2) = Real.sqrt ((n.baseDiameter / 2) ^ 2 + n.length ^ 2) / n.length := by
      have e : 1 + (n.baseDiameter / 2 / n.length) ^ 2 = ((n.baseDiameter / 2) ^ 2 + n.length ^ 2) / n.length ^ 2 := by
        field_simp; ring
      rw [e, Real.sqrt_div (by positivity), Real.sqrt_sq hL.le]
    rw [hq]
    set S := Real.sqrt ((n.baseDiameter / 2) ^ 2 + n.length ^ 2)
    have : (fun x : ℝ => 2 * Real.pi * (n.baseDiameter / 2 * (x / n.length)) * (S / n.length)) =
        fun x => (Real.pi * n.baseDiameter * S / n.length ^ 2) * x := by
      funext x; field_simp
    rw [this, hi]
    congr 1; field_simp

/-- **C44** violated: the cone's volume is four times that of the cone, and the centre of pressure computed from it lies a third of the
length AHEAD of the tip instead of two thirds behind it. -/
theorem cone_volume_violated (n : Nose) (hs : n.shape = .cone) (hD : 0 < n.baseDiameter) (hL : 0 < n.length) :
    n.volume = .ok (4 * revVolume n.coneRadius n.length) ∧ 0 < revVolume n.coneRadius n.length ∧
    n.cpLocation = .ok ⟨0, 0, n.length / 3⟩ ∧
    (barrowmanCP n.length 0 n.baseArea (revVolume n.coneRadius n.length) ⟨0, 0, 0⟩).z = -(2 / 3 * n.length) := by
  have hv : revVolume n.coneRadius n.length = Real.pi * (n.baseDiameter / 2) ^ 2 * n.length / 3 := by
    unfold revVolume coneRadius
    have : (fun x : ℝ => Real.pi * (n.baseDiameter / 2 * (x / n.length)) ^ 2) = fun x => (Real.pi * (n.baseDiameter / 2) ^ 2 / n.length ^ 2) * x ^ 2 := by
      funext x; field_simp
    rw [this, intervalIntegral.integral_const_mul, integral_pow]
    push_cast
    field_simp
    ring
  have hb : 0 < n.baseArea := by unfold baseArea; have := Real.pi_pos; positivity
  have hvol : n.volume = .ok (4 * revVolume n.coneRadius n.length) := by
    rw [hv]; unfold volume; rw [hs]; simp only; congr 1; ring
  refine ⟨hvol, by rw [hv]; have := Real.pi_pos; positivity, ?_, ?_⟩
  · unfold cpLocation
    rw [hvol]
    simp only
    unfold barrowmanCP
    simp only
    rw [if_neg hb.ne, hv]
    congr 2
    unfold baseArea
    have := Real.pi_pos
    field_simp
    ring
  · unfold barrowmanCP
    simp only
    rw [if_neg hb.ne, hv]
    unfold baseArea
    have := Real.pi_pos
    field_simp
    ring

/-- **C44** violated: the centre of pressure of the half series nose cone can be computed, but the component cannot be built (planform
and wetted area refuse the shape). -/
theorem halfSeries_violated (n : Nose) (hs : n.shape = .halfSeries) :
    (∃ c, n.cpLocation = .ok c) ∧ n.planform = .error .typeError ∧ n.wetted = .error .typeError ∧ ∀ d, n.getRadius d = .ok none := by
  refine ⟨?_, ?_, ?_, ?_⟩
  · unfold cpLocation volume; rw [hs]; exact ⟨_, rfl⟩
  · unfold planform; rw [hs]
  · unfold wetted; rw [hs]
  · intro d; unfold getRadius; rw [hs]

/-- **C44.** The centre of pressure of an ogive lies inside the nose cone (measured from the origin; see `nose_position_violated`). -/
theorem ogive_cp (n : Nose) (hs : n.shape = .tangentOgive) (hD : 0 < n.baseDiameter) (hL : n.baseDiameter / 2 ≤ n.length) :
    ∃ c, n.cpLocation = .ok c ∧ c.x = 0 ∧ c.y = 0 ∧ -n.length ≤ c.z ∧ c.z ≤ 0 := by
  have hL0 : 0 < n.length := by linarith
  obtain ⟨-, s0, sL, smono, -⟩ := ogive_shape n hs hD hL
  have hv := (ogive_volume n hs hD hL).1
  have hb : 0 < n.baseArea := by unfold baseArea; have := Real.pi_pos; positivity
  have hr : ∀ x ∈ Set.Icc 0 n.length, 0 ≤ n.ogiveRadius x ∧ n.ogiveRadius x ≤ n.baseDiameter / 2 := by
    intro x hx
    constructor
    · rcases hx.1.eq_or_lt with h | h
      · rw [← h, s0]
      · have := smono 0 x le_rfl h hx.2; rw [s0] at this; exact this.le
    · rcases hx.2.eq_or_lt with h | h
      · rw [h, sL]
      · have := smono x n.length hx.1 h le_rfl; rw [sL] at this; exact this.le
  have hcont : Continuous fun x => Real.pi * n.ogiveRadius x ^ 2 := by unfold ogiveRadius; fun_prop
  have h1 : 0 ≤ revVolume n.ogiveRadius n.length := by
    unfold revVolume
    apply integral_nonneg hL0.le
    intro x _
    have := Real.pi_pos
    positivity
  have h2 : revVolume n.ogiveRadius n.length ≤ n.length * n.baseArea := by
    unfold revVolume
    have := integral_mono_on hL0.le (hcont.intervalIntegrable 0 n.length)
      (by simp : IntervalIntegrable (fun _ => Real.pi * (n.baseDiameter / 2) ^ 2) MeasureTheory.volume 0 n.length)
      fun x hx => mul_le_mul_of_nonneg_left (pow_le_pow_left₀ (hr x hx).1 (hr x hx).2 2) Real.pi_pos.le
    rw [intervalIntegral.integral_const, smul_eq_mul] at this
    unfold baseArea
    refine this.trans (le_of_eq ?_)
    ring
  refine ⟨_, by unfold cpLocation; rw [hv], ?_⟩
  obtain ⟨e1, e2, e3⟩ := barrowmanCP_inside n.length 0 n.baseArea (revVolume n.ogiveRadius n.length) ⟨0, 0, 0⟩ hb.ne
  refine ⟨?_, ?_, ?_⟩
  · unfold barrowmanCP; rfl
  · unfold barrowmanCP; rfl
  · have := e3.2 (Or.inl ⟨by linarith, h2, hb⟩)
    simp only [zero_sub] at this
    have e : barrowmanCP n.length 0 n.baseArea (revVolume n.ogiveRadius n.length) ⟨0, 0, 0⟩ =
      @barrowmanCP ℝ _ (fun a b => Classical.propDecidable (a = b)) n.length 0 n.baseArea (revVolume n.ogiveRadius n.length) ⟨0, 0, 0⟩ := by
      congr
    rw [e] at this
    exact this

end Nose
end Mapleaf.Rocket
