import Verif.Rocket.AeroModel
import Verif.Motion.VectorProps
import Verif.Motion.QuatProps
import Mathlib.Algebra.BigOperators.Group.List.Lemmas
import Mathlib.Algebra.Order.BigOperators.Group.List

/-!
# C42: aerodynamic damping removes energy

The power of a moment `M` on a body turning at `omega` is `dot omega M`.
-/

namespace Mapleaf.Rocket
open Mapleaf.Motion V3

section
variable {K : Type} [Field K] [LinearOrder K] [IsStrictOrderedRing K]

/-! ## Body tubes -/

/-- **C42.** The power of one segment: minus the cubed speeds of the segment. -/
theorem segment_power (omega psi : V3 K) :
    dot omega (segmentMoment omega psi) =
      -(|(cross omega psi).x| ^ 3 + |(cross omega psi).y| ^ 3 + |(cross omega psi).z| ^ 3) := by
  have h : ∀ a : K, |a| ^ 3 = a * (a * |a|) := by
    intro a
    have : |a| ^ 3 = (|a| * |a|) * |a| := by ring
    rw [this, abs_mul_abs_self]; ring
  rw [h, h, h]
  simp only [segmentMoment, dot, cross, neg_x, neg_y, neg_z]
  ring

theorem sum_power (omega : V3 K) (arm : Nat → V3 K) (l : List Nat) (t : V3 K) :
    dot omega (l.foldl (fun t i => t + segmentMoment omega (arm i)) t) =
      dot omega t + (l.map (fun i => dot omega (segmentMoment omega (arm i)))).sum := by
  induction l generalizing t with
  | nil => simp
  | cons i l ih =>
    rw [List.foldl_cons, ih, List.map_cons, List.sum_cons]
    simp only [dot, add_x, add_y, add_z]; ring

/-- the speed cubed of the `i`-th segment, component by component -/
def speedCubed (omega psi : V3 K) : K :=
  |(cross omega psi).x| ^ 3 + |(cross omega psi).y| ^ 3 + |(cross omega psi).z| ^ 3

theorem speedCubed_nonneg (omega psi : V3 K) : 0 ≤ speedCubed omega psi := by unfold speedCubed; positivity

theorem speedCubed_zero_iff (omega psi : V3 K) : speedCubed omega psi = 0 ↔ cross omega psi = 0 := by
  unfold speedCubed
  constructor
  · intro h
    have hx : 0 ≤ |(cross omega psi).x| ^ 3 := by positivity
    have hy : 0 ≤ |(cross omega psi).y| ^ 3 := by positivity
    have hz : 0 ≤ |(cross omega psi).z| ^ 3 := by positivity
    have h1 : |(cross omega psi).x| ^ 3 = 0 := by linarith
    have h2 : |(cross omega psi).y| ^ 3 = 0 := by linarith
    have h3 : |(cross omega psi).z| ^ 3 = 0 := by linarith
    exact V3.ext' (abs_eq_zero.1 (pow_eq_zero_iff (by norm_num) |>.1 h1)) (abs_eq_zero.1 (pow_eq_zero_iff (by norm_num) |>.1 h2))
      (abs_eq_zero.1 (pow_eq_zero_iff (by norm_num) |>.1 h3))
  · intro h; rw [h]; simp

/-- **C42.** The power of the longitudinal damping moment of a body tube, any position, axis of rotation and number of segments:
minus a constant times the sum of the cubed segment speeds. -/
theorem tube_power (position cor omega : V3 K) (len diameter rho : K) (n : Nat) :
    dot omega (longitudinalDamping position cor omega len diameter rho n) =
      -(11 / 20 * rho * (len / n * diameter)) *
        ((List.range n).map (fun i : Nat => speedCubed omega (position + ⟨0, 0, -(len / n) * (i + 1 / 2)⟩ - cor))).sum := by
  unfold longitudinalDamping
  have hd : ∀ (k : K) (t : V3 K), dot omega (k • t) = k * dot omega t := by
    intro k t; simp only [dot, smul_x, smul_y, smul_z]; ring
  dsimp only
  rw [hd, sum_power]
  have h0 : dot omega (0 : V3 K) = 0 := by simp [dot]
  rw [h0, zero_add]
  have harm : ∀ i : Nat, segmentArm position cor (len / n) i = position + ⟨0, 0, -(len / n) * (i + 1 / 2)⟩ - cor := by
    intro i
    unfold segmentArm
    have : -(len / (n : K)) * (i : K) - len / n / 2 = -(len / n) * (i + 1 / 2) := by ring
    rw [this]
  have hm : (List.range n).map (fun i => dot omega (segmentMoment omega (segmentArm position cor (len / n) i))) =
      (List.range n).map (fun i : Nat => -1 * speedCubed omega (position + ⟨0, 0, -(len / n) * (i + 1 / 2)⟩ - cor)) := by
    apply List.map_congr_left
    intro i _
    rw [segment_power, harm, speedCubed]; ring
  rw [hm, List.sum_map_mul_left]
  ring

/-- **C42.** The longitudinal damping of a body tube never adds energy, and takes some away unless no segment moves. -/
theorem tube_dissipative (position cor omega : V3 K) (len diameter rho : K) (n : Nat) (hl : 0 < len) (hd : 0 < diameter) (hr : 0 < rho) :
    dot omega (longitudinalDamping position cor omega len diameter rho n) ≤ 0 ∧
    (dot omega (longitudinalDamping position cor omega len diameter rho n) = 0 ↔
      ∀ i < n, cross omega (position + ⟨0, 0, -(len / n) * (i + 1 / 2)⟩ - cor) = 0) := by
  rw [tube_power]
  set f : Nat → K := fun i => speedCubed omega (position + ⟨0, 0, -(len / n) * (i + 1 / 2)⟩ - cor) with hf
  have hnn : ∀ i, 0 ≤ f i := fun i => speedCubed_nonneg _ _
  have hs : 0 ≤ ((List.range n).map f).sum := List.sum_nonneg (by intro x hx; obtain ⟨i, _, rfl⟩ := List.mem_map.1 hx; exact hnn i)
  rcases Nat.eq_zero_or_pos n with rfl | hn
  · simp
  · have hn' : (0 : K) < n := by exact_mod_cast hn
    have hc : 0 < 11 / 20 * rho * (len / n * diameter) := by positivity
    constructor
    · nlinarith
    · rw [mul_eq_zero, neg_eq_zero]
      constructor
      · rintro (h | h)
        · exact absurd h hc.ne'
        · intro i hi
          rw [← speedCubed_zero_iff]
          exact List.all_zero_of_le_zero_le_of_sum_eq_zero (l := (List.range n).map f)
            (by intro x hx; obtain ⟨j, _, rfl⟩ := List.mem_map.1 hx; exact hnn j) h
            (List.mem_map_of_mem (f := f) (List.mem_range.2 hi))
      · intro h
        right
        apply List.sum_eq_zero
        intro x hx
        obtain ⟨i, hi, rfl⟩ := List.mem_map.1 hx
        exact (speedCubed_zero_iff _ _).2 (h i (List.mem_range.1 hi))

/-- **C42.** Rotation about a point on the tube's axis: the moment opposes the lateral rates, rate by rate, grows with the square of
the rate, and has no roll component. -/
theorem segment_on_axis (omega : V3 K) (p : K) :
    segmentMoment omega ⟨0, 0, p⟩ =
      ⟨-(|p| ^ 3 * (omega.x * |omega.x|)), -(|p| ^ 3 * (omega.y * |omega.y|)), 0⟩ := by
  have h : |p| ^ 3 = p * p * |p| := by
    have : |p| ^ 3 = (|p| * |p|) * |p| := by ring
    rw [this, abs_mul_abs_self]
  rw [h]
  simp only [segmentMoment, cross]
  apply V3.ext'
  · simp [abs_mul]; ring
  · simp [abs_mul]; ring
  · simp

end

/-! ## Roll damping by skin friction -/

/-- **C42.** Skin friction roll damping: fails only for a missing or zero fineness ratio, area or length; otherwise the moment is about
the roll axis, opposes the roll rate and removes energy for a non-negative friction coefficient. -/
theorem roll_damping (cf len wettedArea aref : ℝ) (fineness : Option ℝ) (omega : V3 ℝ) (airSpeed rho : ℝ) :
    ((∃ r, cylinderFriction cf len wettedArea aref fineness omega.z airSpeed rho = .ok r) ↔
      (∃ fr, fineness = some fr ∧ fr ≠ 0) ∧ aref ≠ 0 ∧ len ≠ 0) ∧
    (∀ cd m, cylinderFriction cf len wettedArea aref fineness omega.z airSpeed rho = .ok (cd, m) →
      ∃ fr, fineness = some fr ∧ cd = cf * (1 + 0.5 / fr) * (wettedArea / aref) ∧ m.x = 0 ∧ m.y = 0 ∧
      m.z = -(cd * rho * aref / 2 * (wettedArea / len / (2 * Real.pi)) ^ 2 *
        Real.sqrt (airSpeed ^ 2 + (wettedArea / len / (2 * Real.pi) * omega.z) ^ 2)) * omega.z ∧
      (0 ≤ cf → 0 < fr → 0 ≤ wettedArea → 0 < aref → 0 ≤ rho → 0 ≤ cd ∧ dot omega m ≤ 0)) := by
  constructor
  · unfold cylinderFriction
    cases fineness with
    | none => simp
    | some fr =>
      simp only
      by_cases h1 : fr = 0
      · simp [h1]
      by_cases h2 : aref = 0
      · simp [h1, h2]
      by_cases h3 : len = 0
      · simp [h1, h2, h3]
      simp only [if_neg h1, if_neg h2, if_neg h3]
      constructor
      · intro _; exact ⟨⟨fr, rfl, h1⟩, h2, h3⟩
      · intro _
        split
        · exact ⟨_, rfl⟩
        · exact ⟨_, rfl⟩
  · intro cd m h
    unfold cylinderFriction at h
    cases fineness with
    | none => exact absurd h (by simp)
    | some fr =>
      simp only at h
      split at h
      · exact absurd h (by simp)
      split at h
      · exact absurd h (by simp)
      split at h
      · exact absurd h (by simp)
      rename_i h1 h2 h3
      set r := wettedArea / len / (2 * Real.pi) with hr
      set V := airSpeed ^ 2 + (r * omega.z) ^ 2 with hV
      have hVn : 0 ≤ V := by positivity
      have key : cd = cf * (1 + 0.5 / fr) * (wettedArea / aref) ∧ m.x = 0 ∧ m.y = 0 ∧
          m.z = -(cd * rho * aref / 2 * r ^ 2 * Real.sqrt V) * omega.z := by
        split at h
        · rename_i h0
          simp only [Except.ok.injEq, Prod.mk.injEq] at h
          obtain ⟨rfl, rfl⟩ := h
          refine ⟨rfl, rfl, rfl, ?_⟩
          rw [h0]; simp
        · rename_i h0
          simp only [Except.ok.injEq, Prod.mk.injEq] at h
          obtain ⟨rfl, rfl⟩ := h
          refine ⟨rfl, rfl, rfl, ?_⟩
          have hs : V / Real.sqrt V = Real.sqrt V := Real.div_sqrt
          dsimp only
          calc -(cf * (1 + 0.5 / fr) * (wettedArea / aref) * 0.5 * V * rho * aref * (r * omega.z / Real.sqrt V)) * r
              = -(cf * (1 + 0.5 / fr) * (wettedArea / aref) * 0.5 * rho * aref * (r * omega.z)) * r * (V / Real.sqrt V) := by ring
            _ = _ := by rw [hs]; ring
      obtain ⟨k1, k2, k3, k4⟩ := key
      refine ⟨fr, rfl, k1, k2, k3, k4, ?_⟩
      intro c1 c2 c3 c4 c5
      have hcd : 0 ≤ cd := by rw [k1]; positivity
      refine ⟨hcd, ?_⟩
      unfold dot
      rw [k2, k3, k4]
      have : 0 ≤ cd * rho * aref / 2 * r ^ 2 * Real.sqrt V * (omega.z * omega.z) := by
        have := mul_self_nonneg omega.z
        positivity
      linarith

/-! ## Constant coefficients -/

/-- With zero drag and lift coefficients only the moment is left. -/
theorem pure_moment (v : V3 ℝ) (rho mx my mz : ℝ) (cp : V3 ℝ) (aref lref : ℝ) (f : FMS ℝ)
    (h : forceFromCoefficients v rho 0 0 mx my mz cp aref lref = .ok f) :
    f.force = 0 ∧ f.moment = (dynPressure v rho * aref * lref) • (⟨mx, my, mz⟩ : V3 ℝ) := by
  unfold forceFromCoefficients at h
  dsimp only at h
  split at h
  · rename_i hq
    simp only [Except.ok.injEq] at h
    subst h
    refine ⟨rfl, ?_⟩
    rw [hq]; simp only [FMS.make, Option.getD_none, zero_mul]
    ext <;> simp
  · split at h
    · exact absurd h (by simp)
    split at h
    · exact absurd h (by simp)
    rename_i lift _ _
    simp only [Except.ok.injEq] at h
    subst h
    constructor
    · simp only [FMS.make]
      ext <;> simp
    · simp only [FMS.make, Option.getD_some]
      ext <;> simp <;> ring

/-- **C42.** The constant-coefficient damping component applies no force; the power of its moment is a positive multiple of the quadratic
form of the user's coefficients. -/
theorem damping_component_power (cx cy cz omega v : V3 ℝ) (rho aref lref : ℝ) (f : FMS ℝ)
    (h : aeroDamping cx cy cz omega v rho aref lref = .ok f) :
    f.force = 0 ∧ dot omega f.moment = dynPressure v rho * aref * lref ^ 2 / (2 * max v.length 0.0000001) *
      (omega.x * dot cx omega + omega.y * dot cy omega + omega.z * dot cz omega) := by
  obtain ⟨h1, h2⟩ := pure_moment _ _ _ _ _ _ _ _ _ h
  refine ⟨h1, ?_⟩
  rw [h2]
  simp only [dot, smul_x, smul_y, smul_z]
  ring

/-- **C42.** It acts at the origin of the rocket's coordinates. -/
theorem damping_component_point (cx cy cz omega v : V3 ℝ) (rho aref lref : ℝ) (f : FMS ℝ)
    (h : aeroDamping cx cy cz omega v rho aref lref = .ok f) : f.loc = ⟨0, 0, 0⟩ := by
  unfold aeroDamping forceFromCoefficients at h
  simp only at h
  split at h
  · obtain rfl := Except.ok.inj h
    rfl
  · split at h
    · exact absurd h (by simp)
    split at h
    · exact absurd h (by simp)
    obtain rfl := Except.ok.inj h
    rfl

/-- **C42.** So it removes energy in every motion exactly if the coefficients are negative semi-definite. -/
theorem damping_component_iff (cx cy cz v : V3 ℝ) (rho aref lref : ℝ) (hq : 0 < dynPressure v rho) (ha : 0 < aref) (hl : lref ≠ 0)
    (hok : ∀ omega, ∃ f, aeroDamping cx cy cz omega v rho aref lref = .ok f) :
    (∀ omega f, aeroDamping cx cy cz omega v rho aref lref = .ok f → dot omega f.moment ≤ 0) ↔
      ∀ omega : V3 ℝ, omega.x * dot cx omega + omega.y * dot cy omega + omega.z * dot cz omega ≤ 0 := by
  have hm : (0 : ℝ) < 2 * max v.length 0.0000001 := by
    have : (0 : ℝ) < max v.length 0.0000001 := lt_max_of_lt_right (by norm_num)
    linarith
  have hl2 : 0 < lref ^ 2 := by positivity
  have hc : 0 < dynPressure v rho * aref * lref ^ 2 / (2 * max v.length 0.0000001) := by positivity
  constructor
  · intro hall omega
    obtain ⟨f, hf⟩ := hok omega
    have h1 := hall omega f hf
    rw [(damping_component_power cx cy cz omega v rho aref lref f hf).2] at h1
    by_contra hpos
    push Not at hpos
    have := mul_pos hc hpos
    linarith
  · intro hq omega f hf
    rw [(damping_component_power cx cy cz omega v rho aref lref f hf).2]
    exact mul_nonpos_of_nonneg_of_nonpos hc.le (hq omega)

/-- **C42.** Jet damping acts only while the motor burns; it removes energy as long as the moment of inertia decreases. -/
theorem jet_damping_power {K : Type} [Field K] [LinearOrder K] [IsStrictOrderedRing K] (ignition shutOff fraction : K) (moiX : K → K)
    (time : K) (omega : V3 K) :
    (jetDamping ignition shutOff fraction moiX time omega).force = 0 ∧
    (¬ (ignition < time ∧ time < shutOff) → (jetDamping ignition shutOff fraction moiX time omega).moment = 0) ∧
    (ignition < time → time < shutOff →
      dot omega (jetDamping ignition shutOff fraction moiX time omega).moment =
        -(1000 * (moiX time - moiX (time + 1 / 1000)) * fraction) * (omega.x ^ 2 + omega.y ^ 2)) ∧
    (0 ≤ fraction → moiX (time + 1 / 1000) ≤ moiX time →
      dot omega (jetDamping ignition shutOff fraction moiX time omega).moment ≤ 0) := by
  have key : ignition < time → time < shutOff →
      dot omega (jetDamping ignition shutOff fraction moiX time omega).moment =
        -(1000 * (moiX time - moiX (time + 1 / 1000)) * fraction) * (omega.x ^ 2 + omega.y ^ 2) := by
    intro h1 h2
    unfold jetDamping
    rw [if_pos ⟨h1, h2⟩]
    simp only [FMS.make, Option.getD_some, dot]
    ring
  refine ⟨?_, ?_, key, ?_⟩
  · unfold jetDamping; split <;> rfl
  · intro h
    unfold jetDamping
    rw [if_neg h]; rfl
  · intro hf hd
    by_cases h : ignition < time ∧ time < shutOff
    · rw [key h.1 h.2]
      have : 0 ≤ 1000 * (moiX time - moiX (time + 1 / 1000)) * fraction * (omega.x ^ 2 + omega.y ^ 2) := by
        have : 0 ≤ moiX time - moiX (time + 1 / 1000) := by linarith
        positivity
      linarith
    · unfold jetDamping
      rw [if_neg h]
      simp [FMS.make, dot]

/-! ## Witnesses -/

/-- a tube pitching about a point outside it: energy is removed -/
example : dot (⟨2, 0, 1⟩ : V3 ℚ) (longitudinalDamping ⟨0, 0, 0⟩ ⟨0, 0, -3⟩ ⟨2, 0, 1⟩ 2 (1/5) (6/5) 2) < 0 := by
  decide +kernel

/-- hypotheses of `damping_component_iff` -/
example : (0 : ℝ) < dynPressure ⟨0, 0, -10⟩ 1.2 ∧
    ∀ omega : V3 ℝ, omega.x * dot ⟨-1, 0, 0⟩ omega + omega.y * dot ⟨0, -1, 0⟩ omega + omega.z * dot ⟨0, 0, -2⟩ omega ≤ 0 := by
  constructor
  · unfold dynPressure
    rw [V3.length_sq]
    norm_num [dot]
  · intro omega
    simp only [dot]
    nlinarith [sq_nonneg omega.x, sq_nonneg omega.y, sq_nonneg omega.z]

/-- jet damping on: inertia 10 - t -/
example : dot (⟨1, 2, 3⟩ : V3 ℚ) (jetDamping 0 5 (1/2) (fun t => 10 - t) 2 ⟨1, 2, 3⟩).moment = -(5 / 2) := by decide +kernel

end Mapleaf.Rocket
