import Verif.Motion.VecModel
import Mathlib.LinearAlgebra.CrossProduct
import Mathlib.Analysis.InnerProductSpace.PiL2
import Mathlib.Geometry.Euclidean.Angle.Unoriented.Basic

set_option linter.unusedSectionVars false

/-! # C13: vector algebra and text round trip -/

namespace Mapleaf.Motion
open scoped Matrix

namespace V3
variable {K : Type} [Field K]

/-! ## Refinement to Mathlib's three-dimensional vectors -/

/-- The mathematical vector denoted by a `Vector`. -/
def toFin (a : V3 K) : Fin 3 → K := ![a.x, a.y, a.z]

/-- The point of Euclidean space denoted by a `Vector`. -/
noncomputable def toE (a : V3 ℝ) : EuclideanSpace ℝ (Fin 3) := WithLp.toLp 2 ![a.x, a.y, a.z]

theorem toFin_injective : Function.Injective (toFin (K := K)) := by
  intro a b h
  have h0 := congrFun h 0
  have h1 := congrFun h 1
  have h2 := congrFun h 2
  simp [toFin] at h0 h1 h2
  ext <;> assumption

/-- Adding, negating, subtracting and scaling `Vector`s is adding, … of the vectors they denote; the product of two
vectors is the dot product and `crossProduct` the cross product. -/
theorem vector_ops_refine (a b : V3 K) (k : K) :
    toFin (a + b) = toFin a + toFin b ∧ toFin (-a) = -toFin a ∧ toFin (a - b) = toFin a - toFin b ∧
    toFin (k • a) = k • toFin a ∧ dot a b = toFin a ⬝ᵥ toFin b ∧ toFin (cross a b) = crossProduct (toFin a) (toFin b) := by
  refine ⟨?_, ?_, ?_, ?_, ?_, ?_⟩
  · funext i; fin_cases i <;> simp [toFin]
  · funext i; fin_cases i <;> simp [toFin]
  · funext i; fin_cases i <;> simp [toFin]
  · funext i; fin_cases i <;> simp [toFin, mul_comm]
  · simp [toFin, dot, dotProduct, Fin.sum_univ_succ, add_assoc]
  · simp [toFin, cross, cross_apply]

/-- Which operand types `+`, `-`, `*`, `==` accept and what they return: vectors with vectors, and vectors with numbers
on either side of `*`; every other combination raises. -/
theorem pyOps_spec [DecidableEq K] (a b : V3 K) (k : K) :
    pyAdd a (.vec b) = .ok (a + b) ∧ pyAdd a (.num k) = .ok (a + ⟨k, k, k⟩) ∧ (∀ v, pyAdd a .other ≠ .ok v) ∧
    pySub a (.vec b) = .ok (a - b) ∧ pySub a (.num k) = .ok (a - ⟨k, k, k⟩) ∧ (∀ v, pySub a .other ≠ .ok v) ∧
    pyMul (.vec a) (.vec b) = .ok (.num (toFin a ⬝ᵥ toFin b)) ∧
    pyMul (.vec a) (.num k) = .ok (.vec (k • a)) ∧ pyMul (.num k) (.vec a) = .ok (.vec (k • a)) ∧
    (∀ v, pyMul (.vec a) .other ≠ .ok v) ∧ (∀ v, pyMul .other (.vec a) ≠ .ok v) ∧
    (pyEq a (.vec b) = true ↔ a = b) ∧ pyEq a (.num k) = false ∧ pyEq a .other = false := by
  refine ⟨rfl, rfl, by simp [pyAdd], rfl, ?_, by simp [pySub], ?_, rfl, ?_, by simp [pyMul], by simp [pyMul], ?_, rfl, rfl⟩
  · rfl
  · simp only [pyMul]; rw [(vector_ops_refine a b k).2.2.2.2.1]
  · simp only [pyMul]; congr 2; ext <;> simp [mul_comm]
  · constructor
    · intro h
      simp [pyEq] at h
      ext <;> tauto
    · rintro rfl; simp [pyEq]

/-- `v / s` raises exactly for `s = 0`, otherwise scaling back by `s` restores `v`. -/
theorem div_spec [DecidableEq K] (a : V3 K) (s : K) :
    (div a s = .error .zeroDivision ↔ s = 0) ∧ (∀ b, div a s = .ok b → s ≠ 0 ∧ s • b = a) ∧
    (s ≠ 0 → ∃ b, div a s = .ok b) := by
  unfold div
  split
  · rename_i h; simp [h]
  · rename_i h
    refine ⟨by simp [h], ?_, fun _ => ⟨_, rfl⟩⟩
    intro b hb
    simp at hb
    refine ⟨h, ?_⟩
    subst hb
    rw [smul_smul, mul_inv_cancel₀ h, one_smul]

/-- Indexing: positions 0, 1, 2 are the components, anything else raises. -/
theorem getItem_spec (a : V3 K) (i : Int) :
    (∀ j : Fin 3, getItem a j.val = .ok (toFin a j)) ∧ (i < 0 ∨ 2 < i → getItem a i = .error .indexError) := by
  constructor
  · intro j; fin_cases j <;> simp [getItem, toFin]
  · intro h
    unfold getItem
    rw [if_neg (by omega), if_neg (by omega), if_neg (by omega)]

/-! ## Algebraic laws -/

/-- Dot product: symmetric, bilinear, positive definite. -/
theorem dot_laws [LinearOrder K] [IsStrictOrderedRing K] (a b c : V3 K) (k : K) :
    dot a b = dot b a ∧ dot (a + b) c = dot a c + dot b c ∧ dot (k • a) b = k * dot a b ∧
    0 ≤ dot a a ∧ (dot a a = 0 ↔ a = 0) := by
  refine ⟨by simp [dot]; ring, by simp [dot]; ring, by simp [dot]; ring, ?_, ?_⟩
  · unfold dot; nlinarith [mul_self_nonneg a.x, mul_self_nonneg a.y, mul_self_nonneg a.z]
  · constructor
    · intro h
      unfold dot at h
      have hx := mul_self_nonneg a.x
      have hy := mul_self_nonneg a.y
      have hz := mul_self_nonneg a.z
      ext
      · exact mul_self_eq_zero.1 (by linarith)
      · exact mul_self_eq_zero.1 (by linarith)
      · exact mul_self_eq_zero.1 (by linarith)
    · rintro rfl; simp [dot]

/-- Cross product: antisymmetric, bilinear, orthogonal to both factors, cyclic triple product, Lagrange identity,
Jacobi identity, double cross product. -/
theorem cross_laws (a b c d : V3 K) (k : K) :
    cross a b = -cross b a ∧ cross (a + b) c = cross a c + cross b c ∧ cross a (b + c) = cross a b + cross a c ∧
    cross (k • a) b = k • cross a b ∧ cross a (k • b) = k • cross a b ∧
    dot a (cross a b) = 0 ∧ dot b (cross a b) = 0 ∧ dot a (cross b c) = dot b (cross c a) ∧
    dot (cross a b) (cross c d) = dot a c * dot b d - dot a d * dot b c ∧
    cross a (cross b c) + cross b (cross c a) + cross c (cross a b) = 0 ∧
    cross a (cross b c) = dot a c • b - dot a b • c := by
  refine ⟨?_, ?_, ?_, ?_, ?_, ?_, ?_, ?_, ?_, ?_, ?_⟩ <;> first
    | (ext <;> simp [cross, dot] <;> ring)
    | (simp [cross, dot]; ring)

/-! ## Lengths, normalisation, angles -/

theorem length_eq_norm (a : V3 ℝ) : a.length = ‖toE a‖ := by
  rw [EuclideanSpace.norm_eq]
  unfold length
  congr 1
  simp [toE, Fin.sum_univ_succ, add_assoc, pow_two]

theorem dot_eq_inner (a b : V3 ℝ) : dot a b = inner ℝ (toE a) (toE b) := by
  simp [toE, PiLp.inner_apply, Fin.sum_univ_succ, dot]
  ring

theorem toE_add (a b : V3 ℝ) : toE (a + b) = toE a + toE b := by
  unfold toE; rw [← WithLp.toLp_add]; congr 1; funext i; fin_cases i <;> simp

theorem toE_smul (k : ℝ) (a : V3 ℝ) : toE (k • a) = k • toE a := by
  unfold toE; rw [← WithLp.toLp_smul]; congr 1; funext i; fin_cases i <;> simp [mul_comm]

theorem toE_neg (a : V3 ℝ) : toE (-a) = -toE a := by
  unfold toE; rw [← WithLp.toLp_neg]; congr 1; funext i; fin_cases i <;> simp

theorem toE_injective : Function.Injective toE := by
  intro a b h
  have h' : (![a.x, a.y, a.z] : Fin 3 → ℝ) = ![b.x, b.y, b.z] := by
    simpa [toE] using h
  exact toFin_injective h'

theorem toE_zero : toE 0 = 0 := by
  have := toE_smul 0 0
  simpa using this

theorem length_nonneg (a : V3 ℝ) : 0 ≤ a.length := Real.sqrt_nonneg _

theorem length_zero_iff (a : V3 ℝ) : a.length = 0 ↔ a = 0 := by
  rw [length_eq_norm, norm_eq_zero, ← toE_zero]
  exact toE_injective.eq_iff

theorem length_sq (a : V3 ℝ) : a.length * a.length = dot a a := by
  unfold length dot
  exact Real.mul_self_sqrt (by nlinarith [mul_self_nonneg a.x, mul_self_nonneg a.y, mul_self_nonneg a.z])

theorem length_smul (k : ℝ) (a : V3 ℝ) : (k • a).length = |k| * a.length := by
  rw [length_eq_norm, length_eq_norm, toE_smul, norm_smul, Real.norm_eq_abs]

/-- Length: non-negative, zero only for the zero vector, absolutely homogeneous, triangle and Cauchy-Schwarz
inequalities; Pythagoras with the dot product. -/
theorem length_laws (a b : V3 ℝ) (k : ℝ) :
    0 ≤ a.length ∧ (a.length = 0 ↔ a = 0) ∧ (k • a).length = |k| * a.length ∧ (-a).length = a.length ∧
    (a + b).length ≤ a.length + b.length ∧ |dot a b| ≤ a.length * b.length ∧ a.length ^ 2 = dot a a ∧
    (cross a b).length ^ 2 = a.length ^ 2 * b.length ^ 2 - dot a b ^ 2 := by
  refine ⟨length_nonneg a, length_zero_iff a, length_smul k a, ?_, ?_, ?_, ?_, ?_⟩
  · rw [length_eq_norm, length_eq_norm, toE_neg, norm_neg]
  · rw [length_eq_norm, length_eq_norm, length_eq_norm, toE_add]; exact norm_add_le _ _
  · rw [length_eq_norm, length_eq_norm, dot_eq_inner]; exact abs_real_inner_le_norm _ _
  · rw [pow_two, length_sq]
  · rw [pow_two, pow_two, pow_two, length_sq, length_sq, length_sq]; simp [cross, dot]; ring

/-- `normalize`: a unit vector in the same direction; the zero vector stays zero. -/
theorem normalize_spec (a : V3 ℝ) :
    (a ≠ 0 → a.normalize.length = 1) ∧ (a = 0 → a.normalize = 0) ∧ a.length • a.normalize = a := by
  by_cases h : a = 0
  · subst h
    have hl : (0 : V3 ℝ).length = 0 := (length_zero_iff 0).2 rfl
    have hn : (0 : V3 ℝ).normalize = 0 := by unfold normalize; rw [hl]; simp; rfl
    refine ⟨fun h => absurd rfl h, fun _ => hn, ?_⟩
    rw [hn, smul_zero]
  · have hl : 0 < a.length := lt_of_le_of_ne (length_nonneg a) (fun h' => h ((length_zero_iff a).1 h'.symm))
    have hn : a.normalize = (1 / a.length) • a := by
      unfold normalize; rw [if_pos hl]; ext <;> simp [div_eq_mul_inv]
    refine ⟨fun _ => ?_, fun h' => absurd h' h, ?_⟩
    · rw [hn, length_smul, abs_of_pos (by positivity)]; field_simp
    · rw [hn, smul_smul]; field_simp; simp

/-- The direction is determined: the only unit vector `u` with `a = |a| u`. -/
theorem normalize_unique (a u : V3 ℝ) (h : a ≠ 0) (hu : a.length • u = a) : u = a.normalize := by
  have hl : a.length ≠ 0 := fun h' => h ((length_zero_iff a).1 h')
  have h2 := (normalize_spec a).2.2
  exact smul_right_injective (V3 ℝ) hl (hu.trans h2.symm)

/-- Angle between two vectors: raises exactly when one of them is zero; otherwise within [0, π], symmetric, and equal to
the Euclidean angle, except that cosines within 1e-8 of 1 are reported as angle 0. -/
theorem angle_spec (a b : V3 ℝ) :
    (angle a b = .error .zeroDivision ↔ a = 0 ∨ b = 0) ∧
    (a ≠ 0 → b ≠ 0 → ∃ θ, angle a b = .ok θ ∧ 0 ≤ θ ∧ θ ≤ Real.pi ∧ angle b a = .ok θ ∧
      (θ = InnerProductGeometry.angle (toE a) (toE b) ∨
        θ = 0 ∧ 1 - 0.00000001 < Real.cos (InnerProductGeometry.angle (toE a) (toE b)))) := by
  have key : a.length * b.length = 0 ↔ a = 0 ∨ b = 0 := by
    rw [mul_eq_zero, length_zero_iff, length_zero_iff]
  constructor
  · rw [← key]
    unfold angle
    split
    · simp [*]
    · rename_i h
      simp only [h, iff_false]
      intro hc
      split at hc <;> cases hc
  · intro ha hb
    have hne : ¬ (a.length * b.length = 0) := fun h => (key.1 h).elim ha hb
    have hne' : ¬ (b.length * a.length = 0) := fun h => hne (by rwa [mul_comm])
    have hcos : dot a b / (a.length * b.length) = Real.cos (InnerProductGeometry.angle (toE a) (toE b)) := by
      rw [InnerProductGeometry.cos_angle, dot_eq_inner, length_eq_norm, length_eq_norm]
    have hsym : dot b a / (b.length * a.length) = dot a b / (a.length * b.length) := by
      rw [mul_comm b.length]; congr 1; simp [dot]; ring
    unfold angle
    rw [if_neg hne, if_neg hne']
    dsimp only
    rw [hsym, hcos]
    split
    · rename_i h
      refine ⟨_, rfl, by simp, by simp [Real.pi_pos.le], rfl, Or.inr ⟨by simp, ?_⟩⟩
      have := (abs_lt.1 h).1
      linarith
    · refine ⟨_, rfl, Real.arccos_nonneg _, Real.arccos_le_pi _, rfl, Or.inl ?_⟩
      exact Real.arccos_cos (InnerProductGeometry.angle_nonneg _ _) (InnerProductGeometry.angle_le_pi _ _)

example : dot (⟨1, 2, 3⟩ : V3 ℚ) ⟨4, -5, 6⟩ = 12 ∧ cross (⟨1, 2, 3⟩ : V3 ℚ) ⟨4, -5, 6⟩ = ⟨27, 6, -13⟩ := by
  decide +kernel
example : (⟨3, 0, 4⟩ : V3 ℝ) ≠ 0 ∧ (⟨3, 0, 4⟩ : V3 ℝ).length = 5 := by
  constructor
  · intro h; have := congrArg V3.x h; simp at this
  · unfold length
    rw [show (3 * 3 + 0 * 0 + 4 * 4 : ℝ) = 5 * 5 by norm_num]
    exact Real.sqrt_mul_self (by norm_num)
example : (⟨3, 0, 4⟩ : V3 ℚ).div 2 = .ok ⟨3 / 2, 0, 2⟩ := by decide +kernel

end V3
end Mapleaf.Motion
