import Verif.Motion.QuatModel
import Verif.Motion.VectorProps
import Mathlib.Analysis.Quaternion

/-! # C14: rotation by a quaternion -/

namespace Mapleaf.Motion
namespace Quat
open V3 (dot cross)

/-! ## Specification: Hamilton's quaternions (Mathlib) -/

/-- The mathematical quaternion denoted by a `Quaternion`. -/
def toH (q : Quat ℝ) : Quaternion ℝ := ⟨q.q0, q.q1, q.q2, q.q3⟩
/-- A vector as a pure quaternion. -/
def pureH (v : V3 ℝ) : Quaternion ℝ := ⟨0, v.x, v.y, v.z⟩

@[simp] theorem toH_re (q : Quat ℝ) : (toH q).re = q.q0 := rfl
@[simp] theorem toH_i (q : Quat ℝ) : (toH q).imI = q.q1 := rfl
@[simp] theorem toH_j (q : Quat ℝ) : (toH q).imJ = q.q2 := rfl
@[simp] theorem toH_k (q : Quat ℝ) : (toH q).imK = q.q3 := rfl
@[simp] theorem pureH_re (v : V3 ℝ) : (pureH v).re = 0 := rfl
@[simp] theorem pureH_i (v : V3 ℝ) : (pureH v).imI = v.x := rfl
@[simp] theorem pureH_j (v : V3 ℝ) : (pureH v).imJ = v.y := rfl
@[simp] theorem pureH_k (v : V3 ℝ) : (pureH v).imK = v.z := rfl

/-- The zero quaternion (not an orientation). -/
def zeroQ : Quat ℝ := ⟨0, 0, 0, 0⟩

/-- Rotation of `v` by the orientation `q`, by definition `q v q⁻¹`. -/
def IsRotation (q : Quat ℝ) (v v' : V3 ℝ) : Prop := pureH v' = toH q * pureH v * (toH q)⁻¹

/-! ## Refinement of the arithmetic -/

theorem toH_injective : Function.Injective toH := by
  intro a b h
  have h0 := congrArg QuaternionAlgebra.re h
  have h1 := congrArg QuaternionAlgebra.imI h
  have h2 := congrArg QuaternionAlgebra.imJ h
  have h3 := congrArg QuaternionAlgebra.imK h
  exact ext4 h0 h1 h2 h3

theorem pureH_injective : Function.Injective pureH := by
  intro a b h
  have h1 := congrArg QuaternionAlgebra.imI h
  have h2 := congrArg QuaternionAlgebra.imJ h
  have h3 := congrArg QuaternionAlgebra.imK h
  exact V3.ext' h1 h2 h3

theorem toH_mul (a b : Quat ℝ) : toH (a.mul b) = toH a * toH b := by
  ext <;> simp [mul]

theorem toH_zero_iff (q : Quat ℝ) : toH q = 0 ↔ q = zeroQ := by
  constructor
  · intro h; exact toH_injective h
  · rintro rfl; rfl

/-- Sum, difference, negation, product, scaling and conjugate are those of Hamilton's quaternions; `norm` is the
quaternion norm and `dotProduct` the inner product. -/
theorem quat_ops_refine (a b : Quat ℝ) (k : ℝ) :
    toH (a.add b) = toH a + toH b ∧ toH (a.sub b) = toH a - toH b ∧ toH a.neg = -toH a ∧ toH (a.mul b) = toH a * toH b ∧
    toH (a.scale k) = k • toH a ∧ toH a.conj = star (toH a) ∧ a.norm = ‖toH a‖ ∧
    a.dotProduct b = inner ℝ (toH a) (toH b) := by
  refine ⟨?_, ?_, ?_, toH_mul a b, ?_, ?_, ?_, ?_⟩
  · ext <;> simp [add]
  · ext <;> simp [sub, add, neg] <;> ring
  · ext <;> simp [neg]
  · ext <;> simp [scale, mul_comm]
  · ext <;> simp [conj]
  · rw [norm, ← Real.sqrt_sq (norm_nonneg (toH a)), pow_two, ← Quaternion.normSq_eq_norm_mul_self, Quaternion.normSq_def']
    congr 1; simp; ring
  · rw [Quaternion.inner_def]; simp [dotProduct]

/-- Sum of squares of the components. -/
def nsq (q : Quat ℝ) : ℝ := q.q0 * q.q0 + q.q1 * q.q1 + q.q2 * q.q2 + q.q3 * q.q3

theorem nsq_nonneg (q : Quat ℝ) : 0 ≤ q.nsq := by
  unfold nsq; nlinarith [mul_self_nonneg q.q0, mul_self_nonneg q.q1, mul_self_nonneg q.q2, mul_self_nonneg q.q3]

theorem nsq_zero_iff (q : Quat ℝ) : q.nsq = 0 ↔ q = zeroQ := by
  constructor
  · intro h
    unfold nsq at h
    have h0 := mul_self_nonneg q.q0
    have h1 := mul_self_nonneg q.q1
    have h2 := mul_self_nonneg q.q2
    have h3 := mul_self_nonneg q.q3
    apply ext4
    · exact mul_self_eq_zero.1 (by linarith)
    · exact mul_self_eq_zero.1 (by linarith)
    · exact mul_self_eq_zero.1 (by linarith)
    · exact mul_self_eq_zero.1 (by linarith)
  · rintro rfl; simp [nsq, zeroQ]

theorem norm_def' (q : Quat ℝ) : q.norm = Real.sqrt q.nsq := rfl

theorem norm_sq' (q : Quat ℝ) : q.norm * q.norm = q.nsq := Real.mul_self_sqrt q.nsq_nonneg

theorem norm_zero_iff (q : Quat ℝ) : q.norm = 0 ↔ q = zeroQ := by
  rw [norm_def', Real.sqrt_eq_zero q.nsq_nonneg, nsq_zero_iff]

theorem norm_pos_of_ne {q : Quat ℝ} (h : q ≠ zeroQ) : 0 < q.norm :=
  lt_of_le_of_ne (Real.sqrt_nonneg _) (fun h' => h ((norm_zero_iff q).1 h'.symm))

theorem nsq_pos_of_ne {q : Quat ℝ} (h : q ≠ zeroQ) : 0 < q.nsq :=
  lt_of_le_of_ne q.nsq_nonneg (fun h' => h ((nsq_zero_iff q).1 h'.symm))

/-- `normalize` raises exactly on the zero quaternion; otherwise the result has norm 1 and `q` is `|q|` times it. -/
theorem qnormalize_spec (q : Quat ℝ) :
    (q.normalize = .error .zeroDivision ↔ q = zeroQ) ∧
    (q ≠ zeroQ → ∃ r, q.normalize = .ok r ∧ r.norm = 1 ∧ r.scale q.norm = q) := by
  have key : q ≠ zeroQ → ∃ r, q.normalize = .ok r ∧ r.norm = 1 ∧ r.scale q.norm = q := by
    intro h
    have hp := norm_pos_of_ne h
    unfold normalize
    dsimp only
    split
    · rename_i h1
      exact ⟨q, rfl, h1, by rw [h1]; simp [scale]⟩
    · rw [if_neg hp.ne']
      refine ⟨_, rfl, ?_, ?_⟩
      · rw [norm]
        rw [show q.q0 / q.norm * (q.q0 / q.norm) + q.q1 / q.norm * (q.q1 / q.norm) + q.q2 / q.norm * (q.q2 / q.norm)
            + q.q3 / q.norm * (q.q3 / q.norm) = q.nsq / (q.norm * q.norm) by unfold nsq; field_simp]
        rw [norm_sq', div_self (nsq_pos_of_ne h).ne', Real.sqrt_one]
      · apply ext4 <;> simp [scale, hp.ne']
  refine ⟨⟨?_, ?_⟩, key⟩
  · intro h
    by_contra hne
    obtain ⟨r, hr, _⟩ := key hne
    rw [h] at hr; cases hr
  · rintro rfl
    have : zeroQ.norm = 0 := (norm_zero_iff _).2 rfl
    unfold normalize
    simp [this]

theorem qnormalize_cases (q : Quat ℝ) (h : q ≠ zeroQ) :
    q.normalize = .ok (q.scale (1 / q.norm)) := by
  obtain ⟨r, hr, hn, hs⟩ := (qnormalize_spec q).2 h
  have hp := norm_pos_of_ne h
  rw [hr]
  congr 1
  conv => rhs; rw [← hs]
  apply ext4 <;> simp [scale]
  all_goals
    rw [show (⟨r.q0 * q.norm, r.q1 * q.norm, r.q2 * q.norm, r.q3 * q.norm⟩ : Quat ℝ) = q from hs]
    field_simp

/-- The rational form of the rotation. -/
noncomputable def rotF (q : Quat ℝ) (v : V3 ℝ) : V3 ℝ := (1 / q.nsq) • q.sandwich v

theorem rotate_eq_rotF (q : Quat ℝ) (v : V3 ℝ) (h : q ≠ zeroQ) :
    q.rotate v = .ok (q.rotF v, q.scale (1 / q.norm)) := by
  have hp := norm_pos_of_ne h
  unfold rotate
  rw [qnormalize_cases q h]
  dsimp only
  congr 2
  have h2 := norm_sq' q
  unfold rotF
  rw [← h2]
  apply V3.ext' <;> simp [sandwich, scale, mul, conj] <;> field_simp

theorem nsq_eq_normSq (q : Quat ℝ) : q.nsq = Quaternion.normSq (toH q) := by
  rw [Quaternion.normSq_def']; simp [nsq]; ring

theorem rotF_spec (q : Quat ℝ) (v : V3 ℝ) (h : q ≠ zeroQ) : IsRotation q v (q.rotF v) := by
  have hp := (nsq_pos_of_ne h).ne'
  unfold IsRotation
  rw [Quaternion.inv_def, ← nsq_eq_normSq]
  ext
  · simp [rotF, sandwich, mul, conj]; right; ring
  all_goals (simp [rotF, sandwich, mul, conj]; field_simp)

/-- **C14.** Rotating by the zero quaternion raises; rotating by any other quaternion `q` is `v ↦ q v q⁻¹`. The object is
left normalised: it becomes the positive multiple of itself with norm 1. -/
theorem rotate_spec (q : Quat ℝ) (v : V3 ℝ) :
    (q.rotate v = .error .zeroDivision ↔ q = zeroQ) ∧
    (q ≠ zeroQ → ∃ v' r, q.rotate v = .ok (v', r) ∧ IsRotation q v v' ∧ r.norm = 1 ∧ r.scale q.norm = q) := by
  constructor
  · constructor
    · intro h
      by_contra hne
      rw [rotate_eq_rotF q v hne] at h; cases h
    · intro h
      unfold rotate
      rw [(qnormalize_spec q).1.2 h]
  · intro h
    obtain ⟨r, hr, hn, hs⟩ := (qnormalize_spec q).2 h
    rw [qnormalize_cases q h] at hr
    refine ⟨q.rotF v, r, ?_, rotF_spec q v h, hn, hs⟩
    rw [rotate_eq_rotF q v h]
    cases hr; rfl

theorem rotate_ok {q : Quat ℝ} {v v' : V3 ℝ} {r : Quat ℝ} (h : q.rotate v = .ok (v', r)) :
    q ≠ zeroQ ∧ v' = q.rotF v ∧ r = q.scale (1 / q.norm) := by
  have hne : q ≠ zeroQ := by
    intro h0; rw [(rotate_spec q v).1.2 h0] at h; cases h
  rw [rotate_eq_rotF q v hne] at h
  simp at h
  exact ⟨hne, h.1.symm, by rw [← h.2]; simp⟩

theorem scale_ne {q : Quat ℝ} {k : ℝ} (h : q ≠ zeroQ) (hk : k ≠ 0) : q.scale k ≠ zeroQ := by
  rw [Ne, ← nsq_zero_iff]
  have : (q.scale k).nsq = q.nsq * (k * k) := by simp [nsq, scale]; ring
  rw [this]
  exact mul_ne_zero (nsq_pos_of_ne h).ne' (mul_ne_zero hk hk)

theorem rotF_scale (q : Quat ℝ) (v : V3 ℝ) {k : ℝ} (h : q ≠ zeroQ) (hk : k ≠ 0) : (q.scale k).rotF v = q.rotF v := by
  have hp := (nsq_pos_of_ne h).ne'
  unfold rotF
  rw [show (q.scale k).nsq = q.nsq * (k * k) by simp [nsq, scale]; ring]
  apply V3.ext' <;> simp [sandwich, scale, mul, conj] <;> field_simp

/-- **C14.** Normalising (the side effect of every rotation) and scaling by any non-zero factor do not change the
rotation: the object rotates every later vector as before. -/
theorem rotate_scale_invariant (q : Quat ℝ) (v w v' : V3 ℝ) (r : Quat ℝ) (h : q.rotate v = .ok (v', r)) :
    (∀ k : ℝ, k ≠ 0 → ∃ r', (q.scale k).rotate v = .ok (v', r')) ∧
    (∃ w' r', r.rotate w = .ok (w', r) ∧ q.rotate w = .ok (w', r')) := by
  obtain ⟨hne, hv, hr⟩ := rotate_ok h
  constructor
  · intro k hk
    exact ⟨_, by rw [rotate_eq_rotF _ _ (scale_ne hne hk), rotF_scale q v hne hk, hv]⟩
  · have hp := norm_pos_of_ne hne
    have hk : (1 / q.norm) ≠ 0 := by positivity
    refine ⟨q.rotF w, q.scale (1 / q.norm), ?_, rotate_eq_rotF q w hne⟩
    rw [hr, rotate_eq_rotF _ _ (scale_ne hne hk), rotF_scale q w hne hk]
    congr 2
    have hn1 : (q.scale (1 / q.norm)).norm = 1 := by
      obtain ⟨r', hr', hn, _⟩ := (qnormalize_spec q).2 hne
      rw [qnormalize_cases q hne] at hr'
      cases hr'; exact hn
    rw [hn1]; simp [scale]

/-- **C14.** A rotation is linear and preserves dot products, lengths, angles and cross products (handedness). -/
theorem rotate_isometry (q : Quat ℝ) (a b a' b' : V3 ℝ) (r1 r2 : Quat ℝ) (k : ℝ) (ha : q.rotate a = .ok (a', r1))
    (hb : q.rotate b = .ok (b', r2)) :
    dot a' b' = dot a b ∧ a'.length = a.length ∧ a'.angle b' = a.angle b ∧
    q.rotate (cross a b) = .ok (cross a' b', r1) ∧ q.rotate (a + b) = .ok (a' + b', r1) ∧
    q.rotate (k • a) = .ok (k • a', r1) := by
  obtain ⟨hne, ha, hr1⟩ := rotate_ok ha
  obtain ⟨_, hb, _⟩ := rotate_ok hb
  have hp := (nsq_pos_of_ne hne).ne'
  have hdot : ∀ u v : V3 ℝ, dot (q.rotF u) (q.rotF v) = dot u v := by
    intro u v
    unfold rotF
    have : dot (q.sandwich u) (q.sandwich v) = q.nsq * q.nsq * dot u v := by
      simp [sandwich, mul, conj, dot, nsq]; ring
    rw [show dot ((1 / q.nsq) • q.sandwich u) ((1 / q.nsq) • q.sandwich v)
      = 1 / q.nsq * (1 / q.nsq) * dot (q.sandwich u) (q.sandwich v) by simp [dot]; ring, this]
    field_simp
  have hlen : ∀ u : V3 ℝ, (q.rotF u).length = u.length := by
    intro u
    have := hdot u u
    unfold V3.length
    exact congrArg Real.sqrt this
  refine ⟨by rw [ha, hb, hdot], by rw [ha, hlen], ?_, ?_, ?_, ?_⟩
  · rw [ha, hb]; unfold V3.angle; rw [hlen, hlen, hdot]
  · rw [rotate_eq_rotF _ _ hne, hr1, ha, hb]
    congr 2
    unfold rotF
    have : cross (q.sandwich a) (q.sandwich b) = q.nsq • q.sandwich (cross a b) := by
      apply V3.ext' <;> simp [sandwich, mul, conj, cross, nsq] <;> ring
    rw [show cross ((1 / q.nsq) • q.sandwich a) ((1 / q.nsq) • q.sandwich b)
      = (1 / q.nsq * (1 / q.nsq)) • cross (q.sandwich a) (q.sandwich b) by
        apply V3.ext' <;> simp [cross] <;> ring, this, smul_smul]
    congr 1; field_simp
  · rw [rotate_eq_rotF _ _ hne, hr1, ha, hb]
    congr 2
    unfold rotF
    apply V3.ext' <;> simp [sandwich, mul, conj] <;> ring
  · rw [rotate_eq_rotF _ _ hne, hr1, ha]
    congr 2
    unfold rotF
    apply V3.ext' <;> simp [sandwich, mul, conj] <;> ring

theorem nsq_mul (p q : Quat ℝ) : (p.mul q).nsq = p.nsq * q.nsq := by
  simp [nsq, mul]; ring

theorem mul_ne_zeroQ {p q : Quat ℝ} (hp : p ≠ zeroQ) (hq : q ≠ zeroQ) : p.mul q ≠ zeroQ := by
  rw [Ne, ← nsq_zero_iff, nsq_mul]
  exact mul_ne_zero (nsq_pos_of_ne hp).ne' (nsq_pos_of_ne hq).ne'

theorem rotF_mul (p q : Quat ℝ) (v : V3 ℝ) : (p.mul q).rotF v = p.rotF (q.rotF v) := by
  unfold rotF
  rw [nsq_mul]
  have h1 : (p.mul q).sandwich v = p.sandwich (q.sandwich v) := by
    apply V3.ext' <;> simp [sandwich, mul, conj] <;> ring
  have h2 : p.sandwich ((1 / q.nsq) • q.sandwich v) = (1 / q.nsq) • p.sandwich (q.sandwich v) := by
    generalize q.sandwich v = w
    apply V3.ext' <;> simp [sandwich, mul, conj] <;> ring
  rw [h1, h2, smul_smul]
  congr 1
  rw [one_div, mul_inv, one_div, one_div]

/-- Successive rotation of `v` by the listed orientations, the last one first. -/
inductive RotatesBy : List (Quat ℝ) → V3 ℝ → V3 ℝ → Prop
  | nil (v) : RotatesBy [] v v
  | cons {q qs v w w' r} (h : RotatesBy qs v w) (hq : Quat.rotate q w = .ok (w', r)) : RotatesBy (q :: qs) v w'

/-- The product of a list of orientations, `Quaternion(1,0,0,0)` for the empty list. -/
noncomputable def prod : List (Quat ℝ) → Quat ℝ
  | [] => ⟨1, 0, 0, 0⟩
  | q :: qs => q.mul (prod qs)

/-- **C14.** Rotating by a product of any length is rotating by its factors one after the other. -/
theorem rotate_product (qs : List (Quat ℝ)) (hq : ∀ q ∈ qs, q ≠ zeroQ) (v : V3 ℝ) :
    ∃ w r, (prod qs).rotate v = .ok (w, r) ∧ RotatesBy qs v w ∧ ∀ w', RotatesBy qs v w' → w' = w := by
  have hne : prod qs ≠ zeroQ := by
    induction qs with
    | nil => intro h; have := congrArg Quat.q0 h; simp [prod, zeroQ] at this
    | cons q qs ih => exact mul_ne_zeroQ (hq q (by simp)) (ih (fun q h => hq q (by simp [h])))
  have key : ∀ w, RotatesBy qs v w ↔ w = (prod qs).rotF v := by
    clear hne
    induction qs with
    | nil =>
      intro w
      have : (prod []).rotF v = v := by
        apply V3.ext' <;> simp [prod, rotF, nsq, sandwich, mul, conj]
      rw [this]
      constructor
      · rintro ⟨⟩; rfl
      · rintro rfl; exact .nil _
    | cons q qs ih =>
      intro w
      have ih' := ih (fun q h => hq q (by simp [h]))
      rw [prod, rotF_mul]
      constructor
      · intro h
        cases h with
        | cons h1 h2 => rw [(ih' _).1 h1] at h2; exact (rotate_ok h2).2.1
      · rintro rfl
        exact .cons ((ih' _).2 rfl) (rotate_eq_rotF _ _ (hq q (by simp)))
  exact ⟨_, _, rotate_eq_rotF _ _ hne, (key _).2 rfl, fun w' h => (key w').1 h⟩

/-- **C14.** `inverse` raises exactly on the zero quaternion, is a two-sided inverse, and rotating by the inverse (or the
conjugate) undoes the rotation, in both orders. `a / b` is `b⁻¹ a`. -/
theorem rotate_inverse (q : Quat ℝ) :
    (q.inverse = .error .zeroDivision ↔ q = zeroQ) ∧
    (q ≠ zeroQ → ∃ i, q.inverse = .ok i ∧ q.mul i = ⟨1, 0, 0, 0⟩ ∧ i.mul q = ⟨1, 0, 0, 0⟩ ∧
      (∀ a : Quat ℝ, a.divQuat q = .ok (i.mul a)) ∧
      ∀ v v' r, q.rotate v = .ok (v', r) →
        (∃ r', i.rotate v' = .ok (v, r')) ∧ (∃ r', q.conj.rotate v' = .ok (v, r')) ∧
        ∃ w r' r'', i.rotate v = .ok (w, r') ∧ q.rotate w = .ok (v, r'')) := by
  have hinv : q ≠ zeroQ → q.inverse = .ok (q.conj.scale (1 / q.nsq)) := by
    intro h
    unfold inverse divNum
    rw [pow_two, norm_sq', if_neg (nsq_pos_of_ne h).ne']
  constructor
  · constructor
    · intro h
      by_contra hne
      rw [hinv hne] at h; cases h
    · intro h
      unfold inverse divNum
      rw [pow_two, norm_sq', if_pos ((nsq_zero_iff q).2 h)]
  · intro h
    have hp := (nsq_pos_of_ne h).ne'
    have hcn : q.conj.nsq = q.nsq := by simp [conj, nsq]
    have hcne : q.conj ≠ zeroQ := by rw [Ne, ← nsq_zero_iff, hcn]; exact hp
    have hine : q.conj.scale (1 / q.nsq) ≠ zeroQ := scale_ne hcne (by simpa using hp)
    have h1 : q.mul (q.conj.scale (1 / q.nsq)) = ⟨1, 0, 0, 0⟩ := by
      have : ∀ k, q.mul (q.conj.scale k) = ⟨q.nsq * k, 0, 0, 0⟩ := by
        intro k; apply ext4 <;> simp [mul, conj, scale, nsq] <;> ring
      rw [this, mul_one_div_cancel hp]
    have h2 : (q.conj.scale (1 / q.nsq)).mul q = ⟨1, 0, 0, 0⟩ := by
      have : ∀ k, (q.conj.scale k).mul q = ⟨q.nsq * k, 0, 0, 0⟩ := by
        intro k; apply ext4 <;> simp [mul, conj, scale, nsq] <;> ring
      rw [this, mul_one_div_cancel hp]
    have hid : ∀ v, (⟨1, 0, 0, 0⟩ : Quat ℝ).rotF v = v := by
      intro v; apply V3.ext' <;> simp [rotF, nsq, sandwich, mul, conj]
    refine ⟨_, hinv h, h1, h2, ?_, ?_⟩
    · intro a; unfold divQuat; rw [hinv h]
    · intro v v' r hv
      obtain ⟨_, hv, _⟩ := rotate_ok hv
      have hback : (q.conj.scale (1 / q.nsq)).rotF v' = v := by rw [hv, ← rotF_mul, h2, hid]
      refine ⟨⟨_, by rw [rotate_eq_rotF _ _ hine, hback]⟩, ⟨q.conj.scale (1 / q.conj.norm), ?_⟩, ?_⟩
      · rw [rotate_eq_rotF _ _ hcne, ← rotF_scale q.conj v' hcne (k := 1 / q.nsq) (by simpa using hp), hback]
      · exact ⟨_, _, _, rotate_eq_rotF _ _ hine, by rw [rotate_eq_rotF _ _ h, ← rotF_mul, h1, hid]⟩

/-- Rodrigues' formula: rotating `v` about the unit vector `u` by the angle `θ`. -/
noncomputable def rodrigues (u : V3 ℝ) (θ : ℝ) (v : V3 ℝ) : V3 ℝ :=
  Real.cos θ • v + Real.sin θ • cross u v + (dot u v * (1 - Real.cos θ)) • u

theorem axisAngle_nsq (u : V3 ℝ) (θ : ℝ) (h : u ≠ 0) : (axisAngle u θ).nsq = 1 := by
  have hu := (V3.normalize_spec u).1 h
  have h2 := V3.length_sq u.normalize
  rw [hu] at h2
  unfold axisAngle nsq
  simp only [dot] at h2
  have := Real.sin_sq_add_cos_sq (θ / 2)
  nlinarith [this, h2]

/-- **C14.** A quaternion built from a (non-zero) axis and an angle has norm 1 and turns every vector about that axis by
that angle: Rodrigues' formula. In particular it leaves the axis where it is. -/
theorem axisAngle_rotates (u : V3 ℝ) (θ : ℝ) (h : u ≠ 0) (v : V3 ℝ) :
    (axisAngle u θ).norm = 1 ∧ (∃ r, (axisAngle u θ).rotate v = .ok (rodrigues u.normalize θ v, r)) ∧
    ∃ r, (axisAngle u θ).rotate u = .ok (u, r) := by
  have hn := axisAngle_nsq u θ h
  have hne : axisAngle u θ ≠ zeroQ := by rw [Ne, ← nsq_zero_iff, hn]; norm_num
  have hu := (V3.normalize_spec u).1 h
  have hu2 := V3.length_sq u.normalize
  rw [hu, one_mul] at hu2
  have hrod : ∀ w, (axisAngle u θ).rotF w = rodrigues u.normalize θ w := by
    intro w
    have hc : Real.cos θ = 2 * Real.cos (θ / 2) ^ 2 - 1 := by rw [← Real.cos_two_mul]; congr 1; ring
    have hs : Real.sin θ = 2 * Real.sin (θ / 2) * Real.cos (θ / 2) := by rw [← Real.sin_two_mul]; congr 1; ring
    have h1 := Real.sin_sq_add_cos_sq (θ / 2)
    unfold rotF rodrigues
    rw [hn, hc, hs]
    unfold axisAngle
    generalize u.normalize = n at hu2
    generalize Real.cos (θ / 2) = c at *
    generalize Real.sin (θ / 2) = s at *
    have hs2 : s ^ 2 = 1 - c ^ 2 := by linarith
    simp only [dot] at hu2
    apply V3.ext'
    · simp [sandwich, mul, conj, cross, dot]
      linear_combination (w.x * s ^ 2) * hu2 + (2 * (n.x * (n.x * w.x + n.y * w.y + n.z * w.z)) - w.x) * hs2
    · simp [sandwich, mul, conj, cross, dot]
      linear_combination (w.y * s ^ 2) * hu2 + (2 * (n.y * (n.x * w.x + n.y * w.y + n.z * w.z)) - w.y) * hs2
    · simp [sandwich, mul, conj, cross, dot]
      linear_combination (w.z * s ^ 2) * hu2 + (2 * (n.z * (n.x * w.x + n.y * w.y + n.z * w.z)) - w.z) * hs2
  have hfix : rodrigues u.normalize θ u = u := by
    have hL := (V3.normalize_spec u).2.2
    generalize u.normalize = n at hu2 hL
    generalize u.length = L at hL
    subst hL
    have hd : dot n (L • n) = L := by
      have : dot n (L • n) = L * dot n n := by simp [dot]; ring
      rw [this, ← hu2, mul_one]
    have hx : cross n (L • n) = 0 := by apply V3.ext' <;> simp [cross] <;> ring
    unfold rodrigues
    rw [hd, hx, smul_zero, add_zero, smul_smul, ← add_smul]
    congr 1; ring
  refine ⟨?_, ⟨_, by rw [rotate_eq_rotF _ _ hne, hrod]⟩, ⟨_, by rw [rotate_eq_rotF _ _ hne, hrod, hfix]⟩⟩
  rw [norm_def', hn, Real.sqrt_one]

/-- `n`-fold composition of an axis/angle rotation is the rotation by the `n`-fold angle. -/
theorem axisAngle_mul (u : V3 ℝ) (α β : ℝ) (h : u ≠ 0) : (axisAngle u α).mul (axisAngle u β) = axisAngle u (α + β) := by
  have hu := (V3.normalize_spec u).1 h
  have hu2 := V3.length_sq u.normalize
  rw [hu, one_mul] at hu2
  unfold axisAngle
  rw [show (α + β) / 2 = α / 2 + β / 2 by ring, Real.cos_add, Real.sin_add]
  generalize u.normalize = n at hu2
  simp only [dot] at hu2
  apply ext4
  · simp [mul]; linear_combination (Real.sin (α / 2) * Real.sin (β / 2)) * hu2
  · simp [mul]; ring
  · simp [mul]; ring
  · simp [mul]; ring

/-- A quaternion of norm different from 1 and an axis/angle pair meeting the hypotheses above. -/
example : (⟨1, 2, 3, 4⟩ : Quat ℝ) ≠ zeroQ ∧ (⟨1, 0, 2⟩ : V3 ℝ) ≠ 0 ∧ ∃ v' r, (⟨1, 2, 3, 4⟩ : Quat ℝ).rotate ⟨1, 0, 0⟩ = .ok (v', r) := by
  have h : (⟨1, 2, 3, 4⟩ : Quat ℝ) ≠ zeroQ := by intro h; have := congrArg Quat.q0 h; simp [zeroQ] at this
  refine ⟨h, ?_, _, _, rotate_eq_rotF _ _ h⟩
  intro h; have := congrArg V3.x h; simp at this
/-- A quarter turn about z takes x to y. -/
example : rodrigues ⟨0, 0, 1⟩ (Real.pi / 2) ⟨1, 0, 0⟩ = ⟨0, 1, 0⟩ := by
  apply V3.ext' <;> simp [rodrigues, cross, dot]

end Quat
end Mapleaf.Motion
