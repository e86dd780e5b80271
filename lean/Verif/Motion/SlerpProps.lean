import Verif.Motion.QuatProps

/-! # C15: axis, angle and spherical interpolation -/

namespace Mapleaf.Motion
namespace Quat
open V3 (dot cross)

/-- A unit quaternion. -/
def Unit (q : Quat ℝ) : Prop := q.nsq = 1

theorem Unit.ne {q : Quat ℝ} (h : Unit q) : q ≠ zeroQ := by
  rw [Ne, ← nsq_zero_iff, show q.nsq = 1 from h]; norm_num

theorem Unit.norm {q : Quat ℝ} (h : Unit q) : q.norm = 1 := by
  rw [norm_def', show q.nsq = 1 from h, Real.sqrt_one]

theorem Unit.normalize {q : Quat ℝ} (h : Unit q) : q.normalize = .ok q := by
  unfold Quat.normalize; simp [h.norm]

theorem Unit.conj {q : Quat ℝ} (h : Unit q) : Unit q.conj := by
  unfold Unit at *; simpa [nsq, Quat.conj] using h

theorem Unit.mul {p q : Quat ℝ} (hp : Unit p) (hq : Unit q) : Unit (p.mul q) := by
  unfold Unit at *; rw [nsq_mul, hp, hq, one_mul]

theorem Unit.neg {q : Quat ℝ} (h : Unit q) : Unit q.neg := by
  unfold Unit at *; simpa [nsq, Quat.neg] using h

theorem Unit.q0_mem {q : Quat ℝ} (h : Unit q) : -1 ≤ q.q0 ∧ q.q0 ≤ 1 := by
  unfold Unit nsq at h
  constructor <;> nlinarith [mul_self_nonneg q.q1, mul_self_nonneg q.q2, mul_self_nonneg q.q3, mul_self_nonneg q.q0]

theorem axisAngle_unit (u : V3 ℝ) (θ : ℝ) (h : u ≠ 0) : Unit (axisAngle u θ) := axisAngle_nsq u θ h

theorem atan2_unit {c : ℝ} (h1 : -1 ≤ c) (h2 : c ≤ 1) : atan2 (Real.sqrt (1 - c ^ 2)) c = Real.arccos c := by
  unfold atan2
  have hc := Real.cos_arccos h1 h2
  have hs := Real.sin_arccos c
  have := Complex.arg_cos_add_sin_mul_I (θ := Real.arccos c)
    ⟨by linarith [Real.arccos_nonneg c, Real.pi_pos], Real.arccos_le_pi c⟩
  rw [← Complex.ofReal_cos, ← Complex.ofReal_sin, hc, hs] at this
  exact this

theorem rotationAngle_unit {q : Quat ℝ} (h : Unit q) : q.rotationAngle = .ok (2 * Real.arccos q.q0, q) := by
  unfold rotationAngle
  rw [h.normalize]
  dsimp only
  rw [atan2_unit h.q0_mem.1 h.q0_mem.2]

/-- Length of the vector part of a unit quaternion. -/
theorem Unit.vec {q : Quat ℝ} (h : Unit q) : q.q1 * q.q1 + q.q2 * q.q2 + q.q3 * q.q3 = 1 - q.q0 ^ 2 := by
  unfold Unit nsq at h; linarith

theorem rotationAxis_unit {q : Quat ℝ} (h : Unit q) (h1 : q.q0 ≠ 1) (h2 : q.q0 ≠ -1) :
    q.rotationAxis = .ok ⟨q.q1 / Real.sqrt (1 - q.q0 ^ 2), q.q2 / Real.sqrt (1 - q.q0 ^ 2),
      q.q3 / Real.sqrt (1 - q.q0 ^ 2)⟩ ∧ 0 < Real.sqrt (1 - q.q0 ^ 2) := by
  obtain ⟨ha, hb⟩ := h.q0_mem
  have hlt1 : q.q0 < 1 := lt_of_le_of_ne hb h1
  have hlt2 : -1 < q.q0 := lt_of_le_of_ne ha (Ne.symm h2)
  have hs : 0 < Real.sqrt (1 - q.q0 ^ 2) := Real.sqrt_pos.2 (by nlinarith)
  refine ⟨?_, hs⟩
  unfold rotationAxis
  rw [rotationAngle_unit h]
  dsimp only
  have hpos : 0 < Real.arccos q.q0 := Real.arccos_pos.2 hlt1
  rw [if_pos (by rw [abs_of_pos] <;> linarith), h.norm, if_neg hs.ne']

theorem axis_unit_length {q : Quat ℝ} (h : Unit q) (h1 : q.q0 ≠ 1) (h2 : q.q0 ≠ -1) (a : V3 ℝ)
    (ha : q.rotationAxis = .ok a) : a.length = 1 ∧ a ≠ 0 ∧ a.normalize = a ∧
      ∀ s, s = Real.sqrt (1 - q.q0 ^ 2) → s * a.x = q.q1 ∧ s * a.y = q.q2 ∧ s * a.z = q.q3 := by
  obtain ⟨he, hs⟩ := rotationAxis_unit h h1 h2
  rw [he] at ha
  cases ha
  have hlen : V3.length ⟨q.q1 / Real.sqrt (1 - q.q0 ^ 2), q.q2 / Real.sqrt (1 - q.q0 ^ 2),
      q.q3 / Real.sqrt (1 - q.q0 ^ 2)⟩ = 1 := by
    unfold V3.length
    dsimp only
    have hsq := Real.mul_self_sqrt (show 0 ≤ 1 - q.q0 ^ 2 by have := h.q0_mem; nlinarith)
    rw [show ∀ s : ℝ, q.q1 / s * (q.q1 / s) + q.q2 / s * (q.q2 / s) + q.q3 / s * (q.q3 / s)
      = (q.q1 * q.q1 + q.q2 * q.q2 + q.q3 * q.q3) / (s * s) from fun s => by ring]
    rw [h.vec, hsq, div_self, Real.sqrt_one]
    intro h0; rw [h0] at hs; simp at hs
  have hne : (⟨q.q1 / Real.sqrt (1 - q.q0 ^ 2), q.q2 / Real.sqrt (1 - q.q0 ^ 2),
      q.q3 / Real.sqrt (1 - q.q0 ^ 2)⟩ : V3 ℝ) ≠ 0 := by
    intro h0; rw [h0, (V3.length_zero_iff 0).2 rfl] at hlen; norm_num at hlen
  refine ⟨hlen, hne, (V3.normalize_unique _ _ hne (by rw [hlen, one_smul])).symm, ?_⟩
  rintro s rfl
  refine ⟨?_, ?_, ?_⟩ <;> field_simp

/-- **C15, axis and angle.** For every non-zero quaternion the rotation angle is in [0, 2π]; unless the quaternion is a
negative number the axis is a unit vector and axis and angle rebuild the (normalised) quaternion. -/
theorem axis_angle_roundtrip (q : Quat ℝ) (h : q ≠ zeroQ) :
    ∃ θ r, q.rotationAngle = .ok (θ, r) ∧ q.normalize = .ok r ∧ 0 ≤ θ ∧ θ ≤ 2 * Real.pi ∧
      (r ≠ ⟨-1, 0, 0, 0⟩ → ∃ a, r.rotationAxis = .ok a ∧ a.length = 1 ∧ axisAngle a θ = r) := by
  obtain ⟨r, hr, hn, hs⟩ := (qnormalize_spec q).2 h
  have hu : Unit r := by unfold Unit; rw [← norm_sq', hn, one_mul]
  refine ⟨2 * Real.arccos r.q0, r, ?_, hr, ?_, ?_, ?_⟩
  · unfold rotationAngle; rw [hr]; dsimp only; rw [atan2_unit hu.q0_mem.1 hu.q0_mem.2]
  · have := Real.arccos_nonneg r.q0; linarith
  · have := Real.arccos_le_pi r.q0; linarith
  · intro hne
    by_cases h1 : r.q0 = 1
    · have hv := hu.vec
      rw [h1] at hv
      have e1 : r.q1 = 0 := mul_self_eq_zero.1 (by nlinarith [mul_self_nonneg r.q1, mul_self_nonneg r.q2, mul_self_nonneg r.q3])
      have e2 : r.q2 = 0 := mul_self_eq_zero.1 (by nlinarith [mul_self_nonneg r.q1, mul_self_nonneg r.q2, mul_self_nonneg r.q3])
      have e3 : r.q3 = 0 := mul_self_eq_zero.1 (by nlinarith [mul_self_nonneg r.q1, mul_self_nonneg r.q2, mul_self_nonneg r.q3])
      refine ⟨⟨1, 0, 0⟩, ?_, ?_, ?_⟩
      · unfold rotationAxis; rw [rotationAngle_unit hu, h1]; simp
      · simp [V3.length]
      · rw [h1]; apply ext4 <;> simp [axisAngle, h1, e1, e2, e3]
    · have h2 : r.q0 ≠ -1 := by
        intro h2
        have hv := hu.vec
        rw [h2] at hv
        apply hne
        apply ext4
        · exact h2
        · exact mul_self_eq_zero.1 (by nlinarith [mul_self_nonneg r.q1, mul_self_nonneg r.q2, mul_self_nonneg r.q3])
        · exact mul_self_eq_zero.1 (by nlinarith [mul_self_nonneg r.q1, mul_self_nonneg r.q2, mul_self_nonneg r.q3])
        · exact mul_self_eq_zero.1 (by nlinarith [mul_self_nonneg r.q1, mul_self_nonneg r.q2, mul_self_nonneg r.q3])
      obtain ⟨ha, _⟩ := rotationAxis_unit hu h1 h2
      obtain ⟨hl, hne0, hnorm, hc⟩ := axis_unit_length hu h1 h2 _ ha
      refine ⟨_, ha, hl, ?_⟩
      unfold axisAngle
      rw [hnorm]
      dsimp only
      rw [show 2 * Real.arccos r.q0 / 2 = Real.arccos r.q0 by ring, Real.cos_arccos hu.q0_mem.1 hu.q0_mem.2,
        Real.sin_arccos]
      obtain ⟨c1, c2, c3⟩ := hc _ rfl
      exact ext4 rfl c1 c2 c3

/-- Axis and angle of the quaternion built from them are returned unchanged (angles strictly between 0 and 2π). -/
theorem axis_angle_recovered (u : V3 ℝ) (θ : ℝ) (hu : u ≠ 0) (h0 : 0 < θ) (h1 : θ < 2 * Real.pi) :
    (axisAngle u θ).rotationAngle = .ok (θ, axisAngle u θ) ∧ (axisAngle u θ).rotationAxis = .ok u.normalize := by
  have hU := axisAngle_unit u θ hu
  have hq0 : (axisAngle u θ).q0 = Real.cos (θ / 2) := rfl
  have hang : Real.arccos (Real.cos (θ / 2)) = θ / 2 := Real.arccos_cos (by linarith) (by linarith)
  have hsin : 0 < Real.sin (θ / 2) := Real.sin_pos_of_pos_of_lt_pi (by linarith) (by linarith)
  have hsq := Real.sin_sq_add_cos_sq (θ / 2)
  have n1 : (axisAngle u θ).q0 ≠ 1 := by rw [hq0]; intro h; rw [h] at hsq; nlinarith
  have n2 : (axisAngle u θ).q0 ≠ -1 := by rw [hq0]; intro h; rw [h] at hsq; nlinarith
  constructor
  · rw [rotationAngle_unit hU, hq0, hang]; congr 2; ring
  · obtain ⟨he, _⟩ := rotationAxis_unit hU n1 n2
    rw [he, hq0]
    have : Real.sqrt (1 - Real.cos (θ / 2) ^ 2) = Real.sin (θ / 2) := by
      rw [← Real.sqrt_sq hsin.le]; congr 1; linarith
    rw [this]
    congr 1
    apply V3.ext' <;> simp [axisAngle, hsin.ne']

/-- **C15, scaling a rotation.** Scaling the rotation about an axis scales its angle. -/
theorem scaleRotation_spec (u : V3 ℝ) (θ s : ℝ) (hu : u ≠ 0) (h0 : 0 < θ) (h1 : θ < 2 * Real.pi) :
    (axisAngle u θ).scaleRotation s = .ok (axisAngle u (s * θ)) := by
  obtain ⟨ha, hb⟩ := axis_angle_recovered u θ hu h0 h1
  unfold scaleRotation
  rw [ha]
  dsimp only
  rw [if_neg h0.ne', hb]
  dsimp only
  congr 1
  have hl := (V3.normalize_spec u).1 hu
  have hne : u.normalize ≠ 0 := by intro h; rw [h, (V3.length_zero_iff 0).2 rfl] at hl; norm_num at hl
  have : u.normalize.normalize = u.normalize := (V3.normalize_unique _ _ hne (by rw [hl, one_smul])).symm
  unfold axisAngle
  rw [this]

/-- The rotation taking `a` to `b`. -/
noncomputable def delta (a b : Quat ℝ) : Quat ℝ := a.conj.mul b

theorem mul_delta {a : Quat ℝ} (b : Quat ℝ) (h : Unit a) : a.mul (delta a b) = b := by
  unfold Unit nsq at h
  apply ext4 <;> simp [delta, mul, conj]
  · linear_combination b.q0 * h
  · linear_combination b.q1 * h
  · linear_combination b.q2 * h
  · linear_combination b.q3 * h

/-- Exact description of `slerp` on unit quaternions: a rotation about the axis of `delta a b`, by the fraction of its angle
θ, or of 2π − θ when θ > π. The result does not involve the starting orientation. -/
theorem slerp_exact (a b : Quat ℝ) (f : ℝ) (ha : Unit a) (hb : Unit b) (hf : 0 ≤ f) :
    ∃ n : V3 ℝ, n.length = 1 ∧ n.normalize = n ∧
      slerp a b f = .ok (axisAngle n (f * (if (delta a b).q0 < 0 then 2 * Real.pi - 2 * Real.arccos (delta a b).q0
        else 2 * Real.arccos (delta a b).q0))) ∧
      ((delta a b).q0 ≠ -1 → axisAngle n (2 * Real.arccos (delta a b).q0) = delta a b) := by
  have hd : Unit (delta a b) := ha.conj.mul hb
  have hang := rotationAngle_unit hd
  set d := delta a b with hdd
  have hpi : (2 * Real.arccos d.q0 > Real.pi) ↔ d.q0 < 0 := by
    rw [show (2 * Real.arccos d.q0 > Real.pi) ↔ Real.pi / 2 < Real.arccos d.q0 by constructor <;> intro h <;> linarith]
    constructor
    · intro h
      by_contra hneg
      have := Real.arccos_le_pi_div_two.2 (not_lt.1 hneg)
      linarith
    · intro h
      by_contra hc
      have := Real.arccos_le_pi_div_two.1 (not_lt.1 hc)
      linarith
  have hsl : slerpAngle (2 * Real.arccos d.q0) f = f * (if d.q0 < 0 then 2 * Real.pi - 2 * Real.arccos d.q0
      else 2 * Real.arccos d.q0) := by
    unfold slerpAngle
    by_cases h : d.q0 < 0
    · rw [if_pos (hpi.2 h), if_pos h]; ring
    · rw [if_neg (fun h' => h (hpi.1 h')), if_neg h]; ring
  have hmain : slerp a b f = (if slerpAngle (2 * Real.arccos d.q0) f > 0 then
      match d.rotationAxis with
      | .error e => .error e
      | .ok axis => .ok (axisAngle axis (slerpAngle (2 * Real.arccos d.q0) f))
      else .ok (axisAngle ⟨1, 0, 0⟩ (slerpAngle (2 * Real.arccos d.q0) f))) := by
    unfold slerp
    rw [ha.normalize, hb.normalize]
    dsimp only
    rw [show a.conj.mul b = d from rfl, hang]
    rfl
  have e1 : (⟨1, 0, 0⟩ : V3 ℝ).length = 1 := by simp [V3.length]
  have e1ne : (⟨1, 0, 0⟩ : V3 ℝ) ≠ 0 := by intro h; have := congrArg V3.x h; simp at this
  have e1n : (⟨1, 0, 0⟩ : V3 ℝ).normalize = ⟨1, 0, 0⟩ :=
    (V3.normalize_unique _ _ e1ne (by rw [e1, one_smul])).symm
  obtain ⟨θ, r, hθ, hr, hθ0, hθ1, hback⟩ := axis_angle_roundtrip d hd.ne
  rw [hd.normalize] at hr
  cases hr
  rw [hang] at hθ
  simp at hθ
  subst hθ
  have zero_angle : ∀ n : V3 ℝ, axisAngle n 0 = ⟨1, 0, 0, 0⟩ := by
    intro n; apply ext4 <;> simp [axisAngle]
  by_cases hm1 : d = ⟨-1, 0, 0, 0⟩
  · refine ⟨⟨1, 0, 0⟩, e1, e1n, ?_, ?_⟩
    · have hz : slerpAngle (2 * Real.arccos d.q0) f = 0 := by
        rw [hsl, hm1]; simp
      rw [hmain, ← hsl, hz]; simp
    · intro h; exact absurd (by rw [hm1]) h
  · obtain ⟨n, hn, hnl, hnd⟩ := hback hm1
    have hnne : n ≠ 0 := by intro h; rw [h, (V3.length_zero_iff 0).2 rfl] at hnl; norm_num at hnl
    refine ⟨n, hnl, (V3.normalize_unique _ _ hnne (by rw [hnl, one_smul])).symm, ?_, fun _ => hnd⟩
    rw [hmain, hn, ← hsl]
    dsimp only
    split
    · rfl
    · rename_i hle
      have hz : slerpAngle (2 * Real.arccos d.q0) f = 0 := by
        apply le_antisymm (not_lt.1 hle)
        rw [hsl]
        apply mul_nonneg hf
        split <;> linarith
      rw [hz, zero_angle, zero_angle]

theorem axisAngle_of_unit {n : V3 ℝ} (h : n.normalize = n) (θ : ℝ) :
    axisAngle n θ = ⟨Real.cos (θ / 2), Real.sin (θ / 2) * n.x, Real.sin (θ / 2) * n.y, Real.sin (θ / 2) * n.z⟩ := by
  unfold axisAngle; rw [h]

/-- **C15, part that holds.** For unit orientations whose relative rotation is at most half a turn (scalar part of
`a⁻¹b` not negative), the interpolated orientation is `a · slerp(a, b, f)`: unit, equal to `a` at 0 and to `b` at 1, and
its angle from `a` is `f` times the angle between `a` and `b`. The value returned by `slerp` itself is only the rotation
from `a` (see `slerp_start_violated`), and for larger relative rotations it is wrong (see `slerp_long_way_violated`). -/
theorem slerp_partial (a b : Quat ℝ) (f : ℝ) (ha : Unit a) (hb : Unit b) (hf0 : 0 ≤ f) (hf1 : f ≤ 1)
    (hs : 0 ≤ (delta a b).q0) :
    ∃ s, slerp a b f = .ok s ∧ Unit (a.mul s) ∧ (f = 0 → a.mul s = a) ∧ (f = 1 → a.mul s = b) ∧
      ∃ θ, (delta a b).rotationAngle = .ok (θ, delta a b) ∧ s.rotationAngle = .ok (f * θ, s) := by
  obtain ⟨n, hnl, hnn, he, hd⟩ := slerp_exact a b f ha hb hf0
  rw [if_neg (not_lt.2 hs)] at he
  have hd := hd (by linarith)
  have hnne : n ≠ 0 := by intro h; rw [h, (V3.length_zero_iff 0).2 rfl] at hnl; norm_num at hnl
  have hdU : Unit (delta a b) := ha.conj.mul hb
  have hacos : Real.arccos (delta a b).q0 ≤ Real.pi / 2 := Real.arccos_le_pi_div_two.2 hs
  have hac0 := Real.arccos_nonneg (delta a b).q0
  have hsU := axisAngle_unit n (f * (2 * Real.arccos (delta a b).q0)) hnne
  refine ⟨_, he, ha.mul hsU, ?_, ?_, 2 * Real.arccos (delta a b).q0, rotationAngle_unit hdU, ?_⟩
  · rintro rfl
    apply ext4 <;> simp [axisAngle, mul]
  · rintro rfl
    rw [one_mul, hd, mul_delta b ha]
  · rw [rotationAngle_unit hsU, axisAngle_of_unit hnn]
    dsimp only
    rw [Real.arccos_cos]
    · congr 2; ring
    · have := mul_nonneg hf0 hac0; linarith
    · have : f * Real.arccos (delta a b).q0 ≤ 1 * Real.arccos (delta a b).q0 := mul_le_mul_of_nonneg_right hf1 hac0
      have := Real.pi_pos
      linarith

/-- **C15 violated (start).** `slerp` with fraction 0 returns the identity rotation whatever the first orientation. -/
theorem slerp_start_violated (a b : Quat ℝ) (ha : Unit a) (hb : Unit b) :
    slerp a b 0 = .ok ⟨1, 0, 0, 0⟩ := by
  obtain ⟨n, _, _, he, _⟩ := slerp_exact a b 0 ha hb le_rfl
  rw [he]
  congr 1
  apply ext4 <;> simp [axisAngle]

/-- **C15 violated (long way round).** Whenever the relative rotation is more than half a turn, the end point is missed:
`slerp(a, b, 1)` is the *inverse* of the rotation from `a` to `b`. -/
theorem slerp_long_way_violated (a b : Quat ℝ) (ha : Unit a) (hb : Unit b) (hs : (delta a b).q0 < 0)
    (hm1 : (delta a b).q0 ≠ -1) :
    slerp a b 1 = .ok (delta a b).conj.neg := by
  obtain ⟨n, hnl, hnn, he, hd⟩ := slerp_exact a b 1 ha hb zero_le_one
  rw [if_pos hs, one_mul] at he
  have hd := hd hm1
  rw [he]
  congr 1
  rw [axisAngle_of_unit hnn] at hd ⊢
  rw [show (2 * Real.pi - 2 * Real.arccos (delta a b).q0) / 2 = Real.pi - Real.arccos (delta a b).q0 by ring,
    Real.cos_pi_sub, Real.sin_pi_sub]
  rw [show 2 * Real.arccos (delta a b).q0 / 2 = Real.arccos (delta a b).q0 by ring] at hd
  have h0 := congrArg Quat.q0 hd
  have h1 := congrArg Quat.q1 hd
  have h2 := congrArg Quat.q2 hd
  have h3 := congrArg Quat.q3 hd
  dsimp only at h0 h1 h2 h3
  apply ext4
  · simp [conj, neg, h0]
  · simp [conj, neg, h1]
  · simp [conj, neg, h2]
  · simp [conj, neg, h3]

/-- Witnesses: unit pairs in both regimes; in the second, the end point reached is neither `b` nor `-b`. -/
example : Unit ⟨1, 0, 0, 0⟩ ∧ Unit ⟨3 / 5, 4 / 5, 0, 0⟩ ∧ Unit ⟨-3 / 5, 4 / 5, 0, 0⟩ ∧
    0 ≤ (delta ⟨1, 0, 0, 0⟩ ⟨3 / 5, 4 / 5, 0, 0⟩).q0 ∧ (delta ⟨1, 0, 0, 0⟩ ⟨-3 / 5, 4 / 5, 0, 0⟩).q0 < 0 ∧
    (delta ⟨1, 0, 0, 0⟩ ⟨-3 / 5, 4 / 5, 0, 0⟩).conj.neg ≠ ⟨-3 / 5, 4 / 5, 0, 0⟩ ∧
    (delta ⟨1, 0, 0, 0⟩ ⟨-3 / 5, 4 / 5, 0, 0⟩).conj.neg ≠ (⟨-3 / 5, 4 / 5, 0, 0⟩ : Quat ℝ).neg := by
  refine ⟨?_, ?_, ?_, ?_, ?_, ?_, ?_⟩
  · norm_num [Unit, nsq]
  · norm_num [Unit, nsq]
  · norm_num [Unit, nsq]
  · norm_num [delta, mul, conj]
  · norm_num [delta, mul, conj]
  · intro h; have := congrArg Quat.q0 h; norm_num [delta, mul, conj, neg] at this
  · intro h; have := congrArg Quat.q1 h; norm_num [delta, mul, conj, neg] at this

/-- The rotation vector of a unit quaternion that is not ±1 is its angle times its axis, and rebuilding the rotation from
it gives the quaternion back; the negative unit raises. -/
theorem rotationVector_roundtrip (q : Quat ℝ) (h : Unit q) :
    (q = ⟨-1, 0, 0, 0⟩ → q.toRotationVector = .error .zeroDivision) ∧
    (q ≠ ⟨-1, 0, 0, 0⟩ → ∃ w, q.toRotationVector = .ok w ∧ w.length = 2 * Real.arccos q.q0 ∧ ofRotationVector w = q) := by
  have hform : q.toRotationVector = (if 2 * Real.arccos q.q0 = 0 then .ok ⟨0, 0, 0⟩
      else if Real.sqrt (1 - q.q0 ^ 2) = 0 then .error .zeroDivision
      else .ok ⟨q.q1 * (2 * Real.arccos q.q0) / Real.sqrt (1 - q.q0 ^ 2), q.q2 * (2 * Real.arccos q.q0) / Real.sqrt (1 - q.q0 ^ 2),
        q.q3 * (2 * Real.arccos q.q0) / Real.sqrt (1 - q.q0 ^ 2)⟩) := by
    unfold toRotationVector
    rw [h.normalize]
    dsimp only
    rw [atan2_unit h.q0_mem.1 h.q0_mem.2]
  constructor
  · intro hm
    rw [hform, hm]
    simp [Real.pi_ne_zero]
  · intro hne
    obtain ⟨θ, r, hθ, hr, hθ0, hθ1, hback⟩ := axis_angle_roundtrip q h.ne
    rw [h.normalize] at hr
    cases hr
    rw [rotationAngle_unit h] at hθ
    simp at hθ
    subst hθ
    obtain ⟨n, hn, hnl, hnd⟩ := hback hne
    have hnne : n ≠ 0 := by intro h; rw [h, (V3.length_zero_iff 0).2 rfl] at hnl; norm_num at hnl
    have hnn := (V3.normalize_unique _ _ hnne (by rw [hnl, one_smul])).symm
    by_cases h1 : q.q0 = 1
    · have hz : 2 * Real.arccos q.q0 = 0 := by rw [h1]; simp
      refine ⟨⟨0, 0, 0⟩, by rw [hform, if_pos hz], ?_, ?_⟩
      · rw [hz]; simp [V3.length]
      · rw [hz] at hnd
        rw [← hnd]
        have : (⟨0, 0, 0⟩ : V3 ℝ).length = 0 := by simp [V3.length]
        unfold ofRotationVector
        rw [this]
        apply ext4 <;> simp [axisAngle]
    · have h2 : q.q0 ≠ -1 := by
        intro h2
        have hv := h.vec
        rw [h2] at hv
        apply hne
        apply ext4
        · exact h2
        · exact mul_self_eq_zero.1 (by nlinarith [mul_self_nonneg q.q1, mul_self_nonneg q.q2, mul_self_nonneg q.q3])
        · exact mul_self_eq_zero.1 (by nlinarith [mul_self_nonneg q.q1, mul_self_nonneg q.q2, mul_self_nonneg q.q3])
        · exact mul_self_eq_zero.1 (by nlinarith [mul_self_nonneg q.q1, mul_self_nonneg q.q2, mul_self_nonneg q.q3])
      obtain ⟨hax, hs⟩ := rotationAxis_unit h h1 h2
      have hang : 0 < 2 * Real.arccos q.q0 := by
        have := Real.arccos_pos.2 (lt_of_le_of_ne h.q0_mem.2 h1); linarith
      rw [hax] at hn
      cases hn
      have hw : (⟨q.q1 * (2 * Real.arccos q.q0) / Real.sqrt (1 - q.q0 ^ 2), q.q2 * (2 * Real.arccos q.q0) / Real.sqrt (1 - q.q0 ^ 2),
          q.q3 * (2 * Real.arccos q.q0) / Real.sqrt (1 - q.q0 ^ 2)⟩ : V3 ℝ) = (2 * Real.arccos q.q0) •
          ⟨q.q1 / Real.sqrt (1 - q.q0 ^ 2), q.q2 / Real.sqrt (1 - q.q0 ^ 2), q.q3 / Real.sqrt (1 - q.q0 ^ 2)⟩ := by
        apply V3.ext' <;> simp <;> ring
      have hlen : V3.length ((2 * Real.arccos q.q0) •
          (⟨q.q1 / Real.sqrt (1 - q.q0 ^ 2), q.q2 / Real.sqrt (1 - q.q0 ^ 2), q.q3 / Real.sqrt (1 - q.q0 ^ 2)⟩ : V3 ℝ))
          = 2 * Real.arccos q.q0 := by rw [V3.length_smul, hnl, mul_one, abs_of_pos hang]
      refine ⟨_, by rw [hform, if_neg hang.ne', if_neg hs.ne'], by rw [hw, hlen], ?_⟩
      unfold ofRotationVector
      rw [hw, hlen]
      have hsm : ((2 * Real.arccos q.q0) •
          (⟨q.q1 / Real.sqrt (1 - q.q0 ^ 2), q.q2 / Real.sqrt (1 - q.q0 ^ 2), q.q3 / Real.sqrt (1 - q.q0 ^ 2)⟩ : V3 ℝ)).normalize
          = ⟨q.q1 / Real.sqrt (1 - q.q0 ^ 2), q.q2 / Real.sqrt (1 - q.q0 ^ 2), q.q3 / Real.sqrt (1 - q.q0 ^ 2)⟩ := by
        apply (V3.normalize_unique _ _ _ _).symm
        · intro h0; rw [h0, (V3.length_zero_iff 0).2 rfl] at hlen; linarith
        · rw [hlen]
      rw [hsm, hnd]

end Quat
end Mapleaf.Motion
