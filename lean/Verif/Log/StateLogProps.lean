import Verif.Log.StateLogModel
import Verif.Log.LogProps
import Verif.ENV.EnvProps
import Verif.ENV.RailProps

/-! # C74: the logged state and the logged angles -/

namespace Mapleaf.LogM
open Mapleaf.Motion Mapleaf.Motion.V3 Mapleaf.ENV

/-! ## Specification: turning a point about the axes -/

/-- Turning a point about the x axis by the angle `θ`, in coordinates. -/
noncomputable def turnX (θ : ℝ) (v : V3 ℝ) : V3 ℝ :=
  ⟨v.x, Real.cos θ * v.y - Real.sin θ * v.z, Real.sin θ * v.y + Real.cos θ * v.z⟩

/-- Turning a point about the y axis by the angle `θ`, in coordinates. -/
noncomputable def turnY (θ : ℝ) (v : V3 ℝ) : V3 ℝ :=
  ⟨Real.cos θ * v.x + Real.sin θ * v.z, v.y, -(Real.sin θ * v.x) + Real.cos θ * v.z⟩

/-- Roll about x, then pitch about y, then yaw about z. -/
noncomputable def turnZYX (a : V3 ℝ) (v : V3 ℝ) : V3 ℝ := turnZ a.z (turnY a.y (turnX a.x v))

/-- The usual ranges of the angles. -/
def AngleRange (a : V3 ℝ) : Prop :=
  -Real.pi < a.x ∧ a.x ≤ Real.pi ∧ -(Real.pi / 2) ≤ a.y ∧ a.y ≤ Real.pi / 2 ∧ -Real.pi < a.z ∧ a.z ≤ Real.pi

/-! ## The angles of a quaternion -/

theorem rotF_unit {q : Quat ℝ} (h : q.nsq = 1) (v : V3 ℝ) : q.rotF v = q.sandwich v := by
  unfold Quat.rotF; rw [h]; simp

/-- The third coordinate of the turned x axis is minus the sine of the pitch angle. -/
theorem pitch_sine {q : Quat ℝ} (h : q.nsq = 1) : 2 * (q.q0 * q.q2 - q.q3 * q.q1) = -(q.rotF ⟨1, 0, 0⟩).z := by
  rw [rotF_unit h]; simp [Quat.sandwich, Quat.mul, Quat.conj]; ring

theorem rotF_column_x {q : Quat ℝ} (h : q.nsq = 1) : q.rotF ⟨1, 0, 0⟩ =
    ⟨1 - 2 * (q.q2 ^ 2 + q.q3 ^ 2), 2 * (q.q0 * q.q3 + q.q1 * q.q2), -(2 * (q.q0 * q.q2 - q.q3 * q.q1))⟩ := by
  rw [rotF_unit h]
  unfold Quat.nsq at h
  apply V3.ext' <;> simp [Quat.sandwich, Quat.mul, Quat.conj]
  · linear_combination h
  · ring
  · ring

theorem rotF_row_z {q : Quat ℝ} (h : q.nsq = 1) :
    (q.rotF ⟨0, 1, 0⟩).z = 2 * (q.q0 * q.q1 + q.q2 * q.q3) ∧
    (q.rotF ⟨0, 0, 1⟩).z = 1 - 2 * (q.q1 ^ 2 + q.q2 ^ 2) := by
  rw [rotF_unit h, rotF_unit h]
  unfold Quat.nsq at h
  simp [Quat.sandwich, Quat.mul, Quat.conj]
  constructor
  · ring
  · linear_combination h

theorem atan2_range (y x : ℝ) : -Real.pi < Quat.atan2 y x ∧ Quat.atan2 y x ≤ Real.pi :=
  ⟨Complex.neg_pi_lt_arg _, Complex.arg_le_pi _⟩

/-- The x axis is not vertical: the pitch angle is not a right angle. -/
theorem euler_forward {q : Quat ℝ} (h : q.nsq = 1) (hS : (q.rotF ⟨1, 0, 0⟩).z ^ 2 ≠ 1) (v : V3 ℝ) :
    q.rotF v = turnZYX q.toEulerAngles v := by
  rw [rotF_unit h]
  have hs := pitch_sine h
  set S := 2 * (q.q0 * q.q2 - q.q3 * q.q1) with hSdef
  have hS2 : S ^ 2 ≠ 1 := by rw [hs, neg_sq]; exact hS
  have h' : q.q0 ^ 2 + q.q1 ^ 2 + q.q2 ^ 2 + q.q3 ^ 2 = 1 := by unfold Quat.nsq at h; linarith [h]
  have hsum : S ^ 2 + (1 - 2 * (q.q1 ^ 2 + q.q2 ^ 2)) ^ 2 + (2 * (q.q0 * q.q1 + q.q2 * q.q3)) ^ 2 = 1 := by
    have e : (1 - 2 * (q.q1 ^ 2 + q.q2 ^ 2)) = q.q0 ^ 2 - q.q1 ^ 2 - q.q2 ^ 2 + q.q3 ^ 2 := by linarith
    rw [e, hSdef]
    have : (q.q0 ^ 2 + q.q1 ^ 2 + q.q2 ^ 2 + q.q3 ^ 2) ^ 2 = 1 := by rw [h']; norm_num
    linear_combination this
  have hsum' : S ^ 2 + (1 - 2 * (q.q2 ^ 2 + q.q3 ^ 2)) ^ 2 + (2 * (q.q0 * q.q3 + q.q1 * q.q2)) ^ 2 = 1 := by
    have e : (1 - 2 * (q.q2 ^ 2 + q.q3 ^ 2)) = q.q0 ^ 2 + q.q1 ^ 2 - q.q2 ^ 2 - q.q3 ^ 2 := by linarith
    rw [e, hSdef]
    have : (q.q0 ^ 2 + q.q1 ^ 2 + q.q2 ^ 2 + q.q3 ^ 2) ^ 2 = 1 := by rw [h']; norm_num
    linear_combination this
  have hle : S ^ 2 ≤ 1 := by
    nlinarith [sq_nonneg (1 - 2 * (q.q1 ^ 2 + q.q2 ^ 2)), sq_nonneg (2 * (q.q0 * q.q1 + q.q2 * q.q3))]
  have hlt : S ^ 2 < 1 := lt_of_le_of_ne hle hS2
  have hC : 0 < Real.sqrt (1 - S ^ 2) := Real.sqrt_pos.2 (by linarith)
  have hCC : Real.sqrt (1 - S ^ 2) * Real.sqrt (1 - S ^ 2) = 1 - S ^ 2 := Real.mul_self_sqrt (by linarith)
  have hab := abs_le.1 ((sq_le_one_iff_abs_le_one S).1 hle)
  have hsin : Real.sin (Real.arcsin S) = S := Real.sin_arcsin hab.1 hab.2
  have hcos : Real.cos (Real.arcsin S) = Real.sqrt (1 - S ^ 2) := Real.cos_arcsin S
  have x1 := atan2_cos (2 * (q.q0 * q.q1 + q.q2 * q.q3)) (1 - 2 * (q.q1 ^ 2 + q.q2 ^ 2))
  have x2 := atan2_sin (2 * (q.q0 * q.q1 + q.q2 * q.q3)) (1 - 2 * (q.q1 ^ 2 + q.q2 ^ 2))
  have z1 := atan2_cos (2 * (q.q0 * q.q3 + q.q1 * q.q2)) (1 - 2 * (q.q2 ^ 2 + q.q3 ^ 2))
  have z2 := atan2_sin (2 * (q.q0 * q.q3 + q.q1 * q.q2)) (1 - 2 * (q.q2 ^ 2 + q.q3 ^ 2))
  rw [show (1 - 2 * (q.q1 ^ 2 + q.q2 ^ 2)) * (1 - 2 * (q.q1 ^ 2 + q.q2 ^ 2)) +
    2 * (q.q0 * q.q1 + q.q2 * q.q3) * (2 * (q.q0 * q.q1 + q.q2 * q.q3)) = 1 - S ^ 2 by linarith] at x1 x2
  rw [show (1 - 2 * (q.q2 ^ 2 + q.q3 ^ 2)) * (1 - 2 * (q.q2 ^ 2 + q.q3 ^ 2)) +
    2 * (q.q0 * q.q3 + q.q1 * q.q2) * (2 * (q.q0 * q.q3 + q.q1 * q.q2)) = 1 - S ^ 2 by linarith] at z1 z2
  unfold turnZYX Quat.toEulerAngles turnZ turnY turnX
  simp only [← hSdef, hsin, hcos]
  generalize Real.cos (Quat.atan2 (2 * (q.q0 * q.q1 + q.q2 * q.q3)) (1 - 2 * (q.q1 ^ 2 + q.q2 ^ 2))) = a at *
  generalize Real.sin (Quat.atan2 (2 * (q.q0 * q.q1 + q.q2 * q.q3)) (1 - 2 * (q.q1 ^ 2 + q.q2 ^ 2))) = b at *
  generalize Real.cos (Quat.atan2 (2 * (q.q0 * q.q3 + q.q1 * q.q2)) (1 - 2 * (q.q2 ^ 2 + q.q3 ^ 2))) = c at *
  generalize Real.sin (Quat.atan2 (2 * (q.q0 * q.q3 + q.q1 * q.q2)) (1 - 2 * (q.q2 ^ 2 + q.q3 ^ 2))) = d at *
  generalize Real.sqrt (1 - S ^ 2) = C at *
  have e33 : q.q0 ^ 2 - q.q1 ^ 2 - q.q2 ^ 2 + q.q3 ^ 2 = C * a := by rw [x1]; linarith
  have e11 : q.q0 ^ 2 + q.q1 ^ 2 - q.q2 ^ 2 - q.q3 ^ 2 = C * c := by rw [z1]; linarith
  have hC2 : C * C ≠ 0 := mul_ne_zero hC.ne' hC.ne'
  have id12 : ((q.q0 ^ 2 + q.q1 ^ 2 + q.q2 ^ 2 + q.q3 ^ 2) ^ 2 - S ^ 2) * (2 * (q.q1 * q.q2 - q.q0 * q.q3)) =
      S * (q.q0 ^ 2 + q.q1 ^ 2 - q.q2 ^ 2 - q.q3 ^ 2) * (2 * (q.q0 * q.q1 + q.q2 * q.q3)) -
      (q.q0 ^ 2 + q.q1 ^ 2 + q.q2 ^ 2 + q.q3 ^ 2) * (2 * (q.q0 * q.q3 + q.q1 * q.q2)) *
        (q.q0 ^ 2 - q.q1 ^ 2 - q.q2 ^ 2 + q.q3 ^ 2) := by rw [hSdef]; ring
  have id22 : ((q.q0 ^ 2 + q.q1 ^ 2 + q.q2 ^ 2 + q.q3 ^ 2) ^ 2 - S ^ 2) *
      (q.q0 ^ 2 - q.q1 ^ 2 + q.q2 ^ 2 - q.q3 ^ 2) =
      S * (2 * (q.q0 * q.q3 + q.q1 * q.q2)) * (2 * (q.q0 * q.q1 + q.q2 * q.q3)) +
      (q.q0 ^ 2 + q.q1 ^ 2 + q.q2 ^ 2 + q.q3 ^ 2) * (q.q0 ^ 2 + q.q1 ^ 2 - q.q2 ^ 2 - q.q3 ^ 2) *
        (q.q0 ^ 2 - q.q1 ^ 2 - q.q2 ^ 2 + q.q3 ^ 2) := by rw [hSdef]; ring
  have id13 : ((q.q0 ^ 2 + q.q1 ^ 2 + q.q2 ^ 2 + q.q3 ^ 2) ^ 2 - S ^ 2) * (2 * (q.q0 * q.q2 + q.q1 * q.q3)) =
      S * (q.q0 ^ 2 + q.q1 ^ 2 - q.q2 ^ 2 - q.q3 ^ 2) * (q.q0 ^ 2 - q.q1 ^ 2 - q.q2 ^ 2 + q.q3 ^ 2) +
      (q.q0 ^ 2 + q.q1 ^ 2 + q.q2 ^ 2 + q.q3 ^ 2) * (2 * (q.q0 * q.q3 + q.q1 * q.q2)) *
        (2 * (q.q0 * q.q1 + q.q2 * q.q3)) := by rw [hSdef]; ring
  have id23 : ((q.q0 ^ 2 + q.q1 ^ 2 + q.q2 ^ 2 + q.q3 ^ 2) ^ 2 - S ^ 2) * (2 * (q.q2 * q.q3 - q.q0 * q.q1)) =
      S * (2 * (q.q0 * q.q3 + q.q1 * q.q2)) * (q.q0 ^ 2 - q.q1 ^ 2 - q.q2 ^ 2 + q.q3 ^ 2) -
      (q.q0 ^ 2 + q.q1 ^ 2 + q.q2 ^ 2 + q.q3 ^ 2) * (q.q0 ^ 2 + q.q1 ^ 2 - q.q2 ^ 2 - q.q3 ^ 2) *
        (2 * (q.q0 * q.q1 + q.q2 * q.q3)) := by rw [hSdef]; ring
  rw [h', e33, e11, ← x2, ← z2, one_pow, ← hCC] at id12 id22 id13 id23
  have r12 : 2 * (q.q1 * q.q2 - q.q0 * q.q3) = c * S * b - d * a := by
    apply mul_left_cancel₀ hC2; rw [id12]; ring
  have r22 : q.q0 ^ 2 - q.q1 ^ 2 + q.q2 ^ 2 - q.q3 ^ 2 = d * S * b + c * a := by
    apply mul_left_cancel₀ hC2; rw [id22]; ring
  have r13 : 2 * (q.q0 * q.q2 + q.q1 * q.q3) = c * S * a + d * b := by
    apply mul_left_cancel₀ hC2; rw [id13]; ring
  have r23 : 2 * (q.q2 * q.q3 - q.q0 * q.q1) = d * S * a - c * b := by
    apply mul_left_cancel₀ hC2; rw [id23]; ring
  apply V3.ext' <;> simp [Quat.sandwich, Quat.mul, Quat.conj]
  · linear_combination v.x * e11 + v.y * r12 + v.z * r13
  · linear_combination -v.x * z2 + v.y * r22 + v.z * r23
  · linear_combination -v.y * x2 + v.z * e33 + v.x * hSdef

/-- **C74.** The Tait-Bryan angles of a unit quaternion whose x axis is not turned to the vertical: they are the only angles
in the usual ranges for which rolling about x, then pitching about y, then yawing about z is the rotation of the
quaternion. Missing part: the gimbal lock, see `euler_gimbal_violated`. -/
theorem euler_iff_partial {q : Quat ℝ} (h : q.nsq = 1) (hS : (q.rotF ⟨1, 0, 0⟩).z ^ 2 ≠ 1) (a : V3 ℝ) :
    q.toEulerAngles = a ↔ AngleRange a ∧ ∀ v, q.rotF v = turnZ a.z (turnY a.y (turnX a.x v)) := by
  constructor
  · rintro rfl
    refine ⟨⟨(atan2_range _ _).1, (atan2_range _ _).2, Real.neg_pi_div_two_le_arcsin _, Real.arcsin_le_pi_div_two _,
      (atan2_range _ _).1, (atan2_range _ _).2⟩, fun v => euler_forward h hS v⟩
  · rintro ⟨⟨hx1, hx2, hy1, hy2, hz1, hz2⟩, hv⟩
    have hX := hv ⟨1, 0, 0⟩
    have hY := congrArg V3.z (hv ⟨0, 1, 0⟩)
    have hZ := congrArg V3.z (hv ⟨0, 0, 1⟩)
    rw [(rotF_row_z h).1] at hY
    rw [(rotF_row_z h).2] at hZ
    have hXz := congrArg V3.z hX
    rw [rotF_column_x h] at hX
    have X1 := congrArg V3.x hX
    have X2 := congrArg V3.y hX
    have X3 := congrArg V3.z hX
    simp [turnZ, turnY, turnX] at X1 X2 X3 hY hZ hXz
    have hcos : 0 < Real.cos a.y := by
      refine lt_of_le_of_ne (Real.cos_nonneg_of_mem_Icc ⟨hy1, hy2⟩) ?_
      intro h0
      apply hS
      have := Real.sin_sq_add_cos_sq a.y
      rw [← h0] at this
      rw [hXz]; linarith
    unfold Quat.toEulerAngles
    apply V3.ext'
    · show Quat.atan2 _ _ = _
      rw [hY, hZ]; exact atan2_polar _ _ hcos hx1 hx2
    · show Real.arcsin _ = _
      rw [show 2 * (q.q0 * q.q2 - q.q3 * q.q1) = Real.sin a.y by linarith]
      exact Real.arcsin_sin hy1 hy2
    · show Quat.atan2 _ _ = _
      rw [X2, X1, mul_comm (Real.sin a.z), mul_comm (Real.cos a.z)]
      exact atan2_polar _ _ hcos hz1 hz2

example : (⟨3 / 5, 0, 0, 4 / 5⟩ : Quat ℝ).nsq = 1 ∧ ((⟨3 / 5, 0, 0, 4 / 5⟩ : Quat ℝ).rotF ⟨1, 0, 0⟩).z ^ 2 ≠ 1 := by
  have h : (⟨3 / 5, 0, 0, 4 / 5⟩ : Quat ℝ).nsq = 1 := by unfold Quat.nsq; norm_num
  refine ⟨h, ?_⟩
  rw [rotF_column_x h]; norm_num

/-- **C74** violated at the gimbal lock. When the x axis is turned to the vertical, the roll and the yaw angle come out as 0
whatever the rotation, so that different rotations give the same angles, and the angles do not give the rotation back. -/
theorem euler_gimbal_violated :
    (∀ q : Quat ℝ, q.nsq = 1 → (q.rotF ⟨1, 0, 0⟩).z = -1 → q.toEulerAngles = ⟨0, Real.pi / 2, 0⟩) ∧
    (∀ q : Quat ℝ, q.nsq = 1 → (q.rotF ⟨1, 0, 0⟩).z = 1 → q.toEulerAngles = ⟨0, -(Real.pi / 2), 0⟩) ∧
    ∃ q : Quat ℝ, q.nsq = 1 ∧ (q.rotF ⟨1, 0, 0⟩).z = -1 ∧ ∃ v, q.rotF v ≠ turnZYX q.toEulerAngles v := by
  have key : ∀ q : Quat ℝ, q.nsq = 1 → (q.rotF ⟨1, 0, 0⟩).z = -1 → q.toEulerAngles = ⟨0, Real.pi / 2, 0⟩ := by
    intro q h hz
    have hs := pitch_sine h
    rw [hz] at hs
    unfold Quat.nsq at h
    have h0 : (q.q0 - q.q2) ^ 2 + (q.q1 + q.q3) ^ 2 = 0 := by linear_combination h - hs
    have h1 : q.q2 = q.q0 := by nlinarith [sq_nonneg (q.q0 - q.q2), sq_nonneg (q.q1 + q.q3)]
    have h2 : q.q3 = -q.q1 := by nlinarith [sq_nonneg (q.q0 - q.q2), sq_nonneg (q.q1 + q.q3)]
    unfold Quat.toEulerAngles
    rw [hs]
    rw [h1, h2] at h ⊢
    apply V3.ext'
    · show Quat.atan2 _ _ = _
      rw [show 2 * (q.q0 * q.q1 + q.q0 * -q.q1) = 0 by ring, show 1 - 2 * (q.q1 ^ 2 + q.q0 ^ 2) = 0 by linear_combination -h]
      simp [Quat.atan2]
    · simp
    · show Quat.atan2 _ _ = _
      rw [show 2 * (q.q0 * -q.q1 + q.q1 * q.q0) = 0 by ring,
        show 1 - 2 * (q.q0 ^ 2 + (-q.q1) ^ 2) = 0 by linear_combination -h]
      simp [Quat.atan2]
  refine ⟨key, ?_, ?_⟩
  · intro q h hz
    have hs := pitch_sine h
    rw [hz] at hs
    unfold Quat.nsq at h
    have h0 : (q.q0 + q.q2) ^ 2 + (q.q1 - q.q3) ^ 2 = 0 := by linear_combination h + hs
    have h1 : q.q2 = -q.q0 := by nlinarith [sq_nonneg (q.q0 + q.q2), sq_nonneg (q.q1 - q.q3)]
    have h2 : q.q3 = q.q1 := by nlinarith [sq_nonneg (q.q0 + q.q2), sq_nonneg (q.q1 - q.q3)]
    unfold Quat.toEulerAngles
    rw [hs]
    rw [h1, h2] at h ⊢
    apply V3.ext'
    · show Quat.atan2 _ _ = _
      rw [show 2 * (q.q0 * q.q1 + -q.q0 * q.q1) = 0 by ring,
        show 1 - 2 * (q.q1 ^ 2 + (-q.q0) ^ 2) = 0 by linear_combination -h]
      simp [Quat.atan2]
    · simp
    · show Quat.atan2 _ _ = _
      rw [show 2 * (q.q0 * q.q1 + q.q1 * -q.q0) = 0 by ring,
        show 1 - 2 * ((-q.q0) ^ 2 + q.q1 ^ 2) = 0 by linear_combination -h]
      simp [Quat.atan2]
  · refine ⟨⟨1 / 2, 1 / 2, 1 / 2, -1 / 2⟩, by unfold Quat.nsq; norm_num, ?_, ⟨0, 0, 1⟩, ?_⟩
    · rw [rotF_column_x (by unfold Quat.nsq; norm_num)]; norm_num
    · rw [key _ (by unfold Quat.nsq; norm_num) (by rw [rotF_column_x (by unfold Quat.nsq; norm_num)]; norm_num)]
      intro e
      have e2 := congrArg V3.x e
      rw [rotF_unit (by unfold Quat.nsq; norm_num)] at e2
      simp [turnZYX, turnX, turnY, turnZ, Quat.sandwich, Quat.mul, Quat.conj] at e2
      norm_num at e2

/-! ## The logged angles -/

theorem halfTurn_ne : (⟨1, 1, 0⟩ : V3 ℝ) ≠ 0 := by intro h; have := congrArg V3.x h; simp at this

/-- Half a turn about the bisector of x and y swaps them and reverses z. -/
theorem halfTurn (w : V3 ℝ) : (Quat.axisAngle ⟨1, 1, 0⟩ Real.pi).rotF w = ⟨w.y, w.x, -w.z⟩ := by
  have hlen : (⟨1, 1, 0⟩ : V3 ℝ).length = Real.sqrt 2 := by simp [V3.length]; norm_num
  have h2 : Real.sqrt 2 * Real.sqrt 2 = 2 := Real.mul_self_sqrt (by norm_num)
  have hs : Real.sqrt 2 ≠ 0 := by positivity
  have hn : (⟨1, 1, 0⟩ : V3 ℝ).normalize = ⟨1 / Real.sqrt 2, 1 / Real.sqrt 2, 0⟩ := by
    symm
    apply V3.normalize_unique _ _ halfTurn_ne
    rw [hlen]
    apply V3.ext' <;> simp [hs]
  have hh : (1 / Real.sqrt 2) * (1 / Real.sqrt 2) = 1 / 2 := by rw [div_mul_div_comm, h2]; norm_num
  obtain ⟨_, ⟨r, hr⟩, _⟩ := Quat.axisAngle_rotates ⟨1, 1, 0⟩ Real.pi halfTurn_ne w
  rw [← (Quat.rotate_ok hr).2.1, hn]
  generalize 1 / Real.sqrt 2 = s at hh
  unfold Quat.rodrigues
  apply V3.ext' <;> simp [dot, cross]
  · linear_combination (2 * w.x + 2 * w.y) * hh
  · linear_combination (2 * w.x + 2 * w.y) * hh

/-- The orientation relative to the north-east-down frame is a unit quaternion, and what it does to a vector, read in that
frame, is what the orientation does. -/
theorem relative_spec {n o : Quat ℝ} (hn : n.nsq = 1) (ho : o.nsq = 1) :
    ((n.mul (Quat.axisAngle ⟨1, 1, 0⟩ Real.pi)).conj.mul o).nsq = 1 ∧
    ∀ v, o.rotF v =
      (((n.mul (Quat.axisAngle ⟨1, 1, 0⟩ Real.pi)).conj.mul o).rotF v).x • n.rotF ⟨0, 1, 0⟩ +
      (((n.mul (Quat.axisAngle ⟨1, 1, 0⟩ Real.pi)).conj.mul o).rotF v).y • n.rotF ⟨1, 0, 0⟩ -
      (((n.mul (Quat.axisAngle ⟨1, 1, 0⟩ Real.pi)).conj.mul o).rotF v).z • n.rotF ⟨0, 0, 1⟩ := by
  set m := n.mul (Quat.axisAngle ⟨1, 1, 0⟩ Real.pi) with hm
  have hmn : m.nsq = 1 := by rw [hm, Quat.nsq_mul, hn, Quat.axisAngle_nsq _ _ halfTurn_ne, one_mul]
  have hcn : m.conj.nsq = 1 := by rw [← hmn]; unfold Quat.nsq Quat.conj; simp
  refine ⟨by rw [Quat.nsq_mul, hcn, ho, one_mul], ?_⟩
  intro v
  have hne : m.conj ≠ Quat.zeroQ := unit_ne hcn
  have hcc : m.conj.conj = m := by cases m; simp [Quat.conj]
  have back : m.rotF (m.conj.rotF (o.rotF v)) = o.rotF v := by
    have := rotF_conj hne (o.rotF v)
    rwa [hcc] at this
  rw [Quat.rotF_mul]
  conv_lhs => rw [← back]
  generalize m.conj.rotF (o.rotF v) = w
  rw [hm, Quat.rotF_mul, halfTurn]
  rw [← rotF_smul, ← rotF_smul, ← rotF_smul, ← rotF_add, sub_eq_add_neg, ← neg_one_smul ℝ (n.rotF _), ← rotF_smul,
    ← rotF_add]
  congr 1
  apply V3.ext' <;> simp

/-- How far the relative x and z axes point down. -/
theorem relative_down {n o : Quat ℝ} (hn : n.nsq = 1) (ho : o.nsq = 1) (v : V3 ℝ) :
    (((n.mul (Quat.axisAngle ⟨1, 1, 0⟩ Real.pi)).conj.mul o).rotF v).z = -dot (o.rotF v) (n.rotF ⟨0, 0, 1⟩) := by
  have h := (relative_spec hn ho).2 v
  set w := ((n.mul (Quat.axisAngle ⟨1, 1, 0⟩ Real.pi)).conj.mul o).rotF v
  rw [h]
  have hne := unit_ne hn
  have e : w.x • n.rotF ⟨0, 1, 0⟩ + w.y • n.rotF ⟨1, 0, 0⟩ - w.z • n.rotF ⟨0, 0, 1⟩ = n.rotF ⟨w.y, w.x, -w.z⟩ := by
    rw [← rotF_smul, ← rotF_smul, ← rotF_smul, ← rotF_add, sub_eq_add_neg, ← neg_one_smul ℝ (n.rotF _), ← rotF_smul,
      ← rotF_add]
    congr 1
    apply V3.ext' <;> simp
  rw [e, rotF_dot hne]
  simp [dot]

/-- **C74.** The logged angles, for any earth model whose local frame at the rocket's position is `n` (its axes point east,
north and up) and any orientation of norm 1 whose x axis is not vertical. They are the only angles in the usual ranges such
that the rocket's orientation is: roll about x, pitch about y, yaw about z, in a frame whose axes are north, east and down.
Missing part: the x axis is vertical, see `angles_gimbal_violated`. -/
theorem angles_iff_partial {e : Earth} {s : RBState} {n : Quat ℝ} (hn : e.enu s.pos = .ok n) (h1 : n.nsq = 1)
    (ho : s.ori.nsq = 1) (hx : dot (s.ori.rotF ⟨1, 0, 0⟩) (n.rotF ⟨0, 0, 1⟩) ^ 2 ≠ 1) (a : V3 ℝ) :
    nedAngles e s = .ok a ↔
      (-Real.pi < a.x ∧ a.x ≤ Real.pi ∧ -(Real.pi / 2) ≤ a.y ∧ a.y ≤ Real.pi / 2 ∧ -Real.pi < a.z ∧ a.z ≤ Real.pi) ∧
      ∀ v, s.ori.rotF v =
        (turnZ a.z (turnY a.y (turnX a.x v))).x • n.rotF ⟨0, 1, 0⟩ +
        (turnZ a.z (turnY a.y (turnX a.x v))).y • n.rotF ⟨1, 0, 0⟩ -
        (turnZ a.z (turnY a.y (turnX a.x v))).z • n.rotF ⟨0, 0, 1⟩ := by
  obtain ⟨hr, hv⟩ := relative_spec h1 ho
  have hz : (((n.mul (Quat.axisAngle ⟨1, 1, 0⟩ Real.pi)).conj.mul s.ori).rotF ⟨1, 0, 0⟩).z ^ 2 ≠ 1 := by
    rw [relative_down h1 ho, neg_sq]; exact hx
  unfold nedAngles nedFrame
  rw [hn]
  simp only [Except.ok.injEq]
  rw [euler_iff_partial hr hz]
  refine and_congr Iff.rfl (forall_congr' fun v => ?_)
  have e : ∀ w : V3 ℝ, w.x • n.rotF ⟨0, 1, 0⟩ + w.y • n.rotF ⟨1, 0, 0⟩ - w.z • n.rotF ⟨0, 0, 1⟩ =
      n.rotF ⟨w.y, w.x, -w.z⟩ := by
    intro w
    rw [← rotF_smul, ← rotF_smul, ← rotF_smul, ← rotF_add, sub_eq_add_neg, ← neg_one_smul ℝ (n.rotF _), ← rotF_smul,
      ← rotF_add]
    congr 1
    apply V3.ext' <;> simp
  constructor
  · intro h
    rw [← h]; exact hv v
  · intro h
    have h2 := (hv v).symm.trans h
    rw [e, e] at h2
    have h3 := congrArg n.conj.rotF h2
    rw [rotF_conj (unit_ne h1), rotF_conj (unit_ne h1)] at h3
    have x1 := congrArg V3.x h3
    have x2 := congrArg V3.y h3
    have x3 := congrArg V3.z h3
    simp at x1 x2 x3
    exact V3.ext' x2 x1 x3

/-- The hypotheses are met by a rocket on a flat earth that is inclined towards the north. -/
example : ∃ (s : RBState) (n : Quat ℝ), flatEarth.enu s.pos = .ok n ∧ n.nsq = 1 ∧ s.ori.nsq = 1 ∧
    dot (s.ori.rotF ⟨1, 0, 0⟩) (n.rotF ⟨0, 0, 1⟩) ^ 2 ≠ 1 ∧ s.ori.rotF ⟨0, 0, 1⟩ = ⟨0, 24 / 25, -7 / 25⟩ := by
  refine ⟨⟨0, 0, ⟨3 / 5, -4 / 5, 0, 0⟩, 0⟩, ⟨1, 0, 0, 0⟩, rfl, by simp [Quat.nsq], ?_, ?_, ?_⟩
  · unfold Quat.nsq; norm_num
  · rw [rotF_id, rotF_column_x (by unfold Quat.nsq; norm_num)]
    simp [dot]
  · rw [rotF_unit (by unfold Quat.nsq; norm_num)]
    apply V3.ext' <;> simp [Quat.sandwich, Quat.mul, Quat.conj] <;> norm_num

/-- **C74** violated: when the rocket's x axis points straight up or straight down (a rocket lying flat), the logged angles
do not depend on where it points. -/
theorem angles_gimbal_violated {e : Earth} {s : RBState} {n : Quat ℝ} (hn : e.enu s.pos = .ok n) (h1 : n.nsq = 1)
    (ho : s.ori.nsq = 1) :
    (dot (s.ori.rotF ⟨1, 0, 0⟩) (n.rotF ⟨0, 0, 1⟩) = 1 → nedAngles e s = .ok ⟨0, Real.pi / 2, 0⟩) ∧
    (dot (s.ori.rotF ⟨1, 0, 0⟩) (n.rotF ⟨0, 0, 1⟩) = -1 → nedAngles e s = .ok ⟨0, -(Real.pi / 2), 0⟩) := by
  obtain ⟨hr, hv⟩ := relative_spec h1 ho
  have hd := relative_down h1 ho ⟨1, 0, 0⟩
  unfold nedAngles nedFrame
  rw [hn]
  simp only [Except.ok.injEq]
  constructor
  · intro h
    exact euler_gimbal_violated.1 _ hr (by rw [hd, h])
  · intro h
    exact euler_gimbal_violated.2.1 _ hr (by rw [hd, h]; norm_num)

/-- **C74.** A rocket standing upright: the roll angle is a half turn and the pitch angle is 0 (the longitudinal axis is z,
and the z axis of the reference frame points down), whatever the heading. -/
theorem angles_upright {e : Earth} {s : RBState} {n : Quat ℝ} (hn : e.enu s.pos = .ok n) (h1 : n.nsq = 1)
    (ho : s.ori.nsq = 1) (hup : s.ori.rotF ⟨0, 0, 1⟩ = n.rotF ⟨0, 0, 1⟩) :
    ∃ yaw, nedAngles e s = .ok ⟨Real.pi, 0, yaw⟩ := by
  obtain ⟨hr, hv⟩ := relative_spec h1 ho
  have hx := relative_down h1 ho ⟨1, 0, 0⟩
  have hz := relative_down h1 ho ⟨0, 0, 1⟩
  rw [hup, rotF_dot (unit_ne h1)] at hz
  rw [← hup, rotF_dot (unit_ne ho)] at hx
  unfold nedAngles nedFrame
  rw [hn]
  simp only [Except.ok.injEq]
  generalize (n.mul (Quat.axisAngle ⟨1, 1, 0⟩ Real.pi)).conj.mul s.ori = r at hr hx hz
  rw [(rotF_row_z hr).2] at hz
  have hp := pitch_sine hr
  rw [hx] at hp
  simp [dot] at hp hz
  unfold Quat.nsq at hr
  have hz' : r.q0 ^ 2 + r.q3 ^ 2 = 0 := by linear_combination hr + hz / 2
  have h0 : r.q0 = 0 := by nlinarith [sq_nonneg r.q0, sq_nonneg r.q3]
  have h3 : r.q3 = 0 := by nlinarith [sq_nonneg r.q0, sq_nonneg r.q3]
  refine ⟨r.toEulerAngles.z, ?_⟩
  apply V3.ext' <;> simp only [Quat.toEulerAngles]
  · rw [h0, h3, hz]
    have : Complex.arg (-1) = Real.pi := Complex.arg_neg_one
    simp [Quat.atan2]
  · rw [h0, h3]; simp

/-! ## The log -/

theorem logEntries_run (vals : List (Name × Entry)) : ∀ L, logEntries vals L = run (vals.map (fun p => .log p.1 p.2)) L := by
  induction vals with
  | nil => intro L; rfl
  | cons p ps ih =>
    intro L
    obtain ⟨c, v⟩ := p
    simp only [logEntries, List.map_cons, run, step]
    cases logValue L c v with
    | error e => rfl
    | ok L' => exact ih L'

/-- **C74.** One time step adds one row to the time step log. The row holds the time, the position, the velocity and, for a
6-DoF state, the orientation, the angular velocity and the angles; for a 3-DoF state the other cells stay empty (they get
their fill values). Earlier rows keep their values. Without a log only the altitude is worked out. -/
theorem logState_row {e : Earth} {L : Log ℝ Entry} {A : Table ℝ Entry} (hi : Inv L) (hr : Rep L A) (time : ℝ)
    (s : FlightState) (ht : ∀ r, A.getLast? = some r → r.time ≤ time)
    (hc : ∀ c ∈ ["Position(m)".toList, "Velocity(m/s)".toList, "OrientationQuaternion".toList,
      "AngularVelocity(rad/s)".toList, "EulerAngle(rad)".toList], c ∈ Dict.keys L.cols)
    {alt : ℝ} (halt : e.altitude s.position = .ok alt) (angles : V3 ℝ)
    (ha : ∀ st, s = .six st → nedAngles e st = .ok angles) :
    logState e time s none = .ok (none, alt) ∧
    ∃ L' r, logState e time s (some L) = .ok (some L', alt) ∧ Inv L' ∧ Rep L' (A.fillLast (fillOf L) ++ [r]) ∧
      r.time = time ∧ Dict.keys L'.cols = Dict.keys L.cols ∧ fillOf L' = fillOf L ∧
      (∀ pos vel, s = .three pos vel → ∀ c, r.cell c =
        if c = "Position(m)".toList then some (.vec pos)
        else if c = "Velocity(m/s)".toList then some (.vec vel) else none) ∧
      (∀ st, s = .six st → ∀ c, r.cell c =
        if c = "Position(m)".toList then some (.vec st.pos)
        else if c = "Velocity(m/s)".toList then some (.vec st.vel)
        else if c = "OrientationQuaternion".toList then some (.quat st.ori)
        else if c = "AngularVelocity(rad/s)".toList then some (.vec st.angVel)
        else if c = "EulerAngle(rad)".toList then some (.vec angles) else none) := by
  refine ⟨by unfold logState; rw [halt]; rfl, ?_⟩
  obtain ⟨L1, hs, i1, r1⟩ := step_refines hi hr (.newRow time) ht
  simp only [astep] at r1
  have hL1 : Dict.keys L1.cols = Dict.keys L.cols ∧ L1.fills = L.fills ∧ L1.dflt = L.dflt := by
    obtain ⟨L2, hc, _, _, ek, ef, ed, _, _⟩ := rep_complete hi hr
    simp only [step, newLogRow, hc] at hs
    split at hs
    · split at hs
      · cases hs
      · cases hs; exact ⟨ek, ef, ed⟩
    · cases hs; exact ⟨ek, ef, ed⟩
  have hs' : newLogRow L time = .ok L1 := hs
  obtain ⟨vals, hvals, hnd, hsub⟩ : ∃ vals, stateEntries e s = .ok vals ∧ (vals.map Prod.fst).Nodup ∧
      ∀ p ∈ vals, p.1 ∈ ["Position(m)".toList, "Velocity(m/s)".toList, "OrientationQuaternion".toList,
        "AngularVelocity(rad/s)".toList, "EulerAngle(rad)".toList] := by
    cases s with
    | three pos vel => exact ⟨_, rfl, by simp only [List.map]; decide +kernel, by simp⟩
    | six st =>
      refine ⟨_, by simp only [stateEntries, ha st rfl]; rfl, ?_, by simp⟩
      simp only [List.map]; decide +kernel
  obtain ⟨L', r', g1, g2, g3, g4, g5, g6, g7, g8, g9⟩ := run_logs vals L1 _ _ i1 r1 hnd
    (by rw [hL1.1]; exact fun p hp => hc _ (hsub p hp)) (by simp)
  refine ⟨L', r', ?_, g2, g3, g4, by rw [g5, hL1.1], ?_, ?_, ?_⟩
  · unfold logState
    simp only [hs', hvals, logEntries_run, g1, halt, bind, Except.bind]
  · exact fillOf_congr (by rw [g6, hL1.2.1]) (by rw [g7, hL1.2.2])
  · rintro pos vel rfl c
    cases hvals
    simp only [List.mem_cons, List.not_mem_nil, or_false, forall_eq_or_imp, forall_eq] at g8
    simp only [List.map, List.mem_cons, List.not_mem_nil, or_false, not_or] at g9
    split_ifs with c1 c2
    · rw [c1]; exact g8.1
    · rw [c2]; exact g8.2
    · exact g9 c ⟨c1, c2⟩
  · rintro st rfl c
    simp only [stateEntries, ha st rfl] at hvals
    cases hvals
    simp only [List.mem_cons, List.not_mem_nil, or_false, forall_eq_or_imp, forall_eq] at g8
    simp only [List.map, List.mem_cons, List.not_mem_nil, or_false, not_or] at g9
    split_ifs with c1 c2 c3 c4 c5
    · rw [c1]; exact g8.1
    · rw [c2]; exact g8.2.1
    · rw [c3]; exact g8.2.2.1
    · rw [c4]; exact g8.2.2.2.1
    · rw [c5]; exact g8.2.2.2.2
    · exact g9 c ⟨c1, c2, c3, c4, c5⟩

/-- Adding columns to an empty log. -/
theorem addAll_spec (cs : List (Name × Entry)) : ∀ S : Spec ℝ Entry, S.rows = [] → (S.cols ++ cs.map Prod.fst).Nodup →
    (∀ p ∈ cs, p.1 ≠ timeName ∧ p.1 ≠ defaultName) →
    S.LegalRun (cs.map fun p => .addColumn p.1 (some p.2)) ∧
    ((cs.map fun p => Op.addColumn p.1 (some p.2)).foldl Spec.step S).rows = [] ∧
    ((cs.map fun p => Op.addColumn p.1 (some p.2)).foldl Spec.step S).cols = S.cols ++ cs.map Prod.fst ∧
    (∀ p ∈ cs, ((cs.map fun p => Op.addColumn p.1 (some p.2)).foldl Spec.step S).fill p.1 = p.2) ∧
    (∀ c ∉ cs.map Prod.fst, ((cs.map fun p => Op.addColumn p.1 (some p.2)).foldl Spec.step S).fill c = S.fill c) := by
  induction cs with
  | nil => intro S h _ _; exact ⟨trivial, h, by simp, by simp, by simp⟩
  | cons p ps ih =>
    intro S h hnd hok
    obtain ⟨c, v⟩ := p
    have hnd' : ((S.cols ++ [c]) ++ ps.map Prod.fst).Nodup := by simpa using hnd
    obtain ⟨i1, i2, i3, i4, i5⟩ := ih (S.step (.addColumn c (some v))) (by simp [Spec.step, astep, h]) hnd'
      (fun p hp => hok p (by simp [hp]))
    have hc : c ∉ S.cols ∧ c ∉ ps.map Prod.fst := by
      rw [List.map_cons, List.nodup_append] at hnd
      refine ⟨fun hm => hnd.2.2 c hm c (by simp) rfl, (List.nodup_cons.1 hnd.2.1).1⟩
    refine ⟨⟨⟨hc.1, hok (c, v) (by simp)⟩, i1⟩, i2, ?_, ?_, ?_⟩
    · simp only [List.map_cons, List.foldl_cons]
      rw [i3]; simp [Spec.step]
    · intro p hp
      simp only [List.map_cons, List.foldl_cons]
      rcases List.mem_cons.1 hp with rfl | hp
      · rw [i5 _ hc.2]; simp [Spec.step]
      · exact i4 p hp
    · intro x hx
      simp only [List.map_cons, List.mem_cons, not_or] at hx
      simp only [List.map_cons, List.foldl_cons]
      rw [i5 x hx.2]; simp [Spec.step, hx.1]

theorem run_cons_iff {o : Op ℝ Entry} {os : List (Op ℝ Entry)} {L L' : Log ℝ Entry} :
    run (o :: os) L = .ok L' ↔ ∃ L1, step L o = .ok L1 ∧ run os L1 = .ok L' := by
  simp only [run]
  cases step L o <;> simp

/-- **C74.** The time step log of a new rocket: none at logging level 0 (or below); otherwise it is empty, represents the
empty table, has the five columns of the state and, for an adaptive time discretization, the column of the error estimates,
and the fill values are zero vectors, the zero quaternion and 0. -/
theorem newStateLog_spec (level : ℤ) (disc : Str) :
    (level ≤ 0 → newStateLog level disc = .ok none) ∧
    (0 < level → ∃ L, newStateLog level disc = .ok (some L) ∧ Inv L ∧ Rep L [] ∧
      Dict.keys L.cols = ["Position(m)".toList, "Velocity(m/s)".toList, "OrientationQuaternion".toList,
        "EulerAngle(rad)".toList, "AngularVelocity(rad/s)".toList] ++
        (if "Adapt".toList <:+: disc then ["EstimatedIntegrationError".toList] else []) ∧
      fillOf L "Position(m)".toList = .vec ⟨0, 0, 0⟩ ∧ fillOf L "Velocity(m/s)".toList = .vec ⟨0, 0, 0⟩ ∧
      fillOf L "OrientationQuaternion".toList = .quat ⟨0, 0, 0, 0⟩ ∧ fillOf L "EulerAngle(rad)".toList = .vec ⟨0, 0, 0⟩ ∧
      fillOf L "AngularVelocity(rad/s)".toList = .vec ⟨0, 0, 0⟩ ∧
      fillOf L "EstimatedIntegrationError".toList = .num 0) := by
  refine ⟨fun h => by unfold newStateLog; rw [if_neg (not_lt.2 h)], fun h => ?_⟩
  have key : ∀ cs : List (Name × Entry), (cs.map Prod.fst).Nodup → (∀ p ∈ cs, p.1 ≠ timeName ∧ p.1 ≠ defaultName) →
      ∃ L : Log ℝ Entry, run (cs.map fun p => .addColumn p.1 (some p.2)) (⟨[], [], [], .num 0⟩ : Log ℝ Entry) = .ok L ∧
        Inv L ∧ Rep L [] ∧ Dict.keys L.cols = cs.map Prod.fst ∧ (∀ p ∈ cs, fillOf L p.1 = p.2) ∧
        ∀ c ∉ cs.map Prod.fst, fillOf L c = .num 0 := by
    intro cs hnd hok
    have h0 : new (τ := ℝ) [] (Entry.num 0) = .ok ⟨[], [], [], .num 0⟩ := rfl
    obtain ⟨j1, j2, j3, j4, j5⟩ := addAll_spec cs ⟨[], [], fun _ => Entry.num 0⟩ rfl (by simpa using hnd) hok
    obtain ⟨L, g1, g2, g3, g4, g5⟩ := history_refines _ ⟨[], [], [], Entry.num 0⟩ ⟨[], [], fun _ => Entry.num 0⟩ (new_inv h0)
      (new_rep h0) rfl (by funext c; simp [fillOf]) j1
    rw [j2] at g3
    rw [j3] at g4
    refine ⟨L, g1, g2, g3, by simpa using g4, fun p hp => by rw [g5]; exact j4 p hp,
      fun c hc => by rw [g5]; exact j5 c hc⟩
  by_cases hd : "Adapt".toList <:+: disc
  · obtain ⟨L, h1, h2, h3, h4, h5, h6⟩ := key
      [("Position(m)".toList, .vec 0), ("Velocity(m/s)".toList, .vec 0), ("OrientationQuaternion".toList, .quat ⟨0, 0, 0, 0⟩),
       ("EulerAngle(rad)".toList, .vec 0), ("AngularVelocity(rad/s)".toList, .vec 0),
       ("EstimatedIntegrationError".toList, .num 0)]
      (by simp only [List.map]; decide +kernel)
      (by simp only [List.mem_cons, List.not_mem_nil, or_false, forall_eq_or_imp, forall_eq]; decide +kernel)
    simp only [List.mem_cons, List.not_mem_nil, or_false, forall_eq_or_imp, forall_eq] at h5
    refine ⟨L, ?_, h2, h3, by rw [h4, if_pos hd]; rfl, h5⟩
    simp only [List.map, run_cons_iff] at h1
    obtain ⟨L1, e1, L2, e2, L3, e3, L4, e4, L5, e5, L6, e6, e7⟩ := h1
    cases e7
    simp only [step] at e1 e2 e3 e4 e5 e6
    unfold newStateLog
    rw [if_pos h]
    simp only [new, List.any_nil, Bool.false_eq_true, if_false, List.foldl_nil, bind, Except.bind, e1, e2, e3, e4, e5, e6,
      (Str.isIn_iff _ _).2 hd, if_true]
  · obtain ⟨L, h1, h2, h3, h4, h5, h6⟩ := key
      [("Position(m)".toList, .vec 0), ("Velocity(m/s)".toList, .vec 0), ("OrientationQuaternion".toList, .quat ⟨0, 0, 0, 0⟩),
       ("EulerAngle(rad)".toList, .vec 0), ("AngularVelocity(rad/s)".toList, .vec 0)]
      (by simp only [List.map]; decide +kernel)
      (by simp only [List.mem_cons, List.not_mem_nil, or_false, forall_eq_or_imp, forall_eq]; decide +kernel)
    simp only [List.mem_cons, List.not_mem_nil, or_false, forall_eq_or_imp, forall_eq] at h5
    obtain ⟨f1, f2, f3, f4, f5⟩ := h5
    refine ⟨L, ?_, h2, h3, by rw [h4, if_neg hd]; rfl, f1, f2, f3, f4, f5, h6 _ ?_⟩
    · simp only [List.map, run_cons_iff] at h1
      obtain ⟨L1, e1, L2, e2, L3, e3, L4, e4, L5, e5, e7⟩ := h1
      cases e7
      simp only [step] at e1 e2 e3 e4 e5
      have hd' : Str.isIn "Adapt".toList disc = false := by
        rw [← Bool.not_eq_true, Str.isIn_iff]; exact hd
      unfold newStateLog
      rw [if_pos h]
      simp only [new, List.any_nil, Bool.false_eq_true, if_false, List.foldl_nil, bind, Except.bind, e1, e2, e3, e4, e5, hd']
    · simp only [List.map]; decide +kernel

/-! ### A whole flight -/

/-- What is known of a state: its value for every column, if it has one. `angles` are the angles of a 6-DoF state. -/
def Told (s : FlightState) (angles : V3 ℝ) (c : Name) : Option Entry :=
  match s with
  | .three pos vel =>
    if c = "Position(m)".toList then some (.vec pos)
    else if c = "Velocity(m/s)".toList then some (.vec vel) else none
  | .six st =>
    if c = "Position(m)".toList then some (.vec st.pos)
    else if c = "Velocity(m/s)".toList then some (.vec st.vel)
    else if c = "OrientationQuaternion".toList then some (.quat st.ori)
    else if c = "AngularVelocity(rad/s)".toList then some (.vec st.angVel)
    else if c = "EulerAngle(rad)".toList then some (.vec angles) else none

/-- The angles of a state (none for a 3-DoF state). -/
noncomputable def anglesBy (angles : RBState → V3 ℝ) : FlightState → V3 ℝ
  | .six st => angles st
  | .three _ _ => 0

/-- Logging the states of a flight one after the other. -/
noncomputable def logFlight (e : Earth) : List (ℝ × FlightState) → Log ℝ Entry → Except PyErr (Log ℝ Entry)
  | [], L => .ok L
  | (t, s) :: rest, L =>
    match logState e t s (some L) with
    | .ok (some L', _) => logFlight e rest L'
    | .ok (none, _) => .error .attributeError
    | .error err => .error err

/-- The rows with the empty cells filled. -/
def seen (f : Name → Entry) (A : Table ℝ Entry) : List (ℝ × (Name → Entry)) :=
  A.map fun r => (r.time, fun c => (r.cell c).getD (f c))

theorem seen_fillLast (f : Name → Entry) (A : Table ℝ Entry) : seen f (A.fillLast f) = seen f A := by
  rcases table_cases A with rfl | ⟨B, r, rfl⟩
  · rfl
  · rw [fillLast_concat]
    simp [seen, Row.fill]

theorem logFlight_seen (e : Earth) (angles : RBState → V3 ℝ) (flight : List (ℝ × FlightState)) :
    ∀ (L : Log ℝ Entry) (A : Table ℝ Entry), Inv L → Rep L A →
    (∀ c ∈ ["Position(m)".toList, "Velocity(m/s)".toList, "OrientationQuaternion".toList,
      "AngularVelocity(rad/s)".toList, "EulerAngle(rad)".toList], c ∈ Dict.keys L.cols) →
    (A.map Row.time ++ flight.map Prod.fst).Pairwise (· ≤ ·) →
    (∀ p ∈ flight, ∃ alt, e.altitude p.2.position = .ok alt) →
    (∀ p ∈ flight, ∀ st, p.2 = .six st → nedAngles e st = .ok (angles st)) →
    ∃ L' A', logFlight e flight L = .ok L' ∧ Inv L' ∧ Rep L' A' ∧ Dict.keys L'.cols = Dict.keys L.cols ∧
      fillOf L' = fillOf L ∧
      seen (fillOf L) A' = seen (fillOf L) A ++ flight.map fun p => (p.1, fun c =>
        (Told p.2 (anglesBy angles p.2) c).getD (fillOf L c)) := by
  induction flight with
  | nil => intro L A hi hr _ _ _ _; exact ⟨L, A, rfl, hi, hr, rfl, rfl, by simp⟩
  | cons p rest ih =>
    intro L A hi hr hc hs halt hang
    obtain ⟨t, s⟩ := p
    obtain ⟨alt, ha⟩ := halt (t, s) (by simp)
    have ht : ∀ r, A.getLast? = some r → r.time ≤ t := by
      intro r hl
      have hm : r ∈ A := List.mem_of_getLast? hl
      exact (List.pairwise_append.1 hs).2.2 r.time (List.mem_map.2 ⟨r, hm, rfl⟩) t (by simp)
    obtain ⟨_, L1, r, g1, g2, g3, g4, g5, g6, g7, g8⟩ := logState_row hi hr t s ht hc ha
      (anglesBy angles s)
      (by rintro st rfl; exact hang (t, .six st) (by simp) st rfl)
    have hcell : ∀ c, r.cell c = Told s (anglesBy angles s) c := by
      intro c
      cases s with
      | three pos vel => exact g7 pos vel rfl c
      | six st => exact g8 st rfl c
    have htimes : (A.fillLast (fillOf L)).map Row.time = A.map Row.time := by
      have := congrArg (List.map Prod.fst) (seen_fillLast (fillOf L) A)
      simpa [seen, List.map_map, Function.comp_def] using this
    obtain ⟨L', A', k1, k2, k3, k4, k5, k6⟩ := ih L1 _ g2 g3 (by rw [g5]; exact hc)
      (by rw [List.map_append, htimes]; simpa [g4] using hs)
      (fun p hp => halt p (by simp [hp])) (fun p hp => hang p (by simp [hp]))
    refine ⟨L', A', by simp only [logFlight, g1]; exact k1, k2, k3, by rw [k4, g5], by rw [k5, g6], ?_⟩
    rw [g6] at k6
    rw [k6]
    have : seen (fillOf L) (A.fillLast (fillOf L) ++ [r]) = seen (fillOf L) A ++
        [(t, fun c => (Told s (anglesBy angles s) c).getD (fillOf L c))] := by
      rw [← seen_fillLast (fillOf L) A]
      simp only [seen, List.map_append, List.map_cons, List.map_nil, g4]
      congr 2
      simp only [Prod.mk.injEq, true_and]
      funext c
      rw [hcell c]
    rw [this]
    simp

/-- **C74.** The time step log of a flight: from the log of a new rocket, logging any sequence of states at times that do not
go back succeeds, and the written file has one line per state, in order. Every line holds the state's time and, in the five
columns of the state, its values; what a 3-DoF state does not have is the zero vector or quaternion. -/
theorem flight_log (e : Earth) (angles : RBState → V3 ℝ) (flight : List (ℝ × FlightState)) (level : ℤ) (disc : Str)
    (hlevel : 0 < level) (hs : (flight.map Prod.fst).Pairwise (· ≤ ·))
    (halt : ∀ p ∈ flight, ∃ alt, e.altitude p.2.position = .ok alt)
    (hang : ∀ p ∈ flight, ∀ st, p.2 = .six st → nedAngles e st = .ok (angles st)) :
    ∃ L L' rows, newStateLog level disc = .ok (some L) ∧ logFlight e flight L = .ok L' ∧ writeRows L' = .ok rows ∧
      rows.length = flight.length ∧ ∀ i (h1 : i < rows.length) (h2 : i < flight.length),
        rows[i].1 = flight[i].1 ∧
        (∀ st, flight[i].2 = .six st → ∀ v,
          (("Position(m)".toList, v) ∈ rows[i].2 ↔ v = .vec st.pos) ∧
          (("Velocity(m/s)".toList, v) ∈ rows[i].2 ↔ v = .vec st.vel) ∧
          (("OrientationQuaternion".toList, v) ∈ rows[i].2 ↔ v = .quat st.ori) ∧
          (("AngularVelocity(rad/s)".toList, v) ∈ rows[i].2 ↔ v = .vec st.angVel) ∧
          (("EulerAngle(rad)".toList, v) ∈ rows[i].2 ↔ v = .vec (angles st))) ∧
        (∀ pos vel, flight[i].2 = .three pos vel → ∀ v,
          (("Position(m)".toList, v) ∈ rows[i].2 ↔ v = .vec pos) ∧
          (("Velocity(m/s)".toList, v) ∈ rows[i].2 ↔ v = .vec vel) ∧
          (("OrientationQuaternion".toList, v) ∈ rows[i].2 ↔ v = .quat ⟨0, 0, 0, 0⟩) ∧
          (("AngularVelocity(rad/s)".toList, v) ∈ rows[i].2 ↔ v = .vec ⟨0, 0, 0⟩) ∧
          (("EulerAngle(rad)".toList, v) ∈ rows[i].2 ↔ v = .vec ⟨0, 0, 0⟩)) := by
  obtain ⟨L, hL, hi, hr, hk, f1, f2, f3, f4, f5, _⟩ := (newStateLog_spec level disc).2 hlevel
  have hc : ∀ c ∈ ["Position(m)".toList, "Velocity(m/s)".toList, "OrientationQuaternion".toList,
      "AngularVelocity(rad/s)".toList, "EulerAngle(rad)".toList], c ∈ Dict.keys L.cols := by
    intro c hc
    rw [hk]
    refine List.mem_append_left _ ?_
    simp only [List.mem_cons, List.not_mem_nil, or_false] at hc ⊢
    tauto
  obtain ⟨L', A', k1, k2, k3, k4, k5, k6⟩ := logFlight_seen e angles flight L [] hi hr hc (by simpa using hs) halt hang
  obtain ⟨rows, w1, w2, w3⟩ := written_cells k2 k3
  have hlen : A'.length = flight.length := by
    have := congrArg List.length k6
    simpa [seen] using this
  refine ⟨L, L', rows, hL, k1, w1, by rw [w2, hlen], ?_⟩
  intro i h1 h2
  have hA : i < A'.length := by rw [hlen]; exact h2
  obtain ⟨v1, v2⟩ := w3 i h1 hA
  rw [k4, k5] at v2
  have hrow : (A'[i].time, fun c => (A'[i].cell c).getD (fillOf L c)) =
      (flight[i].1, fun c => (Told flight[i].2 (anglesBy angles flight[i].2) c).getD
        (fillOf L c)) := by
    have h := congrArg (fun l => l[i]?) k6
    simpa [seen, hA, h2] using h
  have ht := congrArg Prod.fst hrow
  have hcell := congrFun (congrArg Prod.snd hrow)
  simp only at ht hcell
  refine ⟨v1.trans ht, ?_, ?_⟩
  · intro st hst v
    rw [hst] at hcell
    simp only [Told, anglesBy] at hcell
    refine ⟨?_, ?_, ?_, ?_, ?_⟩
    all_goals
      rw [v2 _ (hc _ (by simp)), hcell]
      simp [-String.toList]
  · intro pos vel hst v
    rw [hst] at hcell
    simp only [Told, anglesBy] at hcell
    refine ⟨?_, ?_, ?_, ?_, ?_⟩
    all_goals
      rw [v2 _ (hc _ (by simp)), hcell]
      first
        | simp; done
        | (rw [if_neg (by decide +kernel), if_neg (by decide +kernel)]; simp only [Option.getD_none, f3, f4, f5])

/-- The hypotheses are met: a rocket on a flat earth goes up for a second and then continues as a point. -/
example : ∃ (angles : RBState → V3 ℝ) (flight : List (ℝ × FlightState)), flight.length = 2 ∧
    (flight.map Prod.fst).Pairwise (· ≤ ·) ∧
    (∀ p ∈ flight, ∃ alt, flatEarth.altitude p.2.position = .ok alt) ∧
    (∀ p ∈ flight, ∀ st, p.2 = .six st → nedAngles flatEarth st = .ok (angles st)) := by
  refine ⟨fun st => ((Quat.mul ⟨1, 0, 0, 0⟩ (Quat.axisAngle ⟨1, 1, 0⟩ Real.pi)).conj.mul st.ori).toEulerAngles,
    [(0, .six ⟨0, ⟨0, 0, 10⟩, ⟨1, 0, 0, 0⟩, 0⟩), (1, .three ⟨0, 0, 10⟩ ⟨0, 0, 10⟩)], rfl, by simp, ?_, ?_⟩
  · intro p _; exact ⟨_, rfl⟩
  · intro p _ st _; rfl

end Mapleaf.LogM
