import Verif.Motion.StateModel
import Verif.Motion.SlerpProps

/-! # C16: interpolating states; C58: orientations stay unit; C59: rigid-body equations -/

namespace Mapleaf.Motion
open Quat (zeroQ delta)

/-! ## C16 -/

theorem interpolate6_unit (s1 s2 : RBState) (w : ℝ) (h1 : Quat.Unit s1.ori) (h2 : Quat.Unit s2.ori) (hw : 0 ≤ w) :
    ∃ d, s1.ori.slerp s2.ori w = .ok d ∧ interpolate6 s1 s2 w
      = .ok ⟨w • s1.pos + (1 - w) • s2.pos, w • s1.vel + (1 - w) • s2.vel, s1.ori.mul d,
          w • s1.angVel + (1 - w) • s2.angVel⟩ := by
  obtain ⟨n, _, _, he, _⟩ := Quat.slerp_exact s1.ori s2.ori w h1 h2 hw
  refine ⟨_, he, ?_⟩
  unfold interpolate6
  rw [he]
  dsimp only
  rw [h1.normalize]

/-- **C16, part that holds.** Position, velocity and angular velocity are the weighted means, so they are the first
state's at weight 1 and the second state's at weight 0. The orientation is a unit orientation; it is the right one at
weight one half (half way from the first to the second), for relative rotations of at most half a turn. -/
theorem interpolate_states_partial (s1 s2 : RBState) (w : ℝ) (h1 : Quat.Unit s1.ori) (h2 : Quat.Unit s2.ori) (hw0 : 0 ≤ w) :
    ∃ s, interpolate6 s1 s2 w = .ok s ∧ s.pos = w • s1.pos + (1 - w) • s2.pos ∧
      s.vel = w • s1.vel + (1 - w) • s2.vel ∧ s.angVel = w • s1.angVel + (1 - w) • s2.angVel ∧ Quat.Unit s.ori ∧
      (w = 1 → s.pos = s1.pos ∧ s.vel = s1.vel ∧ s.angVel = s1.angVel) ∧
      (w = 0 → s.pos = s2.pos ∧ s.vel = s2.vel ∧ s.angVel = s2.angVel) ∧
      (w = 1 / 2 → 0 ≤ (delta s1.ori s2.ori).q0 → ∃ θ, (delta s1.ori s2.ori).rotationAngle = .ok (θ, delta s1.ori s2.ori) ∧
        (delta s1.ori s.ori).rotationAngle = .ok (θ / 2, delta s1.ori s.ori) ∧
        (delta s1.ori s.ori).mul (delta s1.ori s.ori) = delta s1.ori s2.ori) := by
  obtain ⟨n, hnl, hnn, he, hd⟩ := Quat.slerp_exact s1.ori s2.ori w h1 h2 hw0
  obtain ⟨d, hd', hi⟩ := interpolate6_unit s1 s2 w h1 h2 hw0
  rw [he] at hd'
  cases hd'
  have hnne : n ≠ 0 := by intro h; rw [h, (V3.length_zero_iff 0).2 rfl] at hnl; norm_num at hnl
  have hdelta : ∀ q : Quat ℝ, delta s1.ori (s1.ori.mul q) = q := by
    intro q
    have h := h1
    unfold Quat.Unit Quat.nsq at h
    apply Quat.ext4 <;> simp [delta, Quat.mul, Quat.conj]
    · linear_combination q.q0 * h
    · linear_combination q.q1 * h
    · linear_combination q.q2 * h
    · linear_combination q.q3 * h
  refine ⟨_, hi, rfl, rfl, rfl, h1.mul (Quat.axisAngle_unit _ _ hnne), ?_, ?_, ?_⟩
  · rintro rfl; simp
  · rintro rfl; simp
  · rintro rfl hq
    dsimp only
    rw [hdelta, if_neg (not_lt.2 hq)]
    have hdd := hd (by linarith)
    have hac0 := Real.arccos_nonneg (delta s1.ori s2.ori).q0
    have hacp := Real.arccos_le_pi (delta s1.ori s2.ori).q0
    refine ⟨_, Quat.rotationAngle_unit (h1.conj.mul h2), ?_, ?_⟩
    · rw [Quat.rotationAngle_unit (Quat.axisAngle_unit _ _ hnne), Quat.axisAngle_of_unit hnn]
      dsimp only
      rw [Real.arccos_cos (by linarith) (by linarith)]
      congr 2; ring
    · rw [Quat.axisAngle_mul n _ _ hnne, ← hdd]
      congr 1
      rw [hdd]; ring

/-- **C16 violated.** The orientation uses the weight the other way round: with weight 1 for the first state the
interpolated orientation is the second state's, with weight 0 the first state's. -/
theorem interpolate_orientation_violated (s1 s2 : RBState) (h1 : Quat.Unit s1.ori) (h2 : Quat.Unit s2.ori)
    (hq : 0 ≤ (delta s1.ori s2.ori).q0) :
    (∃ s, interpolate6 s1 s2 1 = .ok s ∧ s.ori = s2.ori) ∧ (∃ s, interpolate6 s1 s2 0 = .ok s ∧ s.ori = s1.ori) := by
  constructor
  · obtain ⟨s, hs, _, _, h, _⟩ := Quat.slerp_partial s1.ori s2.ori 1 h1 h2 zero_le_one le_rfl hq
    obtain ⟨d, hd, hi⟩ := interpolate6_unit s1 s2 1 h1 h2 zero_le_one
    rw [hs] at hd; cases hd
    exact ⟨_, hi, h rfl⟩
  · obtain ⟨s, hs, _, h, _⟩ := Quat.slerp_partial s1.ori s2.ori 0 h1 h2 le_rfl zero_le_one hq
    obtain ⟨d, hd, hi⟩ := interpolate6_unit s1 s2 0 h1 h2 le_rfl
    rw [hs] at hd; cases hd
    exact ⟨_, hi, h rfl⟩

/-- The 3-DoF interpolation is right at both ends and linear in between. -/
theorem interpolate3_spec (s1 s2 : RBState3) (w : ℝ) :
    (interpolate3 s1 s2 w).pos = w • s1.pos + (1 - w) • s2.pos ∧
    (interpolate3 s1 s2 w).vel = w • s1.vel + (1 - w) • s2.vel ∧
    interpolate3 s1 s2 1 = s1 ∧ interpolate3 s1 s2 0 = s2 := by
  refine ⟨rfl, rfl, ?_, ?_⟩ <;> simp [interpolate3]

/-- Two states with different orientations meeting the hypotheses of the violation. -/
example : ∃ s1 s2 : RBState, Quat.Unit s1.ori ∧ Quat.Unit s2.ori ∧ 0 ≤ (delta s1.ori s2.ori).q0 ∧ s1.ori ≠ s2.ori := by
  refine ⟨⟨0, 0, ⟨1, 0, 0, 0⟩, 0⟩, ⟨0, 0, ⟨3 / 5, 4 / 5, 0, 0⟩, 0⟩, ?_, ?_, ?_, ?_⟩
  · norm_num [Quat.Unit, Quat.nsq]
  · norm_num [Quat.Unit, Quat.nsq]
  · norm_num [delta, Quat.mul, Quat.conj]
  · intro h; have := congrArg Quat.q0 h; norm_num at this

/-! ## C58: orientations stay unit under integration -/

theorem ofRotationVector_unit (w : V3 ℝ) : Quat.Unit (Quat.ofRotationVector w) := by
  by_cases h : w = 0
  · subst h
    have hl : (0 : V3 ℝ).length = 0 := (V3.length_zero_iff 0).2 rfl
    unfold Quat.ofRotationVector
    rw [hl]
    simp [Quat.Unit, Quat.nsq, Quat.axisAngle]
  · apply Quat.axisAngle_unit
    intro h0
    have := (V3.normalize_spec w).1 h
    rw [h0, (V3.length_zero_iff 0).2 rfl] at this; norm_num at this

/-- Rotation vector of an angular velocity over a time step: turning about the angular velocity by its length. -/
theorem ofRotationVector_rotates (w v : V3 ℝ) :
    (w = 0 → ∃ r, (Quat.ofRotationVector w).rotate v = .ok (v, r)) ∧
    (w ≠ 0 → ∃ r, (Quat.ofRotationVector w).rotate v = .ok (Quat.rodrigues w.normalize w.length v, r)) := by
  constructor
  · rintro rfl
    have hl : (0 : V3 ℝ).length = 0 := (V3.length_zero_iff 0).2 rfl
    have : Quat.ofRotationVector 0 = ⟨1, 0, 0, 0⟩ := by
      unfold Quat.ofRotationVector
      rw [hl]
      apply Quat.ext4 <;> simp [Quat.axisAngle]
    rw [this]
    have hne : (⟨1, 0, 0, 0⟩ : Quat ℝ) ≠ zeroQ := by intro h; have := congrArg Quat.q0 h; simp [zeroQ] at this
    refine ⟨(⟨1, 0, 0, 0⟩ : Quat ℝ).scale (1 / (⟨1, 0, 0, 0⟩ : Quat ℝ).norm), ?_⟩
    rw [Quat.rotate_eq_rotF _ _ hne]
    congr 2
    apply V3.ext' <;> simp [Quat.rotF, Quat.nsq, Quat.sandwich, Quat.mul, Quat.conj]
  · intro h
    have hl := (V3.normalize_spec w).1 h
    have hne : w.normalize ≠ 0 := by intro h0; rw [h0, (V3.length_zero_iff 0).2 rfl] at hl; norm_num at hl
    have hnn := (V3.normalize_unique w.normalize w.normalize hne (by rw [hl, one_smul])).symm
    obtain ⟨_, ⟨r, hr⟩, _⟩ := Quat.axisAngle_rotates w.normalize w.length hne v
    rw [hnn] at hr
    exact ⟨r, hr⟩

theorem deriv_mul_ok (d : RBDeriv) (dt : ℝ) :
    d.mul dt = .ok ⟨dt • d.vel, dt • d.acc, Quat.ofRotationVector (dt • d.angVel), dt • d.angAcc⟩ := by
  unfold RBDeriv.mul
  rw [(ofRotationVector_unit _).normalize]

/-- One explicit update `state + derivative*dt` as done by every integrator. -/
noncomputable def update (s : RBState) (d : RBDeriv) (dt : ℝ) : Except PyErr RBState :=
  match d.mul dt with
  | .error e => .error e
  | .ok ds => s.add ds

/-- A history of updates. -/
noncomputable def updates : RBState → List (RBDeriv × ℝ) → Except PyErr RBState
  | s, [] => .ok s
  | s, (d, dt) :: rest =>
    match update s d dt with
    | .error e => .error e
    | .ok s' => updates s' rest

/-- **C58.** One update of a state with any non-zero orientation succeeds, moves position, velocity and angular velocity
along the derivative, and its orientation is unit: the old one followed by the rotation `dt·ω` in the global frame. -/
theorem update_spec (s : RBState) (d : RBDeriv) (dt : ℝ) (h : s.ori ≠ zeroQ) :
    ∃ s', update s d dt = .ok s' ∧ s'.pos = s.pos + dt • d.vel ∧ s'.vel = s.vel + dt • d.acc ∧
      s'.angVel = s.angVel + dt • d.angAcc ∧ Quat.Unit s'.ori ∧
      ∀ v, ∃ v1 v2 r1 r2 r3, s.ori.rotate v = .ok (v1, r1) ∧
        (Quat.ofRotationVector (dt • d.angVel)).rotate v1 = .ok (v2, r2) ∧ s'.ori.rotate v = .ok (v2, r3) := by
  have hU := ofRotationVector_unit (dt • d.angVel)
  obtain ⟨o, ho, hn, hsc⟩ := (Quat.qnormalize_spec s.ori).2 h
  have hoU : Quat.Unit o := by unfold Quat.Unit; rw [← Quat.norm_sq', hn, one_mul]
  have hpU := hU.mul hoU
  have hupd : update s d dt = .ok ⟨s.pos + dt • d.vel, s.vel + dt • d.acc, (Quat.ofRotationVector (dt • d.angVel)).mul o,
      s.angVel + dt • d.angAcc⟩ := by
    unfold update
    rw [deriv_mul_ok]
    dsimp only
    unfold RBState.add
    rw [ho]
    dsimp only
    rw [hpU.normalize]
  refine ⟨_, hupd, rfl, rfl, rfl, hpU, ?_⟩
  intro v
  refine ⟨_, _, _, _, ((Quat.ofRotationVector (dt • d.angVel)).mul o).scale
    (1 / ((Quat.ofRotationVector (dt • d.angVel)).mul o).norm), Quat.rotate_eq_rotF _ _ h, Quat.rotate_eq_rotF _ _ hU.ne, ?_⟩
  · rw [Quat.rotate_eq_rotF _ _ hpU.ne, Quat.rotF_mul]
    congr 3
    have := Quat.rotF_scale o v hoU.ne (Quat.norm_pos_of_ne h).ne'
    rw [hsc] at this
    exact this.symm

/-- **C58.** After any history of updates from a non-zero orientation, no update raised and the orientation is unit. -/
theorem updates_unit (s : RBState) (h : s.ori ≠ zeroQ) (us : List (RBDeriv × ℝ)) (hne : us ≠ []) :
    ∃ s', updates s us = .ok s' ∧ Quat.Unit s'.ori := by
  induction us generalizing s with
  | nil => exact absurd rfl hne
  | cons u us ih =>
    obtain ⟨d, dt⟩ := u
    obtain ⟨s1, h1, _, _, _, hU, _⟩ := update_spec s d dt h
    unfold updates
    rw [h1]
    dsimp only
    by_cases hus : us = []
    · subst hus; exact ⟨s1, rfl, hU⟩
    · exact ih s1 hU.ne hus

example : (⟨⟨0, 0, 0⟩, ⟨1, 2, 3⟩, ⟨2, 0, 0, 1⟩, ⟨0, 0, 1⟩⟩ : RBState).ori ≠ zeroQ := by
  intro h; have := congrArg Quat.q0 h; simp [zeroQ] at this

/-! ## C59: Newton-Euler equations -/

/-- The principal moments of inertia acting on a vector. -/
def tensor (moi w : V3 ℝ) : V3 ℝ := ⟨moi.x * w.x, moi.y * w.y, moi.z * w.z⟩

/-- **C59.** Whenever the orientation, the mass and the principal moments are non-zero, the derivative exists and satisfies
Newton's law in the global frame, Euler's law `I α + ω × I ω = M` in the body frame, and the rotational power balance
`ω · I α = ω · M`; the orientation turns with the angular velocity expressed in the global frame, and the velocity of the
origin is the state's velocity plus the global velocity of the centre of gravity in the body. -/
theorem newton_euler (s : RBState) (F M : V3 ℝ) (I1 I2 : MassProps) (ho : s.ori ≠ zeroQ) (hm : I1.mass ≠ 0)
    (hx : I1.moi.x ≠ 0) (hy : I1.moi.y ≠ 0) (hz : I1.moi.z ≠ 0) :
    ∃ d, rigidBodyDerivative s F M I1 I2 = .ok d ∧
      (∃ FG, Quat.IsRotation s.ori F FG ∧ I1.mass • d.acc = FG) ∧
      (∃ wG, Quat.IsRotation s.ori s.angVel wG ∧ d.angVel = wG) ∧
      tensor I1.moi d.angAcc + V3.cross s.angVel (tensor I1.moi s.angVel) = M ∧
      V3.dot s.angVel (tensor I1.moi d.angAcc) = V3.dot s.angVel M ∧
      (∃ c, Quat.IsRotation s.ori ((1e8 : ℝ) • (I2.cg - I1.cg)) c ∧ d.vel = s.vel + c) := by
  have hp := Quat.norm_pos_of_ne ho
  have hk : (1 / s.ori.norm) ≠ 0 := by positivity
  have hne1 := Quat.scale_ne ho hk
  have hn1 : (s.ori.scale (1 / s.ori.norm)).norm = 1 := by
    obtain ⟨r', hr', hn, _⟩ := (Quat.qnormalize_spec s.ori).2 ho
    rw [Quat.qnormalize_cases s.ori ho] at hr'
    cases hr'; exact hn
  have hsame : (s.ori.scale (1 / s.ori.norm)).scale (1 / (s.ori.scale (1 / s.ori.norm)).norm) = s.ori.scale (1 / s.ori.norm) := by
    rw [hn1]; simp [Quat.scale]
  have hr : ∀ v, (s.ori.scale (1 / s.ori.norm)).rotate v = .ok (s.ori.rotF v, s.ori.scale (1 / s.ori.norm)) := by
    intro v; rw [Quat.rotate_eq_rotF _ _ hne1, Quat.rotF_scale _ _ ho hk, hsame]
  have hform : rigidBodyDerivative s F M I1 I2 = .ok
      { vel := s.vel + s.ori.rotF ((1 / 1e-8 : ℝ) • (I2.cg - I1.cg))
        acc := (1 / I1.mass) • s.ori.rotF F
        angVel := s.ori.rotF s.angVel
        angAcc := ⟨(M.x + (I1.moi.y - I1.moi.z) * s.angVel.y * s.angVel.z) / I1.moi.x,
                 (M.y + (I1.moi.z - I1.moi.x) * s.angVel.z * s.angVel.x) / I1.moi.y,
                 (M.z + (I1.moi.x - I1.moi.y) * s.angVel.x * s.angVel.y) / I1.moi.z⟩ } := by
    unfold rigidBodyDerivative
    rw [Quat.rotate_eq_rotF _ _ ho]
    dsimp only
    rw [hr]
    dsimp only
    rw [if_neg hm, hr]
    dsimp only
    rw [if_neg (by tauto)]
  refine ⟨_, hform, ⟨_, Quat.rotF_spec _ F ho, ?_⟩, ⟨_, Quat.rotF_spec _ _ ho, rfl⟩, ?_, ?_, ⟨_, Quat.rotF_spec _ _ ho, ?_⟩⟩
  · dsimp only; rw [smul_smul, mul_one_div_cancel hm, one_smul]
  · apply V3.ext' <;> simp [tensor, V3.cross] <;> field_simp <;> ring
  · simp [tensor, V3.dot]; field_simp; ring
  · dsimp only; congr 3; norm_num

/-- It raises `ZeroDivisionError` whenever orientation, mass or a principal moment is zero. -/
theorem newton_euler_degenerate (s : RBState) (F M : V3 ℝ) (I1 I2 : MassProps)
    (h : s.ori = zeroQ ∨ I1.mass = 0 ∨ I1.moi.x = 0 ∨ I1.moi.y = 0 ∨ I1.moi.z = 0) :
    rigidBodyDerivative s F M I1 I2 = .error .zeroDivision := by
  unfold rigidBodyDerivative
  by_cases ho : s.ori = zeroQ
  · rw [(Quat.rotate_spec _ _).1.2 ho]
  · have hp := Quat.norm_pos_of_ne ho
    have hk : (1 / s.ori.norm) ≠ 0 := by positivity
    have hne1 := Quat.scale_ne ho hk
    rw [Quat.rotate_eq_rotF _ _ ho]
    dsimp only
    rw [Quat.rotate_eq_rotF _ _ hne1]
    dsimp only
    split
    · rfl
    · rename_i hm
      have hne2 := Quat.scale_ne hne1 (k := 1 / (s.ori.scale (1 / s.ori.norm)).norm)
        (by have := Quat.norm_pos_of_ne hne1; positivity)
      rw [Quat.rotate_eq_rotF _ _ hne2]
      dsimp only
      rw [if_pos (by tauto)]

/-- 3-DoF: Newton's law. -/
theorem newton3 (s : RBState3) (F : V3 ℝ) (m : ℝ) :
    (m = 0 → rigidBodyDerivative3 s F m = .error .zeroDivision) ∧
    (m ≠ 0 → ∃ a, rigidBodyDerivative3 s F m = .ok (s.vel, a) ∧ m • a = F) := by
  constructor
  · intro h; unfold rigidBodyDerivative3; rw [if_pos h]
  · intro h
    refine ⟨_, by unfold rigidBodyDerivative3; rw [if_neg h], ?_⟩
    rw [smul_smul, mul_one_div_cancel h, one_smul]

end Mapleaf.Motion
