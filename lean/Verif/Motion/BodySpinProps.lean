import Verif.Motion.BodyStepProps
import Verif.Motion.IntegMethods
import Verif.Motion.StepperProps
import Verif.Motion.SlerpProps

/-! # Integration of rigid bodies with six degrees of freedom -/

namespace Mapleaf.Motion.Body
open Mapleaf Mapleaf.Motion
open Mapleaf.Motion.RK (Tableau wsum Explicit NonZero Shape wsum_cons wsum_append_right castT castL patch shapeB rowsConsistent classicalTableau
  adaptiveTableau checkTableau shape_cast checkTableau_cast castT_def castT_dropLast castT_getLast castT_take castT_length isStages_unique IsStages)

/-! ## Rotations about one axis -/

theorem normalize_normalize {u : V3 ℝ} (hu : u ≠ 0) : u.normalize.normalize = u.normalize := by
  have hl := (V3.normalize_spec u).1 hu
  have hne : u.normalize ≠ 0 := by intro h; rw [h, (V3.length_zero_iff 0).2 rfl] at hl; norm_num at hl
  exact (V3.normalize_unique _ _ hne (by rw [hl, one_smul])).symm

theorem normalize_smul_pos {u : V3 ℝ} (hu : u ≠ 0) {s : ℝ} (hs : 0 < s) : (s • u).normalize = u.normalize := by
  have hne : s • u ≠ 0 := smul_ne_zero hs.ne' hu
  refine (V3.normalize_unique _ _ hne ?_).symm
  rw [V3.length_smul, abs_of_pos hs, mul_smul, (V3.normalize_spec u).2.2]

theorem normalize_neg {u : V3 ℝ} (hu : u ≠ 0) : (-u).normalize = -u.normalize := by
  have hne : -u ≠ 0 := neg_ne_zero.2 hu
  refine (V3.normalize_unique _ _ hne ?_).symm
  have : (-u).length = u.length := by
    have := V3.length_smul (-1) u
    rw [neg_one_smul] at this
    rw [this]; norm_num
  rw [this, smul_neg, (V3.normalize_spec u).2.2]

theorem axisAngle_neg {u : V3 ℝ} (hu : u ≠ 0) (θ : ℝ) : Quat.axisAngle (-u) θ = Quat.axisAngle u (-θ) := by
  unfold Quat.axisAngle
  rw [normalize_neg hu, show -θ / 2 = -(θ / 2) by ring, Real.cos_neg, Real.sin_neg]
  apply Quat.ext4 <;> simp

/-- the rotation vector `s w` turns about `w` by `s |w|`, in either direction -/
theorem turn_axis {w : V3 ℝ} (hw : w ≠ 0) (s : ℝ) : Quat.ofRotationVector (s • w) = Quat.axisAngle w (s * w.length) := by
  unfold Quat.ofRotationVector
  rcases lt_trichotomy s 0 with h | h | h
  · have e1 : s • w = (-s) • (-w) := by module
    have hnw : -w ≠ 0 := neg_ne_zero.2 hw
    have hl : (-w).length = w.length := by
      have := V3.length_smul (-1) w
      rw [neg_one_smul] at this
      rw [this]; norm_num
    rw [e1, normalize_smul_pos hnw (by linarith), V3.length_smul, abs_of_pos (by linarith : 0 < -s), hl, normalize_neg hw]
    have hne : w.normalize ≠ 0 := by
      intro h0
      have := (V3.normalize_spec w).1 hw
      rw [h0, (V3.length_zero_iff 0).2 rfl] at this; norm_num at this
    rw [axisAngle_neg hne, show -(-s * w.length) = s * w.length by ring]
    unfold Quat.axisAngle
    rw [normalize_normalize hw]
  · subst h
    rw [zero_smul, (V3.length_zero_iff 0).2 rfl, zero_mul]
    unfold Quat.axisAngle
    apply Quat.ext4 <;> simp
  · rw [normalize_smul_pos hw h, V3.length_smul, abs_of_pos h]
    unfold Quat.axisAngle
    rw [normalize_normalize hw]

theorem turn_zero : Quat.ofRotationVector 0 = ⟨1, 0, 0, 0⟩ := by
  unfold Quat.ofRotationVector
  rw [(V3.length_zero_iff 0).2 rfl]
  apply Quat.ext4 <;> simp [Quat.axisAngle]

theorem one_mulQ (q : Quat ℝ) : (⟨1, 0, 0, 0⟩ : Quat ℝ).mul q = q := by
  apply Quat.ext4 <;> simp [Quat.mul]

/-- turns about one axis add up -/
theorem turn_add (w : V3 ℝ) (a b : ℝ) :
    (Quat.ofRotationVector (a • w)).mul (Quat.ofRotationVector (b • w)) = Quat.ofRotationVector ((a + b) • w) := by
  by_cases hw : w = 0
  · subst hw
    simp only [smul_zero, turn_zero, one_mulQ]
  · rw [turn_axis hw, turn_axis hw, turn_axis hw, Quat.axisAngle_mul w _ _ hw, add_mul]

theorem rotF_unit {q : Quat ℝ} (h : Quat.Unit q) (v : V3 ℝ) : q.rotF v = q.sandwich v := by
  unfold Quat.rotF
  rw [show q.nsq = 1 from h]
  simp

/-- a turn leaves its axis alone -/
theorem turn_fixes (w : V3 ℝ) (s : ℝ) : (Quat.ofRotationVector (s • w)).rotF w = w := by
  by_cases hw : w = 0
  · subst hw
    rw [rotF_unit (ofRotationVector_unit _)]
    apply V3.ext' <;> simp [Quat.sandwich, Quat.mul, Quat.conj]
  · rw [turn_axis hw]
    obtain ⟨_, _, r, hr⟩ := Quat.axisAngle_rotates w (s * w.length) hw w
    exact (Quat.rotate_ok hr).2.1.symm

/-! ## The operators of rigid-body states -/

/-- A state changed by `d`: positions, velocities and angular velocities are added, the orientation is turned by the rotation vector
in the global frame. -/
noncomputable def advance (y : RBState) (d : RBDeriv) : RBState :=
  ⟨y.pos + d.vel, y.vel + d.acc, (Quat.ofRotationVector d.angVel).mul y.ori, y.angVel + d.angAcc⟩

theorem advance_unit (y : RBState) (d : RBDeriv) (h : Quat.Unit y.ori) : Quat.Unit (advance y d).ori :=
  (ofRotationVector_unit _).mul h

theorem body_lawful : Lawful bodyArith (id : RBDeriv → RBDeriv) advance (fun s => Quat.Unit s.ori) where
  ddiv d s hs := by
    show RBDeriv.div d s = _
    unfold RBDeriv.div
    rw [if_neg hs]
    rfl
  dadd a b := rfl
  plus y d s hy := by
    have hd : bodyArith.dmul (id d) s = .ok ⟨s • d.vel, s • d.acc, Quat.ofRotationVector (s • d.angVel), s • d.angAcc⟩ := deriv_mul_ok d s
    unfold plus
    rw [hd]
    show RBState.add y _ = _
    unfold RBState.add
    rw [Quat.Unit.normalize hy]
    dsimp only
    rw [((ofRotationVector_unit _).mul hy).normalize]
    rfl

/-! ## Fixed steps -/

set_option maxRecDepth 100000 in
theorem tableau_checks (m : String) (tab : Tableau ℚ) (hm : classicalTableau m = .ok (some tab)) :
    rowsConsistent 0 tab = true ∧ shapeB 1 (patch tab) = true := by
  unfold classicalTableau at hm
  split at hm
  · simp at hm
  split at hm
  · simp only [Except.ok.injEq, Option.some.injEq] at hm; subst hm; exact ⟨by decide +kernel, by decide +kernel⟩
  split at hm
  · simp only [Except.ok.injEq, Option.some.injEq] at hm; subst hm; exact ⟨by decide +kernel, by decide +kernel⟩
  split at hm
  · simp only [Except.ok.injEq, Option.some.injEq] at hm; subst hm; exact ⟨by decide +kernel, by decide +kernel⟩
  split at hm
  · simp only [Except.ok.injEq, Option.some.injEq] at hm; subst hm; exact ⟨by decide +kernel, by decide +kernel⟩
  · cases hm

/-- **C92.** Every fixed-step method, for every rigid body whose right-hand side is defined on unit orientations: the stages are
evaluated at times `t + cᵢ dt` and at the states reached from the start by the changes `dt ∑ⱼ aᵢⱼ kⱼ`, the result is the state
reached by `dt ∑ᵢ bᵢ kᵢ`; a change adds to position, velocity and angular velocity and turns the orientation by its rotation
vector. The right-hand side is asked at these points only, and the orientation stays a unit. -/
theorem six_dof_step (m : String) (tab : Tableau ℚ) (hm : classicalTableau m = .ok (some tab)) (f : ℝ → RBState → Except PyErr RBDeriv)
    (g : ℝ → RBState → RBDeriv) (hf : ∀ t s, Quat.Unit s.ori → f t s = .ok (g t s)) (t : ℝ) (y : RBState) (hy : Quat.Unit y.ori)
    (dt : ℝ) (hdt : dt ≠ 0) :
    ∃ r ks rows b, classicalStep bodyArith m f t y dt = .ok r ∧
      (patch tab).map (fun r => r.map (fun q : ℚ => (q : ℝ))) = rows ++ [b] ∧ ks.length = b.length ∧
      ks = g t y :: rows.map (fun r => g (t + dt * r.headD 0) (advance y (dt • wsum r.tail ks))) ∧
      r.newValue = advance y (dt • wsum b ks) ∧ r.derivative = wsum b ks ∧ Quat.Unit r.newValue.ori ∧
      r.evals = (t, y) :: rows.map (fun r => (t + dt * r.headD 0, advance y (dt • wsum r.tail ks))) := by
  have hgood := tableau_checks m tab hm
  obtain ⟨hc, hs⟩ := hgood
  have hshape : Shape 1 (castT (patch tab) : Tableau ℝ) := shape_cast 1 (patch tab) hs
  obtain ⟨r, ks, b, h1, h2, h3, h4, _, h6, h7, h8⟩ := rkStep_gen body_lawful (castT (patch tab)) hshape f g (fun s => Quat.Unit s.ori)
    (fun _ => True) (fun t s h => ⟨hf t s h, trivial⟩) t y hy hy dt hdt (fun _ _ _ _ _ => advance_unit _ _ hy)
  refine ⟨r, ks, (castT (patch tab) : Tableau ℝ).dropLast, b, ?_, ?_, h3.symm, h4, h6, h7, by rw [h6]; exact advance_unit _ _ hy, h8⟩
  · unfold classicalStep
    rw [hm]
    dsimp only
    rw [← castT_def, checkTableau_cast tab hc]
    exact h1
  · rw [← castT_def]
    have hne : (castT (patch tab) : Tableau ℝ) ≠ [] := by intro h; rw [h] at h2; simp at h2
    rw [List.getLast?_eq_some_getLast hne] at h2
    injection h2 with h2
    rw [← h2]; exact (List.dropLast_append_getLast hne).symm

/-- **C92.** The Euler step. -/
theorem six_dof_euler (f : ℝ → RBState → Except PyErr RBDeriv) (t : ℝ) (y : RBState) (hy : Quat.Unit y.ori) (dt : ℝ) (k : RBDeriv)
    (hk : f t y = .ok k) : classicalStep bodyArith "Euler" f t y dt = .ok ⟨advance y (dt • k), k, [(t, y)]⟩ := by
  have : classicalTableau "Euler" = .ok none := by simp [classicalTableau]
  unfold classicalStep
  rw [this]
  exact eulerStep_gen body_lawful f t y hy dt k hk

/-- **C92.** The right-hand side of a body with mass and moments of inertia that are never zero is defined on unit orientations, so
the two theorems above apply to it. -/
theorem bodyRhs_defined (force moment : ℝ → RBState → V3 ℝ) (inertia : ℝ → RBState → MassProps)
    (h : ∀ t s, (inertia t s).mass ≠ 0 ∧ (inertia t s).moi.x ≠ 0 ∧ (inertia t s).moi.y ≠ 0 ∧ (inertia t s).moi.z ≠ 0) :
    ∃ g : ℝ → RBState → RBDeriv, ∀ t s, Quat.Unit s.ori → bodyRhs force moment inertia t s = .ok (g t s) := by
  have : ∀ (t : ℝ) (s : RBState), ∃ d, Quat.Unit s.ori → bodyRhs force moment inertia t s = .ok d := by
    intro t s
    by_cases hs : Quat.Unit s.ori
    · obtain ⟨h1, h2, h3, h4⟩ := h t s
      obtain ⟨d, hd, _⟩ := newton_euler s (force t s) (moment t s) (inertia t s) (inertia (t + 1e-8) s) hs.ne h1 h2 h3 h4
      exact ⟨d, fun _ => hd⟩
    · exact ⟨0, fun h => absurd h hs⟩
  choose g hg using this
  exact ⟨g, hg⟩

end Mapleaf.Motion.Body
