import Verif.GNC.ControlModel
import Verif.GNC.GncProps
import Verif.ENV.FactoryProps
import Verif.Rocket.PartProps
import Verif.Motion.SlerpProps

/-! # C73: the control system turns the rocket towards the desired flight direction -/

namespace Mapleaf.GNC
open Mapleaf.Motion Mapleaf.ENV

/-! ## The target -/

/-- **C73.** The target orientation turns the rocket's longitudinal axis exactly into the desired flight direction, without roll; within a
cosine of 1e-8 of the vertical it is upright. No direction is refused. -/
theorem stabilizer_spec (dir : V3 ℝ) :
    (dir = 0 → stabilizer dir = .error .zeroDivision) ∧
    (dir ≠ 0 → 1e-8 ≤ |dir.normalize.z - 1| → dir.normalize ≠ ⟨0, 0, -1⟩ →
      ∃ q, stabilizer dir = .ok q ∧ q.nsq = 1 ∧ q.q3 = 0 ∧ q.rotF ⟨0, 0, 1⟩ = dir.normalize) ∧
    (dir ≠ 0 → |dir.normalize.z - 1| < 1e-8 → stabilizer dir = .ok ⟨1, 0, 0, 0⟩) :=
  (initialOrientation_spec dir).2

example : (⟨1, 0, 1⟩ : V3 ℝ) ≠ 0 := by intro h; have := congrArg V3.x h; simp at this

/-! ## The error -/

theorem conj_mul_q0 (o t : Quat ℝ) : (o.conj.mul t).q0 = o.q0 * t.q0 + o.q1 * t.q1 + o.q2 * t.q2 + o.q3 * t.q3 := by
  simp only [Quat.conj, Quat.mul]; ring

theorem divQuat_unit {o : Quat ℝ} (ho : Quat.Unit o) (t : Quat ℝ) : t.divQuat o = .ok (o.conj.mul t) := by
  have h : o.inverse = .ok o.conj := by
    unfold Quat.inverse Quat.divNum
    rw [ho.norm, one_pow, if_neg one_ne_zero]
    congr 1
    apply Quat.ext4 <;> simp [Quat.scale]
  unfold Quat.divQuat
  rw [h]

theorem unit_scaled {o : Quat ℝ} (ho : Quat.Unit o) : o.q0 * o.q0 + o.q1 * o.q1 + o.q2 * o.q2 + o.q3 * o.q3 = 1 := ho

theorem mul_conj_mul {o : Quat ℝ} (ho : Quat.Unit o) (t : Quat ℝ) : o.mul (o.conj.mul t) = t := by
  have h := unit_scaled ho
  apply Quat.ext4 <;> simp only [Quat.conj, Quat.mul]
  · linear_combination t.q0 * h
  · linear_combination t.q1 * h
  · linear_combination t.q2 * h
  · linear_combination t.q3 * h

theorem conj_mul_minus {o t : Quat ℝ} (ho : Quat.Unit o) : o.conj.mul t = ⟨-1, 0, 0, 0⟩ ↔ t = o.neg := by
  constructor
  · intro h
    rw [← mul_conj_mul ho t, h]
    apply Quat.ext4 <;> simp [Quat.mul, Quat.neg]
  · rintro rfl
    have h := unit_scaled ho
    apply Quat.ext4 <;> simp only [Quat.conj, Quat.mul, Quat.neg] <;> linarith

theorem conj_mul_one {o t : Quat ℝ} (ho : Quat.Unit o) : o.conj.mul t = ⟨1, 0, 0, 0⟩ ↔ t = o := by
  constructor
  · intro h
    rw [← mul_conj_mul ho t, h]
    apply Quat.ext4 <;> simp [Quat.mul]
  · rintro rfl
    have h := unit_scaled ho
    apply Quat.ext4 <;> simp only [Quat.conj, Quat.mul] <;> linarith

/-- **C73.** The error is the rotation vector, in the rocket's own axes, that turns the rocket exactly into the target orientation; its
length is the angle between the two quaternions, doubled. -/
theorem error_spec (o t : Quat ℝ) (ho : Quat.Unit o) (ht : Quat.Unit t) :
    (t = o.neg → orientationError o t = .error .zeroDivision) ∧
    (t ≠ o.neg → ∃ e, orientationError o t = .ok e ∧
      e.length = 2 * Real.arccos (o.q0 * t.q0 + o.q1 * t.q1 + o.q2 * t.q2 + o.q3 * t.q3) ∧
      o.mul (Quat.axisAngle e.normalize e.length) = t) := by
  have hr := Quat.rotationVector_roundtrip (o.conj.mul t) (ho.conj.mul ht)
  unfold orientationError
  rw [divQuat_unit ho]
  dsimp only
  refine ⟨fun h => hr.1 ((conj_mul_minus ho).2 h), fun h => ?_⟩
  obtain ⟨e, h1, h2, h3⟩ := hr.2 (fun h' => h ((conj_mul_minus ho).1 h'))
  refine ⟨e, h1, by rw [h2, conj_mul_q0], ?_⟩
  have : Quat.axisAngle e.normalize e.length = o.conj.mul t := h3
  rw [this, mul_conj_mul ho]

/-- **C73.** The error is zero exactly on target. -/
theorem error_zero_iff (o t : Quat ℝ) (ho : Quat.Unit o) (ht : Quat.Unit t) : orientationError o t = .ok 0 ↔ o = t := by
  have hs := error_spec o t ho ht
  constructor
  · intro h
    by_cases hn : t = o.neg
    · rw [hs.1 hn] at h; cases h
    · obtain ⟨e, h1, h2, h3⟩ := hs.2 hn
      have he : e = 0 := Except.ok.inj (h1.symm.trans h)
      subst he
      have hl : (0 : V3 ℝ).length = 0 := by simp [V3.length]
      rw [hl] at h3
      rw [← h3]
      apply Quat.ext4 <;> simp [Quat.mul, Quat.axisAngle]
  · rintro rfl
    have hne : o ≠ o.neg := by
      intro h
      have h0 := congrArg Quat.q0 h
      have h1 := congrArg Quat.q1 h
      have h2 := congrArg Quat.q2 h
      have h3 := congrArg Quat.q3 h
      simp only [Quat.neg] at h0 h1 h2 h3
      have hu := unit_scaled ho
      have z0 : o.q0 = 0 := by linarith
      have z1 : o.q1 = 0 := by linarith
      have z2 : o.q2 = 0 := by linarith
      have z3 : o.q3 = 0 := by linarith
      rw [z0, z1, z2, z3] at hu
      norm_num at hu
    obtain ⟨e, h1, h2, h3⟩ := hs.2 hne
    rw [unit_scaled ho, Real.arccos_one, mul_zero] at h2
    rw [h1]
    have hsq : e.x ^ 2 + e.y ^ 2 + e.z ^ 2 = 0 := by
      have := Real.sqrt_eq_zero'.1 (show Real.sqrt _ = 0 from h2)
      nlinarith [sq_nonneg e.x, sq_nonneg e.y, sq_nonneg e.z]
    congr 1
    apply V3.ext'
    · show e.x = 0; nlinarith [sq_nonneg e.x, sq_nonneg e.y, sq_nonneg e.z]
    · show e.y = 0; nlinarith [sq_nonneg e.x, sq_nonneg e.y, sq_nonneg e.z]
    · show e.z = 0; nlinarith [sq_nonneg e.x, sq_nonneg e.y, sq_nonneg e.z]

theorem rotF_neg (o : Quat ℝ) (v : V3 ℝ) : o.neg.rotF v = o.rotF v := by
  have hs : o.neg.sandwich v = o.sandwich v := by
    apply V3.ext' <;> simp only [Quat.sandwich, Quat.neg, Quat.conj, Quat.mul] <;> ring
  have hn : o.neg.nsq = o.nsq := by simp only [Quat.nsq, Quat.neg]; ring
  simp only [Quat.rotF, hs, hn]

theorem rotationVector_form (q : Quat ℝ) (h : Quat.Unit q) (h1 : q.q0 ≠ 1) (h2 : q.q0 ≠ -1) :
    q.toRotationVector = .ok ⟨q.q1 * (2 * Real.arccos q.q0) / Real.sqrt (1 - q.q0 ^ 2),
      q.q2 * (2 * Real.arccos q.q0) / Real.sqrt (1 - q.q0 ^ 2), q.q3 * (2 * Real.arccos q.q0) / Real.sqrt (1 - q.q0 ^ 2)⟩ := by
  have hm := h.q0_mem
  unfold Quat.toRotationVector
  rw [h.normalize]
  dsimp only
  rw [Quat.atan2_unit hm.1 hm.2, if_neg, if_neg]
  · rw [Real.sqrt_eq_zero']
    have a : -1 < q.q0 := lt_of_le_of_ne hm.1 (Ne.symm h2)
    have b : q.q0 < 1 := lt_of_le_of_ne hm.2 h1
    nlinarith
  · intro h0
    have := Real.arccos_eq_zero.1 (by linarith : Real.arccos q.q0 = 0)
    exact h1 (le_antisymm hm.2 this)

/-- **C73 (violated part).** A rocket that has turned once around is in the same physical orientation, but its quaternion has changed sign:
the error then points the opposite way, and both errors together make a full turn. A small error becomes one of nearly a full turn. -/
theorem turned_once_violated (o t : Quat ℝ) (ho : Quat.Unit o) (ht : Quat.Unit t) (h1 : t ≠ o) (h2 : t ≠ o.neg) :
    (∀ v, o.neg.rotF v = o.rotF v) ∧ ∃ e e' : V3 ℝ, orientationError o t = .ok e ∧ orientationError o.neg t = .ok e' ∧
      e.length + e'.length = 2 * Real.pi ∧ 0 < e.length ∧ e' = (-(e'.length / e.length)) • e := by
  refine ⟨rotF_neg o, ?_⟩
  set q := o.conj.mul t with hq
  have hu : Quat.Unit q := ho.conj.mul ht
  have hneg : o.neg.conj.mul t = q.neg := by
    rw [hq]; apply Quat.ext4 <;> simp only [Quat.conj, Quat.mul, Quat.neg] <;> ring
  have hv := hu.vec
  have a1 : q.q0 ≠ 1 := by
    intro h
    rw [h] at hv
    apply h1
    apply (conj_mul_one ho).1
    apply Quat.ext4
    · exact h
    · show q.q1 = 0; nlinarith [sq_nonneg q.q1, sq_nonneg q.q2, sq_nonneg q.q3]
    · show q.q2 = 0; nlinarith [sq_nonneg q.q1, sq_nonneg q.q2, sq_nonneg q.q3]
    · show q.q3 = 0; nlinarith [sq_nonneg q.q1, sq_nonneg q.q2, sq_nonneg q.q3]
  have a2 : q.q0 ≠ -1 := by
    intro h
    rw [h] at hv
    apply h2
    apply (conj_mul_minus ho).1
    apply Quat.ext4
    · exact h
    · show q.q1 = 0; nlinarith [sq_nonneg q.q1, sq_nonneg q.q2, sq_nonneg q.q3]
    · show q.q2 = 0; nlinarith [sq_nonneg q.q1, sq_nonneg q.q2, sq_nonneg q.q3]
    · show q.q3 = 0; nlinarith [sq_nonneg q.q1, sq_nonneg q.q2, sq_nonneg q.q3]
  have hm := hu.q0_mem
  have f1 := rotationVector_form q hu a1 a2
  have f2 := rotationVector_form q.neg hu.neg (by simp only [Quat.neg]; intro h; apply a2; linarith)
    (by simp only [Quat.neg]; intro h; apply a1; linarith)
  obtain ⟨e, g1, g2, _⟩ := (error_spec o t ho ht).2 h2
  have h2' : t ≠ o.neg.neg := by
    intro h; apply h1; rw [h]; apply Quat.ext4 <;> simp [Quat.neg]
  obtain ⟨e', g1', g2', _⟩ := (error_spec o.neg t ho.neg ht).2 h2'
  have k1 : orientationError o t = q.toRotationVector := by unfold orientationError; rw [divQuat_unit ho]
  have k2 : orientationError o.neg t = q.neg.toRotationVector := by unfold orientationError; rw [divQuat_unit ho.neg, hneg]
  have d1 : o.q0 * t.q0 + o.q1 * t.q1 + o.q2 * t.q2 + o.q3 * t.q3 = q.q0 := by rw [hq, conj_mul_q0]
  have d2 : o.neg.q0 * t.q0 + o.neg.q1 * t.q1 + o.neg.q2 * t.q2 + o.neg.q3 * t.q3 = -q.q0 := by
    rw [← d1]; simp only [Quat.neg]; ring
  rw [d1] at g2
  rw [d2, Real.arccos_neg] at g2'
  have hpos : 0 < Real.arccos q.q0 := Real.arccos_pos.2 (lt_of_le_of_ne hm.2 a1)
  refine ⟨e, e', g1, g1', by rw [g2, g2']; ring, by rw [g2]; linarith, ?_⟩
  have e1 := Except.ok.inj (g1.symm.trans (k1.trans f1))
  have e2 := Except.ok.inj (g1'.symm.trans (k2.trans f2))
  simp only [Quat.neg, Real.arccos_neg, neg_sq] at e2
  rw [g2, g2']
  have hs : Real.sqrt (1 - q.q0 ^ 2) ≠ 0 := by
    rw [Ne, Real.sqrt_eq_zero']
    have a : -1 < q.q0 := lt_of_le_of_ne hm.1 (Ne.symm a2)
    have b : q.q0 < 1 := lt_of_le_of_ne hm.2 a1
    nlinarith
  rw [e1, e2]
  apply V3.ext' <;> simp <;> field_simp

/-- **C73 (violated part).** Exactly on target but after an odd number of turns, the control loop raises `ZeroDivisionError`. -/
theorem turned_on_target_violated (t : Quat ℝ) (ht : Quat.Unit t) :
    orientationError t.neg t = .error .zeroDivision ∧ ∀ v, t.neg.rotF v = t.rotF v := by
  exact ⟨(error_spec t.neg t ht.neg ht).1 (by apply Quat.ext4 <;> simp [Quat.neg]), rotF_neg t⟩

example : Quat.Unit ⟨3 / 5, 4 / 5, 0, 0⟩ ∧ Quat.Unit ⟨1, 0, 0, 0⟩ ∧ (⟨1, 0, 0, 0⟩ : Quat ℝ) ≠ ⟨3 / 5, 4 / 5, 0, 0⟩ ∧
    (⟨1, 0, 0, 0⟩ : Quat ℝ) ≠ (⟨3 / 5, 4 / 5, 0, 0⟩ : Quat ℝ).neg := by
  refine ⟨by norm_num [Quat.Unit, Quat.nsq], by norm_num [Quat.Unit, Quat.nsq], ?_, ?_⟩
  · intro h; have := congrArg Quat.q1 h; norm_num at this
  · intro h; have := congrArg Quat.q1 h; norm_num [Quat.neg] at this

/-! ## The desired moments -/

/-- what one PID controller without a limit does: its output and its new state -/
def Steps (c c' : PID ℝ) (e dt u : ℝ) : Prop :=
  dt ≠ 0 ∧ c' = ⟨c.P, c.I, c.D, e, c.integral + dt * ((e + c.lastError) / 2), none⟩ ∧
    u = c.P * e + c.I * (c.integral + dt * ((e + c.lastError) / 2)) + c.D * ((e - c.lastError) / dt)

theorem step_iff (c : PID ℝ) (hl : c.limit = none) (e dt u : ℝ) (c' : PID ℝ) : c.step e dt = .ok (u, c') ↔ Steps c c' e dt u := by
  have hr : (e + c.lastError) * dt / 2 = dt * ((e + c.lastError) / 2) := by ring
  unfold PID.step Steps
  by_cases h : dt = 0
  · simp [h]
  · rw [if_neg h, hl]
    simp only [PID.cap, hr, Except.ok.injEq, Prod.mk.injEq, ne_eq, h, not_false_eq_true, true_and]
    rw [eq_comm, and_comm, eq_comm (b := c')]

theorem vecStep_iff (a b r : PID ℝ) (ha : a.limit = none) (hb : b.limit = none) (hr : r.limit = none) (x y z dt : ℝ)
    (rs : List (ℝ × PID ℝ)) :
    vecStep [a, b, r] [x, y, z] dt = .ok rs ↔ ∃ ux uy uz a' b' r', Steps a a' x dt ux ∧ Steps b b' y dt uy ∧ Steps r r' z dt uz ∧
      rs = [(ux, a'), (uy, b'), (uz, r')] := by
  rw [vecStep_spec]
  simp only [List.zip_cons_cons, List.zip_nil_left, List.length_cons, List.length_nil, and_true]
  constructor
  · intro h
    rcases h with _ | ⟨h1, h⟩
    rcases h with _ | ⟨h2, h⟩
    rcases h with _ | ⟨h3, h⟩
    cases h
    rename_i p1 p2 p3
    exact ⟨p1.1, p2.1, p3.1, p1.2, p2.2, p3.2, (step_iff a ha _ _ _ _).1 h1, (step_iff b hb _ _ _ _).1 h2,
      (step_iff r hr _ _ _ _).1 h3, rfl⟩
  · rintro ⟨ux, uy, uz, a', b', r', h1, h2, h3, rfl⟩
    exact .cons ((step_iff a ha _ _ _ _).2 h1) (.cons ((step_iff b hb _ _ _ _).2 h2) (.cons ((step_iff r hr _ _ _ _).2 h3) .nil))

/-- **C73.** Constant gains: every axis has its own PID controller, fed with that component of the error. -/
theorem moments_constant (a b r : PID ℝ) (ha : a.limit = none) (hb : b.limit = none) (hr : r.limit = none)
    (value : Rocket.AeroKey → Except PyErr ℝ) (o t : Quat ℝ) (dt : ℝ) (ms : List ℝ) (m : MomentControl) :
    desiredMoments (.constant [a, b, r]) value o t dt = .ok (ms, m) ↔
      ∃ e ux uy uz a' b' r', orientationError o t = .ok e ∧ Steps a a' e.x dt ux ∧ Steps b b' e.y dt uy ∧ Steps r r' e.z dt uz ∧
        ms = [ux, uy, uz] ∧ m = .constant [a', b', r'] := by
  unfold desiredMoments
  simp only [bind_ok_iff, vecStep_iff a b r ha hb hr]
  constructor
  · rintro ⟨e, h1, rs, ⟨ux, uy, uz, a', b', r', h2, h3, h4, rfl⟩, h5⟩
    simp only [List.map_cons, List.map_nil, Except.ok.injEq, Prod.mk.injEq] at h5
    exact ⟨e, ux, uy, uz, a', b', r', h1, h2, h3, h4, h5.1.symm, h5.2.symm⟩
  · rintro ⟨e, ux, uy, uz, a', b', r', h1, h2, h3, h4, rfl, rfl⟩
    exact ⟨e, h1, _, ⟨ux, uy, uz, a', b', r', h2, h3, h4, rfl⟩, rfl⟩

theorem parameters_iff (value : Rocket.AeroKey → Except PyErr ℝ) (ks : List Rocket.AeroKey) (xs : List ℝ) :
    parameters value ks = .ok xs ↔ List.Forall₂ (fun k x => value k = .ok x) ks xs := by
  induction ks generalizing xs with
  | nil => simp [parameters, eq_comm]
  | cons k ks ih =>
    simp only [parameters, bind_ok_iff, ih]
    constructor
    · rintro ⟨x, h1, ys, h2, h3⟩
      rw [← Except.ok.inj h3]
      exact .cons h1 h2
    · intro h
      cases h with
      | cons h1 h2 => exact ⟨_, h1, _, h2, rfl⟩

theorem setGains_iff (a b r : PID ℝ) (g : List ℝ) (axes : List (PID ℝ)) :
    setGains [a, b, r] g = .ok axes ↔ ∃ pxy ixy dxy pz iz dz, g = [pxy, ixy, dxy, pz, iz, dz] ∧
      axes = [⟨pxy, ixy, dxy, a.lastError, a.integral, none⟩, ⟨pxy, ixy, dxy, b.lastError, b.integral, none⟩,
        ⟨pz, iz, dz, r.lastError, r.integral, none⟩] := by
  unfold setGains
  constructor
  · intro h
    split at h
    · rename_i pxy ixy dxy pz iz dz a1 b1 r1 h1
      injection h1 with e1 h1; injection h1 with e2 h1; injection h1 with e3
      subst e1 e2 e3
      exact ⟨pxy, ixy, dxy, pz, iz, dz, rfl, (Except.ok.inj h).symm⟩
    · cases h
  · rintro ⟨pxy, ixy, dxy, pz, iz, dz, rfl, rfl⟩
    rfl

/-- **C73.** Scheduled gains: at every loop the six gains are looked up with the present values of the scheduling parameters; the first
three serve both transverse axes, the last three the roll axis. The integrals and last errors are kept. -/
theorem moments_scheduled (a b r : PID ℝ) (keys : List Rocket.AeroKey) (gains : Lookup)
    (value : Rocket.AeroKey → Except PyErr ℝ) (o t : Quat ℝ) (dt : ℝ) (ms : List ℝ) (m : MomentControl) :
    desiredMoments (.scheduled keys gains [a, b, r]) value o t dt = .ok (ms, m) ↔
      ∃ e ks pxy ixy dxy pz iz dz ux uy uz a' b' r', orientationError o t = .ok e ∧
        List.Forall₂ (fun k x => value k = .ok x) keys ks ∧ gains ks = .ok [pxy, ixy, dxy, pz, iz, dz] ∧
        Steps ⟨pxy, ixy, dxy, a.lastError, a.integral, none⟩ a' e.x dt ux ∧
        Steps ⟨pxy, ixy, dxy, b.lastError, b.integral, none⟩ b' e.y dt uy ∧
        Steps ⟨pz, iz, dz, r.lastError, r.integral, none⟩ r' e.z dt uz ∧
        ms = [ux, uy, uz] ∧ m = .scheduled keys gains [a', b', r'] := by
  unfold desiredMoments
  simp only [bind_ok_iff, parameters_iff, setGains_iff]
  constructor
  · rintro ⟨e, h1, ks, h2, g, h3, axes, ⟨pxy, ixy, dxy, pz, iz, dz, rfl, rfl⟩, rs, h4, h5⟩
    rw [vecStep_iff _ _ _ rfl rfl rfl] at h4
    obtain ⟨ux, uy, uz, a', b', r', k1, k2, k3, rfl⟩ := h4
    simp only [List.map_cons, List.map_nil, Except.ok.injEq, Prod.mk.injEq] at h5
    exact ⟨e, ks, pxy, ixy, dxy, pz, iz, dz, ux, uy, uz, a', b', r', h1, h2, h3, k1, k2, k3, h5.1.symm, h5.2.symm⟩
  · rintro ⟨e, ks, pxy, ixy, dxy, pz, iz, dz, ux, uy, uz, a', b', r', h1, h2, h3, k1, k2, k3, rfl, rfl⟩
    exact ⟨e, h1, ks, h2, _, h3, _, ⟨pxy, ixy, dxy, pz, iz, dz, rfl, rfl⟩, _,
      (vecStep_iff _ _ _ rfl rfl rfl _ _ _ _ _).2 ⟨ux, uy, uz, a', b', r', k1, k2, k3, rfl⟩, rfl⟩

/-- **C73.** On target from the start, no moment is asked for. -/
theorem moments_on_target (pxy ixy dxy pz iz dz : ℝ) (value : Rocket.AeroKey → Except PyErr ℝ) (o : Quat ℝ) (ho : Quat.Unit o) (dt : ℝ)
    (hdt : dt ≠ 0) :
    ∃ m, desiredMoments (.constant [⟨pxy, ixy, dxy, 0, 0, none⟩, ⟨pxy, ixy, dxy, 0, 0, none⟩, ⟨pz, iz, dz, 0, 0, none⟩]) value o o dt =
      .ok ([0, 0, 0], m) := by
  have h := (error_zero_iff o o ho ho).2 rfl
  refine ⟨_, (moments_constant _ _ _ rfl rfl rfl _ _ _ _ _ _).2 ⟨0, 0, 0, 0, _, _, _, h, ⟨hdt, rfl, ?_⟩, ⟨hdt, rfl, ?_⟩, ⟨hdt, rfl, ?_⟩, rfl, rfl⟩⟩ <;>
    simp

/-! ## Moving the actuators -/

theorem setAll_iff (t : ℝ) (as : List Actuator) (xs : List ℝ) (as' : List Actuator) :
    setAll t as xs = .ok as' ↔ as.length ≤ xs.length ∧
      List.Forall₂ (fun (p : Actuator × ℝ) a' => p.1.setTarget p.2 t = .ok a') (as.zip xs) as' := by
  induction as generalizing xs as' with
  | nil => simp [setAll, eq_comm]
  | cons a as ih =>
    cases xs with
    | nil => simp [setAll]
    | cons x xs =>
      simp only [setAll, bind_ok_iff, ih, List.length_cons, Nat.add_le_add_iff_right, List.zip_cons_cons]
      constructor
      · rintro ⟨a', h1, bs, ⟨h2, h3⟩, h4⟩
        rw [← Except.ok.inj h4]
        exact ⟨h2, .cons h1 h3⟩
      · rintro ⟨h2, h⟩
        cases h with
        | cons h1 h3 => exact ⟨_, h1, _, ⟨h2, h3⟩, rfl⟩

/-- **C73.** The deflections asked for are those of the deflection table at the present parameters and the desired moments, in this
order; every actuator gets the one of its number. -/
theorem command_iff (d d' : Driven) (value : Rocket.AeroKey → Except PyErr ℝ) (ms targets : List ℝ) (t : ℝ) :
    d.command value ms t = .ok (targets, d') ↔
      ∃ ks, List.Forall₂ (fun k x => value k = .ok x) d.keys ks ∧ d.table (ks ++ ms) = .ok targets ∧
        d.actuators.length ≤ targets.length ∧
        List.Forall₂ (fun (p : Actuator × ℝ) a' => p.1.setTarget p.2 t = .ok a') (d.actuators.zip targets) d'.actuators ∧
        d'.part = d.part ∧ d'.keys = d.keys ∧ d'.table = d.table := by
  unfold Driven.command
  simp only [bind_ok_iff, parameters_iff, setAll_iff]
  constructor
  · rintro ⟨ks, h1, ts, h2, as, ⟨h3, h4⟩, h5⟩
    simp only [Except.ok.injEq, Prod.mk.injEq] at h5
    obtain ⟨rfl, rfl⟩ := h5
    exact ⟨ks, h1, h2, h3, h4, rfl, rfl, rfl⟩
  · rintro ⟨ks, h1, h2, h3, h4, h5, h6, h7⟩
    refine ⟨ks, h1, targets, h2, d'.actuators, ⟨h3, h4⟩, ?_⟩
    cases d'; cases d
    simp only at h5 h6 h7
    subst h5 h6 h7
    rfl

/-- **C73.** A command does not move the actuator at once: the deflection at the time of the command stays what it was, and from then on it
approaches the new target, limited to the mechanical range. -/
theorem setTarget_spec (a : Actuator) (x t : ℝ) (hτ : 0 < a.τ) (ht : a.lastTime ≤ t) :
    ∃ a', a.setTarget x t = .ok a' ∧ a'.deflection t = a.deflection t ∧ a'.τ = a.τ ∧ a'.lastTime = t ∧ a'.maxD = a.maxD ∧
      a'.minD = a.minD ∧ (Within a.maxD a.minD x → a'.target = x) ∧
      ((∀ M m, a.maxD = some M → a.minD = some m → m ≤ M) → Within a.maxD a.minD a'.target) := by
  have e1 : a.deflection t = _ := getPosition_ok a.τ t a.lastTime a.last a.target hτ.ne' ht
  refine ⟨{ a with last := _, lastTime := t, target := limitTarget a.maxD a.minD x }, by unfold Actuator.setTarget; rw [e1], ?_, rfl,
    rfl, rfl, rfl, ?_, ?_⟩
  · unfold Actuator.deflection
    dsimp only
    rw [getPosition_ok _ _ _ _ _ hτ.ne' le_rfl, getPosition_ok _ _ _ _ _ hτ.ne' ht]
    simp
  · rintro ⟨h1, h2⟩
    show limitTarget a.maxD a.minD x = x
    unfold limitTarget
    cases hM : a.maxD with
    | none => cases hm : a.minD with
      | none => rfl
      | some m => exact max_eq_left (h2 m hm)
    | some M => cases hm : a.minD with
      | none => exact min_eq_left (h1 M hM)
      | some m =>
        show max (min x M) m = x
        rw [min_eq_left (h1 M hM), max_eq_left (h2 m hm)]
  · intro h
    exact (limitTarget_within _ _ x h).1

theorem deflectionsAt_iff (t : ℝ) (as : List Actuator) (n : Nat) (ds : List ℝ) :
    deflectionsAt t as n = .ok ds ↔ n ≤ as.length ∧ List.Forall₂ (fun (a : Actuator) x => a.deflection t = .ok x) (as.take n) ds := by
  induction n generalizing as ds with
  | zero => simp [deflectionsAt, eq_comm]
  | succ n ih =>
    cases as with
    | nil => simp [deflectionsAt]
    | cons a as =>
      simp only [deflectionsAt, bind_ok_iff, ih, List.length_cons, Nat.add_le_add_iff_right, List.take_succ_cons]
      constructor
      · rintro ⟨a', h1, bs, ⟨h2, h3⟩, h4⟩
        rw [← Except.ok.inj h4]
        exact ⟨h2, .cons h1 h3⟩
      · rintro ⟨h2, h⟩
        cases h with
        | cons h1 h3 => exact ⟨_, h1, _, ⟨h2, h3⟩, rfl⟩

/-! ## The loop -/

/-- **C73.** Before its period is over (up to 1e-10 seconds) a call of the control loop changes nothing and logs nothing. -/
theorem run_waits (c : Control) (t : ℝ) (s : RBState) (value : Rocket.AeroKey → Except PyErr ℝ)
    (h : t - c.last + 1 / 10 ^ 10 < c.period) : c.run t s value = .ok ⟨false, none, c, s⟩ := by
  unfold Control.run
  rw [if_neg (not_le.2 h)]

/-- **C73.** Otherwise, with a PID controller: the error is that of the present orientation, the time difference is the time since the loop
ran last, and the moments are passed to the actuators. The rocket's state is not touched. The log gets the time, the error, the targets
asked for and the deflections at that time. -/
theorem run_iff (c : Control) (t : ℝ) (s : RBState) (value : Rocket.AeroKey → Except PyErr ℝ) (r : LoopResult)
    (hp : c.period ≤ t - c.last + 1 / 10 ^ 10) (hm : c.moment ≠ .ideal) :
    c.run t s value = .ok r ↔ ∃ ms m d d' targets e, desiredMoments c.moment value s.ori c.target (t - c.last) = .ok (ms, m) ∧
      c.driven = some d ∧ d.command value ms t = .ok (targets, d') ∧ orientationError s.ori c.target = .ok e ∧ r.ran = true ∧
      r.state = s ∧ r.control = { c with moment := m, driven := some d', last := t } ∧
      (c.logging = true → targets.length ≤ d'.actuators.length ∧ ∃ defl,
        List.Forall₂ (fun (a : Actuator) x => a.deflection t = .ok x) (d'.actuators.take targets.length) defl ∧
        r.row = some ⟨t, e, targets, defl⟩) ∧
      (c.logging = false → r.row = none) := by
  unfold Control.run
  rw [if_pos hp]
  have key : ∀ (x : Except PyErr LoopResult), x = (do
      let (moments, m) ← desiredMoments c.moment value s.ori c.target (t - c.last)
      match c.driven with
      | none => .error .attributeError
      | some d =>
        let (targets, d') ← d.command value moments t
        let e ← orientationError s.ori c.target
        let c' : Control := { c with moment := m, driven := some d', last := t }
        if c.logging then
          let defl ← deflectionsAt t d'.actuators targets.length
          .ok ⟨true, some ⟨t, e, targets, defl⟩, c', s⟩
        else .ok ⟨true, none, c', s⟩) → (x = .ok r ↔ ∃ ms m d d' targets e,
      desiredMoments c.moment value s.ori c.target (t - c.last) = .ok (ms, m) ∧
      c.driven = some d ∧ d.command value ms t = .ok (targets, d') ∧ orientationError s.ori c.target = .ok e ∧ r.ran = true ∧
      r.state = s ∧ r.control = { c with moment := m, driven := some d', last := t } ∧
      (c.logging = true → targets.length ≤ d'.actuators.length ∧ ∃ defl,
        List.Forall₂ (fun (a : Actuator) x => a.deflection t = .ok x) (d'.actuators.take targets.length) defl ∧
        r.row = some ⟨t, e, targets, defl⟩) ∧
      (c.logging = false → r.row = none)) := by
    intro x hx
    rw [hx, bind_ok_iff]
    constructor
    · rintro ⟨⟨ms, m⟩, h1, h2⟩
      dsimp only at h2
      cases hd : c.driven with
      | none => rw [hd] at h2; cases h2
      | some d =>
        rw [hd] at h2
        dsimp only at h2
        rw [bind_ok_iff] at h2
        obtain ⟨⟨targets, d'⟩, h3, h4⟩ := h2
        dsimp only at h4
        rw [bind_ok_iff] at h4
        obtain ⟨e, h5, h6⟩ := h4
        refine ⟨ms, m, d, d', targets, e, h1, rfl, h3, h5, ?_⟩
        cases hl : c.logging with
        | true =>
          rw [if_pos hl, bind_ok_iff] at h6
          obtain ⟨defl, h7, h8⟩ := h6
          rw [deflectionsAt_iff] at h7
          rw [← Except.ok.inj h8]
          exact ⟨rfl, rfl, by simp [hl], fun _ => ⟨h7.1, defl, h7.2, rfl⟩, fun h => by cases h⟩
        | false =>
          rw [if_neg (by rw [hl]; decide)] at h6
          rw [← Except.ok.inj h6]
          exact ⟨rfl, rfl, by simp [hl], fun h => (by cases h), fun _ => rfl⟩
    · rintro ⟨ms, m, d, d', targets, e, h1, hd, h3, h5, k1, k2, k3, k4, k5⟩
      refine ⟨⟨ms, m⟩, h1, ?_⟩
      dsimp only
      rw [hd]
      dsimp only
      rw [bind_ok_iff]
      refine ⟨⟨targets, d'⟩, h3, ?_⟩
      dsimp only
      rw [bind_ok_iff]
      refine ⟨e, h5, ?_⟩
      obtain ⟨ran, row, control, state⟩ := r
      simp only at k1 k2 k3 k4 k5
      subst k1 k2 k3
      cases hl : c.logging with
      | true =>
        obtain ⟨k6, defl, k7, k8⟩ := k4 hl
        subst k8
        rw [if_pos (by rfl), bind_ok_iff]
        exact ⟨defl, (deflectionsAt_iff _ _ _ _).2 ⟨k6, k7⟩, by simp [hl]⟩
      | false =>
        rw [k5 hl, if_neg (by decide)]
  cases hc : c.moment with
  | ideal => exact absurd hc hm
  | constant axes => rw [hc] at key; exact key _ rfl
  | scheduled keys gains axes => rw [hc] at key; exact key _ rfl

/-- **C73.** The ideal controller puts the rocket exactly into the target orientation and stops its rotation whenever it is called;
position and velocity stay. The logged errors are zero. -/
theorem run_ideal (c : Control) (t : ℝ) (s : RBState) (value : Rocket.AeroKey → Except PyErr ℝ) (hm : c.moment = .ideal)
    (hp : c.period ≤ t - c.last + 1 / 10 ^ 10) (ht : Quat.Unit c.target) :
    c.run t s value = .ok ⟨true, if c.logging then some ⟨t, 0, [], []⟩ else none, { c with last := t },
      ⟨s.pos, s.vel, c.target, 0⟩⟩ := by
  unfold Control.run
  rw [if_pos hp, hm]
  dsimp only
  rw [(error_zero_iff c.target c.target ht ht).2 rfl]
  rfl

/-- a PID control system that can run: three controllers without limits, actuators with positive time constants that were last commanded
before `t` -/
structure Ready (c : Control) (t : ℝ) (a b r : PID ℝ) (d : Driven) : Prop where
  moment : c.moment = .constant [a, b, r]
  limits : a.limit = none ∧ b.limit = none ∧ r.limit = none
  driven : c.driven = some d
  times : ∀ x ∈ d.actuators, 0 < x.τ ∧ x.lastTime ≤ t

theorem setAll_ready (t : ℝ) (as : List Actuator) (xs : List ℝ) (h : ∀ x ∈ as, 0 < x.τ ∧ x.lastTime ≤ t)
    (hl : as.length ≤ xs.length) :
    ∃ as', List.Forall₂ (fun (p : Actuator × ℝ) a' => p.1.setTarget p.2 t = .ok a') (as.zip xs) as' ∧
      as'.length = as.length ∧ (∀ x ∈ as', 0 < x.τ ∧ x.lastTime = t) ∧
      List.Forall₂ (fun (a a' : Actuator) => a'.deflection t = a.deflection t) as as' := by
  induction as generalizing xs with
  | nil => exact ⟨[], by simp⟩
  | cons a as ih =>
    cases xs with
    | nil => simp at hl
    | cons x xs =>
      obtain ⟨as', h1, h2, h3, h4⟩ := ih xs (fun y hy => h y (List.mem_cons_of_mem _ hy)) (by simpa using hl)
      have ha := h a List.mem_cons_self
      obtain ⟨a', g1, g2, g3, g4, _⟩ := setTarget_spec a x t ha.1 ha.2
      refine ⟨a' :: as', .cons g1 h1, by simp [h2], ?_, .cons g2 h4⟩
      intro y hy
      rcases List.mem_cons.1 hy with rfl | hy
      · exact ⟨by rw [g3]; exact ha.1, g4⟩
      · exact h3 y hy

theorem forall2_total {α β : Type} {R : α → β → Prop} (as : List α) (h : ∀ a ∈ as, ∃ b, R a b) : ∃ bs, List.Forall₂ R as bs := by
  induction as with
  | nil => exact ⟨[], .nil⟩
  | cons a as ih =>
    obtain ⟨b, hb⟩ := h a List.mem_cons_self
    obtain ⟨bs, hbs⟩ := ih fun x hx => h x (List.mem_cons_of_mem _ hx)
    exact ⟨b :: bs, .cons hb hbs⟩

/-- **C73.** A PID control system keeps running: as long as the rocket is not in the opposite quaternion of the target, the parameters have
values and the table gives one deflection per actuator, a due loop at a later time succeeds, leaves the state alone, moves no actuator at
that moment, and leaves the system ready for all later times. -/
theorem run_ready (c : Control) (t : ℝ) (s : RBState) (value : Rocket.AeroKey → Except PyErr ℝ) (a b r : PID ℝ) (d : Driven)
    (hr : Ready c t a b r d) (hp : c.period ≤ t - c.last + 1 / 10 ^ 10) (hlast : c.last < t) (ho : Quat.Unit s.ori)
    (ht : Quat.Unit c.target) (hne : c.target ≠ s.ori.neg) (hv : ∀ k ∈ d.keys, ∃ x, value k = .ok x)
    (htab : ∀ ks, ∃ ts, d.table ks = .ok ts ∧ ts.length = d.actuators.length) :
    ∃ res a' b' r' d', c.run t s value = .ok res ∧ res.ran = true ∧ res.state = s ∧ res.control.last = t ∧
      res.control.target = c.target ∧ res.control.period = c.period ∧ (∀ t' ≥ t, Ready res.control t' a' b' r' d') ∧
      List.Forall₂ (fun (x x' : Actuator) => x'.deflection t = x.deflection t) d.actuators d'.actuators ∧
      d'.keys = d.keys ∧ d'.table = d.table ∧ d'.part = d.part := by
  obtain ⟨e, he, -⟩ := (error_spec s.ori c.target ho ht).2 hne
  obtain ⟨h1, h2, h3, h4⟩ := hr
  have hdt : t - c.last ≠ 0 := (sub_pos.2 hlast).ne'
  obtain ⟨ks, hks⟩ := forall2_total (R := fun k x => value k = .ok x) d.keys hv
  have hmom := (moments_constant a b r h2.1 h2.2.1 h2.2.2 value s.ori c.target (t - c.last) _ _).2
    ⟨e, _, _, _, _, _, _, he, ⟨hdt, rfl, rfl⟩, ⟨hdt, rfl, rfl⟩, ⟨hdt, rfl, rfl⟩, rfl, rfl⟩
  rw [← h1] at hmom
  obtain ⟨ts, hts, hlen⟩ := htab (ks ++ _)
  obtain ⟨as', g1, g2, g3, g4⟩ := setAll_ready t d.actuators ts h4 hlen.ge
  have hcmd := (command_iff d { d with actuators := as' } value _ ts t).2 ⟨ks, hks, hts, hlen.ge, g1, rfl, rfl, rfl⟩
  have hdefl : ∃ defl, List.Forall₂ (fun (a : Actuator) x => a.deflection t = .ok x) (as'.take ts.length) defl := by
    apply forall2_total
    intro x hx
    have := g3 x (List.mem_of_mem_take hx)
    exact ⟨_, getPosition_ok x.τ t x.lastTime x.last x.target this.1.ne' this.2.le⟩
  obtain ⟨defl, hdefl⟩ := hdefl
  have hrun := (run_iff c t s value
    ⟨true, if c.logging then some ⟨t, e, ts, defl⟩ else none, { c with moment := _, driven := some _, last := t }, s⟩ hp
    (by rw [h1]; simp)).2
    ⟨_, _, d, _, ts, e, hmom, h3, hcmd, he, rfl, rfl, rfl, fun hl => ⟨by simp [g2, hlen], defl, hdefl, by simp [hl]⟩,
      fun hl => by simp [hl]⟩
  refine ⟨_, _, _, _, _, hrun, rfl, rfl, rfl, rfl, rfl, fun t' ht' => ⟨rfl, ⟨rfl, rfl, rfl⟩, rfl, fun x hx => ?_⟩, g4, rfl, rfl, rfl⟩
  have := g3 x hx
  exact ⟨this.1, by rw [this.2]; exact ht'⟩

/-- **C73 (violated part).** With an update rate of 0 the loop is due at the very time the control system was created; the time difference is
0 then, and the derivative of the error is divided by it: no finite moments result. -/
theorem first_loop_violated (c : Control) (s : RBState) (value : Rocket.AeroKey → Except PyErr ℝ) (a b r : PID ℝ) (d : Driven)
    (hr : Ready c c.last a b r d) (hp : c.period = 0) (ho : Quat.Unit s.ori) (ht : Quat.Unit c.target) (res : LoopResult) :
    c.run c.last s value ≠ .ok res := by
  intro h
  rw [run_iff c c.last s value res (by rw [hp]; norm_num) (by rw [hr.moment]; simp)] at h
  obtain ⟨ms, m, _, _, _, _, h1, _⟩ := h
  rw [hr.moment, moments_constant a b r hr.limits.1 hr.limits.2.1 hr.limits.2.2] at h1
  obtain ⟨e, _, _, _, _, _, _, _, h2, _⟩ := h1
  exact h2.1 (sub_self _)

/-- **C73.** Under the main parachute the control system is not run; before that it is. -/
theorem runControl_iff (c : Option Control) (underChute : Bool) (t : ℝ) (s : RBState) (value : Rocket.AeroKey → Except PyErr ℝ)
    (c' : Option Control) (s' : RBState) :
    runControl c underChute t s value = .ok (c', s') ↔
      (c = none ∧ c' = none ∧ s' = s) ∨ (c ≠ none ∧ underChute = true ∧ c' = c ∧ s' = s) ∨
        (underChute = false ∧ ∃ c0 r, c = some c0 ∧ c0.run t s value = .ok r ∧ c' = some r.control ∧ s' = r.state) := by
  unfold runControl
  cases c with
  | none =>
    simp only [Except.ok.injEq, Prod.mk.injEq, true_and, ne_eq, not_true_eq_false, false_and, reduceCtorEq, exists_false, and_false,
      or_false]
    rw [eq_comm, eq_comm (a := s)]
  | some c =>
    cases underChute with
    | true =>
      simp only [if_true, Except.ok.injEq, Prod.mk.injEq, reduceCtorEq, false_and, ne_eq, not_false_eq_true, true_and, or_false,
        false_or]
      rw [eq_comm, eq_comm (a := s)]
    | false =>
      simp only [Bool.false_eq_true, if_false, reduceCtorEq, false_and, and_false, false_or, true_and, Option.some.injEq]
      cases h : c.run t s value with
      | error e =>
        simp only [reduceCtorEq, false_iff, not_exists, not_and]
        rintro _ r rfl h'
        rw [h] at h'; cases h'
      | ok r =>
        simp only [Except.ok.injEq, Prod.mk.injEq]
        constructor
        · rintro ⟨h1, h2⟩; exact ⟨c, r, rfl, h, h1.symm, h2.symm⟩
        · rintro ⟨_, r', rfl, h', h1, h2⟩
          rw [h] at h'
          cases h'
          exact ⟨h1.symm, h2.symm⟩

/-! ## Over a turning earth -/

/-- **C73 (violated part).** The target is a direction in the frame of the launch tower, but over a turning earth it is compared with an
orientation in the global frame. With the desired flight direction straight up, the ideal controller turns the rocket parallel to the
earth's axis: the cosine of its angle to the local vertical is the sine of the latitude. -/
theorem launch_frame_violated (E : Env) (he : E.earth = roundEarth) (s g : RBState) (hg : E.initialToGlobal s = .ok g)
    (h1 : -90 ≤ E.lat) (h2 : E.lat ≤ 90) (h3 : -Sphere.radius < s.pos.z + E.elevation) (c : Control) (t : ℝ)
    (value : Rocket.AeroKey → Except PyErr ℝ) (hc : stabilizer ⟨0, 0, 1⟩ = .ok c.target) (hm : c.moment = .ideal)
    (hp : c.period ≤ t - c.last + 1 / 10 ^ 10) :
    ∃ q r, E.earth.enu g.pos = .ok q ∧ c.run t g value = .ok r ∧ r.state.ori.rotF ⟨0, 0, 1⟩ = ⟨0, 0, 1⟩ ∧
      V3.dot (q.rotF ⟨0, 0, 1⟩) (r.state.ori.rotF ⟨0, 0, 1⟩) = Real.sin (radians E.lat) := by
  have hn : (⟨0, 0, 1⟩ : V3 ℝ).normalize = ⟨0, 0, 1⟩ := by
    simp [V3.normalize, V3.length]
  have hone : c.target = ⟨1, 0, 0, 0⟩ := by
    have h0 : (⟨0, 0, 1⟩ : V3 ℝ) ≠ 0 := by intro h; have := congrArg V3.z h; simp at this
    have := (stabilizer_spec ⟨0, 0, 1⟩).2.2 h0 (by rw [hn]; norm_num)
    exact Except.ok.inj (hc.symm.trans this)
  have hu : Quat.Unit c.target := by rw [hone]; norm_num [Quat.Unit, Quat.nsq]
  have hrun := run_ideal c t g value hm hp hu
  have hrot : (⟨1, 0, 0, 0⟩ : Quat ℝ).rotF ⟨0, 0, 1⟩ = ⟨0, 0, 1⟩ := by
    apply V3.ext' <;> simp [Quat.rotF, Quat.sandwich, Quat.mul, Quat.conj, Quat.nsq]
  have hpos : g.pos = Sphere.geodeticToCartesian E.lat E.lon (s.pos.z + E.elevation) 0 := by
    unfold Env.initialToGlobal at hg
    rw [he] at hg
    obtain ⟨_, _, _, _, _, _, _, h, _⟩ := toGlobal_turning (Or.inl rfl) hg
    have := h rfl
    rw [this]
    split_ifs <;> rfl
  refine ⟨Sphere.enuRotation g.pos, _, by rw [he]; rfl, hrun, ?_, ?_⟩
  · show c.target.rotF _ = _
    rw [hone, hrot]
  · show V3.dot _ (c.target.rotF _) = _
    rw [hone, hrot]
    have hlat := (Sphere.sphere_geodetic_roundtrip E.lat E.lon (s.pos.z + E.elevation) 0 h1 h2 h3).1
    unfold Sphere.enuRotation
    rw [hpos]
    simp only [Sphere.enuOf_rotF, V3.dot]
    rw [hlat]
    ring

/-! ## Finding the controlled component -/

theorem findIn_read (path : Str) (ps : List Part) (h : ∀ p ∈ ps, p.path ≠ none) :
    findIn path ps = .ok (ps.find? fun p => decide (p.path = some path)) := by
  induction ps with
  | nil => rfl
  | cons p ps ih =>
    unfold findIn
    cases hp : p.path with
    | none => exact absurd hp (h p List.mem_cons_self)
    | some q =>
      dsimp only
      by_cases hq : q = path
      · rw [if_pos hq, List.find?_cons_of_pos (by simp [hp, hq])]
      · rw [if_neg hq, List.find?_cons_of_neg (by simp [hp, hq]), ih fun x hx => h x (List.mem_cons_of_mem _ hx)]

/-- the only component whose dictionary has this path -/
def OnlyOne (path : Str) (stages : List (List Part)) : Prop :=
  ∀ p ∈ stages.flatten, ∀ q ∈ stages.flatten, p.path = some path → q.path = some path → p = q

theorem findControlled_acc (path : Str) (found : Option Part) (stages : List (List Part)) (h : ∀ p ∈ stages.flatten, p.path ≠ none)
    (hu : OnlyOne path stages) (hf : ∀ p, found = some p → ∀ q ∈ stages.flatten, q.path ≠ some path) (r : Option Part) :
    findControlled path found stages = .ok r ↔
      (∃ p ∈ stages.flatten, p.path = some path ∧ r = some p) ∨ ((∀ p ∈ stages.flatten, p.path ≠ some path) ∧ r = found) := by
  induction stages generalizing found with
  | nil => simp [findControlled, eq_comm]
  | cons st rest ih =>
    simp only [List.flatten_cons, List.mem_append] at h hf ⊢
    have hu' : OnlyOne path rest := fun p hp q hq => hu p (by simp only [List.flatten_cons, List.mem_append]; exact .inr hp) q
      (by simp only [List.flatten_cons, List.mem_append]; exact .inr hq)
    unfold findControlled
    rw [findIn_read path st fun p hp => h p (.inl hp)]
    dsimp only
    cases hfind : st.find? (fun p => decide (p.path = some path)) with
    | none =>
      have hno : ∀ p ∈ st, p.path ≠ some path := by
        intro p hp hpp
        have := List.find?_eq_none.1 hfind p hp
        exact this (by simp [hpp])
      show findControlled path found rest = _ ↔ _
      rw [ih found (fun p hp => h p (.inr hp)) hu' fun p hp q hq => hf p hp q (.inr hq)]
      constructor
      · rintro (⟨p, h1, h2⟩ | ⟨h1, h2⟩)
        · exact .inl ⟨p, .inr h1, h2⟩
        · refine .inr ⟨?_, h2⟩
          rintro p (hp | hp)
          · exact hno p hp
          · exact h1 p hp
      · rintro (⟨p, h1 | h1, h2⟩ | ⟨h1, h2⟩)
        · exact absurd h2.1 (hno p h1)
        · exact .inl ⟨p, h1, h2⟩
        · exact .inr ⟨fun p hp => h1 p (.inr hp), h2⟩
    | some p0 =>
      have hm := List.mem_of_find?_eq_some hfind
      have hp0 : p0.path = some path := by simpa using List.find?_some hfind
      have hno : ∀ q ∈ st ++ rest.flatten, q.path = some path → q = p0 := by
        intro q hq hqp
        exact hu q (by simpa using hq) p0 (by simp only [List.flatten_cons, List.mem_append]; exact .inl hm) hqp hp0
      show findControlled path (some p0) rest = _ ↔ _
      by_cases hin : ∃ q ∈ rest.flatten, q.path = some path
      · -- the same component again
        obtain ⟨q, hq, hqp⟩ := hin
        have hqe := hno q (by simp [hq]) hqp
        subst hqe
        have hacc : ∀ (found : Option Part) (stages : List (List Part)), (∀ p ∈ stages.flatten, p.path ≠ none) →
            (∀ p ∈ stages.flatten, p.path = some path → p = q) → (found = some q) →
            findControlled path found stages = .ok (some q) := by
          intro found stages
          induction stages generalizing found with
          | nil => rintro - - rfl; rfl
          | cons st rest ih2 =>
            intro a b c
            unfold findControlled
            simp only [List.flatten_cons, List.mem_append] at a b
            rw [findIn_read path st fun p hp => a p (.inl hp)]
            dsimp only
            apply ih2 _ (fun p hp => a p (.inr hp)) (fun p hp => b p (.inr hp))
            cases hf2 : st.find? (fun p => decide (p.path = some path)) with
            | none => exact c
            | some p1 =>
              rw [b p1 (.inl (List.mem_of_find?_eq_some hf2)) (by simpa using List.find?_some hf2)]
              rfl
        rw [hacc (some q) rest (fun p hp => h p (.inr hp)) (fun p hp => hno p (by simp [hp])) rfl]
        constructor
        · intro hr
          exact .inl ⟨q, .inr hq, hqp, (Except.ok.inj hr).symm⟩
        · rintro (⟨p, h1, h2, rfl⟩ | ⟨h1, _⟩)
          · rw [hno p (by simpa using h1) h2]
          · exact absurd hqp (h1 q (.inr hq))
      · have hin' : ∀ q ∈ rest.flatten, q.path ≠ some path := fun q hq hqp => hin ⟨q, hq, hqp⟩
        rw [ih (some p0) (fun p hp => h p (.inr hp)) hu' fun p _ q hq => hin' q hq]
        constructor
        · rintro (⟨p, h1, h2, _⟩ | ⟨_, rfl⟩)
          · exact absurd h2 (hin' p h1)
          · exact .inl ⟨p0, .inl hm, hp0, rfl⟩
        · rintro (⟨p, h1, h2, rfl⟩ | ⟨h1, _⟩)
          · exact .inr ⟨hin', by rw [hno p (by simpa using h1) h2]⟩
          · exact absurd hp0 (h1 p0 (.inl hm))

/-- **C73 (partial).** The controlled component is the one whose dictionary has the given path, in whatever stage; a path that no component
has is noticed. Missing: components without a dictionary, see `upper_stage_violated`. -/
theorem find_partial (path : Str) (stages : List (List Part)) (h : ∀ p ∈ stages.flatten, p.path ≠ none) (hu : OnlyOne path stages)
    (r : Option Part) :
    findControlled path none stages = .ok r ↔
      (∃ p ∈ stages.flatten, p.path = some path ∧ r = some p) ∨ ((∀ p ∈ stages.flatten, p.path ≠ some path) ∧ r = none) :=
  findControlled_acc path none stages h hu (fun p hp => by cases hp) r

theorem findIn_missing (path : Str) (ps : List Part) (p : Part) (hm : p ∈ ps) (hp : p.path = none) (hno : ∀ q ∈ ps, q.path ≠ some path) :
    findIn path ps = .error .attributeError := by
  induction ps with
  | nil => simp at hm
  | cons a ps ih =>
    unfold findIn
    cases ha : a.path with
    | none => rfl
    | some q =>
      dsimp only
      rw [if_neg (fun h => hno a List.mem_cons_self (by rw [ha, h]))]
      apply ih _ fun q hq => hno q (List.mem_cons_of_mem _ hq)
      rcases List.mem_cons.1 hm with rfl | h
      · rw [hp] at ha; cases ha
      · exact h

theorem findIn_error (path : Str) (ps : List Part) (e : PyErr) (h : findIn path ps = .error e) : e = .attributeError := by
  induction ps with
  | nil => cases h
  | cons a ps ih =>
    unfold findIn at h
    cases ha : a.path with
    | none => rw [ha] at h; cases h; rfl
    | some q =>
      rw [ha] at h
      dsimp only at h
      split_ifs at h
      exact ih h

/-- **C73 (violated part).** A stage that contains a component without a dictionary (the boat tail the rocket adds itself) but not the
controlled component makes the set-up fail with `AttributeError`: whether the controlled component is in another stage, found before or
not, or does not exist at all. -/
theorem upper_stage_violated (path : Str) (found : Option Part) (before after : List (List Part)) (stage : List Part) (tail : Part)
    (hm : tail ∈ stage) (ht : tail.path = none) (hno : ∀ q ∈ stage, q.path ≠ some path) :
    findControlled path found (before ++ stage :: after) = .error .attributeError := by
  induction before generalizing found with
  | nil =>
    show findControlled path found (stage :: after) = _
    unfold findControlled
    rw [findIn_missing path stage tail hm ht hno]
  | cons st rest ih =>
    show findControlled path found (st :: (rest ++ stage :: after)) = _
    unfold findControlled
    cases h : findIn path st with
    | error e => rw [findIn_error path st e h]
    | ok p => exact ih _

example : findControlled "Rocket.Upper.Canards".toList none
    [[⟨1, some "Rocket.Upper.Canards".toList, some 4⟩], [⟨2, some "Rocket.Booster.Fins".toList, some 4⟩, ⟨3, none, none⟩]] =
    .error .attributeError :=
  upper_stage_violated _ none [[_]] [] _ ⟨3, none, none⟩ (by simp) rfl (by decide +kernel)

example : findControlled "Rocket.Upper.Canards".toList none
    [[⟨1, some "Rocket.Upper.Canards".toList, some 4⟩], [⟨2, some "Rocket.Booster.Fins".toList, some 4⟩]] =
    .ok (some ⟨1, some "Rocket.Upper.Canards".toList, some 4⟩) := by
  rw [find_partial _ _ (by simp) (by
    intro p hp q hq h1 h2
    simp only [List.flatten_cons, List.flatten_nil, List.append_nil, List.singleton_append, List.mem_cons, List.not_mem_nil,
      or_false] at hp hq
    have hne : "Rocket.Booster.Fins".toList ≠ "Rocket.Upper.Canards".toList := by decide +kernel
    rcases hp with rfl | rfl <;> rcases hq with rfl | rfl
    · rfl
    · exact absurd (Option.some.inj h2) hne
    · exact absurd (Option.some.inj h1) hne
    · rfl)]
  exact .inl ⟨_, by simp, rfl, rfl⟩

/-! ## Setting up -/

theorem aeroKeys_iff (names : List Str) (ks : List Rocket.AeroKey) :
    aeroKeys names = .ok ks ↔ List.Forall₂ (fun n k => (n, k) ∈ Rocket.keyNames) names ks := by
  induction names generalizing ks with
  | nil => simp [aeroKeys, eq_comm]
  | cons n ns ih =>
    unfold aeroKeys
    cases h : Rocket.aeroKeyOf n with
    | none =>
      simp only [reduceCtorEq, false_iff]
      intro h'
      cases h' with
      | cons h1 h2 => rw [← Rocket.aeroKeyOf_spec, h] at h1; cases h1
    | some k =>
      simp only [bind_ok_iff, ih]
      constructor
      · rintro ⟨ks', h1, h2⟩
        rw [← Except.ok.inj h2]
        exact .cons ((Rocket.aeroKeyOf_spec _ _).1 h) h1
      · intro h'
        cases h' with
        | cons h1 h2 =>
          rw [← Rocket.aeroKeyOf_spec, h] at h1
          cases h1
          exact ⟨_, h2, rfl⟩

/-- the moment controller a definition asks for -/
inductive MomentAsked (d : Source) (tb : Tables) (dict : String) : Str → MomentControl → Prop
  | constant (pxy ixy dxy pz iz dz : ℝ) (h1 : SaysNumber d dict "MomentController.Pxy" pxy)
      (h2 : SaysNumber d dict "MomentController.Ixy" ixy) (h3 : SaysNumber d dict "MomentController.Dxy" dxy)
      (h4 : SaysNumber d dict "MomentController.Pz" pz) (h5 : SaysNumber d dict "MomentController.Iz" iz)
      (h6 : SaysNumber d dict "MomentController.Dz" dz) :
      MomentAsked d tb dict "ConstantGainPIDRocket".toList
        (.constant [⟨pxy, ixy, dxy, 0, 0, none⟩, ⟨pxy, ixy, dxy, 0, 0, none⟩, ⟨pz, iz, dz, 0, 0, none⟩])
  | scheduled (file names : Str) (keys : List Rocket.AeroKey) (rows : List (List ℝ)) (n : Nat) (gains : Lookup)
      (h1 : Says d dict "MomentController.gainTableFilePath" file) (h2 : Says d dict "MomentController.scheduledBy" names)
      (h3 : List.Forall₂ (fun n k => (n, k) ∈ Rocket.keyNames) (Str.wsSplit names) keys) (h4 : tb.loadtxt file = .ok rows)
      (h5 : TableOf rows n)
      (h6 : tb.lookup (rows.map fun r => r.take keys.length) (rows.map fun r => (r.drop keys.length).take 6) = .ok gains) :
      MomentAsked d tb dict "ScheduledGainPIDRocket".toList
        (.scheduled keys gains [⟨0, 0, 0, 0, 0, none⟩, ⟨0, 0, 0, 0, 0, none⟩, ⟨0, 0, 0, 0, 0, none⟩])
  | ideal : MomentAsked d tb dict "IdealMomentController".toList .ideal

theorem fresh_axes : freshAxes = [⟨0, 0, 0, 0, 0, none⟩, ⟨0, 0, 0, 0, 0, none⟩, ⟨0, 0, 0, 0, 0, none⟩] := by
  simp [freshAxes, PID.make]

/-- **C73.** The moment controller is built exactly as the definition says. -/
theorem moment_iff (d : Source) (tb : Tables) (dict : String) (kind : Str) (m : MomentControl) :
    momentFactory d tb dict.toList kind = .ok m ↔ MomentAsked d tb dict kind m := by
  unfold momentFactory
  by_cases hc : kind = "ConstantGainPIDRocket".toList
  · rw [if_pos hc, fresh_axes]
    simp only [bind_ok_iff, getFloat_iff, setGains_iff]
    subst hc
    constructor
    · rintro ⟨pxy, h1, ixy, h2, dxy, h3, pz, h4, iz, h5, dz, h6, axes, ⟨_, _, _, _, _, _, h7, rfl⟩, h8⟩
      simp only [List.cons.injEq, and_true] at h7
      obtain ⟨rfl, rfl, rfl, rfl, rfl, rfl⟩ := h7
      rw [← Except.ok.inj h8]
      exact .constant _ _ _ _ _ _ h1 h2 h3 h4 h5 h6
    · intro h
      generalize hk : "ConstantGainPIDRocket".toList = k at h
      cases h with
      | constant pxy ixy dxy pz iz dz h1 h2 h3 h4 h5 h6 =>
        exact ⟨pxy, h1, ixy, h2, dxy, h3, pz, h4, iz, h5, dz, h6, _, ⟨_, _, _, _, _, _, rfl, rfl⟩, rfl⟩
      | scheduled => exact absurd hk (by decide +kernel)
      | ideal => exact absurd hk (by decide +kernel)
  · rw [if_neg hc]
    by_cases hs : kind = "ScheduledGainPIDRocket".toList
    · rw [if_pos hs, fresh_axes]
      simp only [bind_ok_iff, text_iff, aeroKeys_iff, gainTable, load2D_iff]
      subst hs
      constructor
      · rintro ⟨file, h1, names, h2, keys, h3, gains, ⟨rows, h4, n, h5, h6⟩, h7⟩
        rw [← Except.ok.inj h7]
        exact .scheduled file names keys rows n gains h1 h2 h3 h4 h5 h6
      · intro h
        generalize hk : "ScheduledGainPIDRocket".toList = k at h
        cases h with
        | constant => exact absurd hk (by decide +kernel)
        | scheduled file names keys rows n gains h1 h2 h3 h4 h5 h6 =>
          exact ⟨file, h1, names, h2, keys, h3, gains, ⟨rows, h4, n, h5, h6⟩, rfl⟩
        | ideal => exact absurd hk (by decide +kernel)
    · rw [if_neg hs]
      by_cases hi : kind = "IdealMomentController".toList
      · rw [if_pos hi]
        subst hi
        constructor
        · intro h; rw [← Except.ok.inj h]; exact .ideal
        · intro h
          generalize hk : "IdealMomentController".toList = k at h
          cases h with
          | constant => exact absurd hk (by decide +kernel)
          | scheduled => exact absurd hk (by decide +kernel)
          | ideal => rfl
      · rw [if_neg hi]
        simp only [reduceCtorEq, false_iff]
        intro h
        cases h with
        | constant => exact hc rfl
        | scheduled => exact hs rfl
        | ideal => exact hi rfl

theorem actuatorFactory_iff (d : Source) (dict : String) (a : Actuator) :
    actuatorFactory d dict.toList = .ok a ↔ Says d dict "Actuators.responseModel" "FirstOrder".toList ∧ ∃ τ mx mn,
      SaysNumber d dict "Actuators.responseTime" τ ∧ MaySayNumber d dict "Actuators.maxDeflection" mx ∧
      MaySayNumber d dict "Actuators.minDeflection" mn ∧ a = ⟨τ, 0, 0, 0, mx, mn⟩ := by
  unfold actuatorFactory
  simp only [bind_ok_iff, text_iff]
  constructor
  · rintro ⟨model, h1, h2⟩
    by_cases hm : model = "FirstOrder".toList
    · rw [if_pos hm] at h2
      simp only [bind_ok_iff, getFloat_iff, tryGetFloat_iff] at h2
      obtain ⟨τ, k1, mx, k2, mn, k3, k4⟩ := h2
      subst hm
      exact ⟨h1, τ, mx, mn, k1, k2, k3, (Except.ok.inj k4).symm⟩
    · rw [if_neg hm] at h2; cases h2
  · rintro ⟨h1, τ, mx, mn, k1, k2, k3, rfl⟩
    refine ⟨_, h1, ?_⟩
    rw [if_pos rfl]
    simp only [bind_ok_iff, getFloat_iff, tryGetFloat_iff]
    exact ⟨τ, k1, mx, k2, mn, k3, rfl⟩

theorem actuatorList_iff (d : Source) (dict : String) (n : Nat) (as : List Actuator) :
    actuatorList d dict.toList n = .ok as ↔ (n = 0 ∧ as = []) ∨ ∃ a, actuatorFactory d dict.toList = .ok a ∧ as = List.replicate n a := by
  induction n generalizing as with
  | zero =>
    simp only [actuatorList, Except.ok.injEq, true_and, List.replicate_zero]
    constructor
    · intro h; exact .inl h.symm
    · rintro (h | ⟨_, _, h⟩) <;> exact h.symm
  | succ n ih =>
    simp only [actuatorList, bind_ok_iff, ih]
    constructor
    · rintro ⟨a, h1, bs, h2, h3⟩
      refine .inr ⟨a, h1, ?_⟩
      rw [← Except.ok.inj h3]
      rcases h2 with ⟨rfl, rfl⟩ | ⟨a', h4, rfl⟩
      · rfl
      · rw [h1] at h4; cases h4; rfl
    · rintro (⟨h, _⟩ | ⟨a, h1, rfl⟩)
      · omega
      · exact ⟨a, h1, _, .inr ⟨a, h1, rfl⟩, rfl⟩

/-- the actuated component a definition asks for: `n` equal actuators at rest, and a table whose first columns are the parameters and the
desired moments, the others one deflection per actuator -/
def DrivenAsked (d : Source) (tb : Tables) (dict : String) (part n : Nat) (x : Driven) : Prop :=
  ∃ file columns plain desired rows, ((n = 0 ∧ x.actuators = []) ∨ (Says d dict "Actuators.responseModel" "FirstOrder".toList ∧ ∃ τ mx mn,
      SaysNumber d dict "Actuators.responseTime" τ ∧ MaySayNumber d dict "Actuators.maxDeflection" mx ∧
      MaySayNumber d dict "Actuators.minDeflection" mn ∧ x.actuators = List.replicate n ⟨τ, 0, 0, 0, mx, mn⟩)) ∧
    Says d dict "Actuators.controller" "TableInterpolating".toList ∧ Says d dict "Actuators.deflectionTablePath" file ∧
    Says d dict "Actuators.deflectionKeyColumns" columns ∧ Str.wsSplit columns = plain ++ desired ∧
    (∀ k ∈ plain, ¬ "Desired".toList <:+: k) ∧ (∀ k ∈ desired, "Desired".toList <:+: k) ∧
    List.Forall₂ (fun n k => (n, k) ∈ Rocket.keyNames) plain x.keys ∧ tb.loadtxt file = .ok rows ∧
    (∃ width, TableOf rows width ∧ n = width - (plain ++ desired).length) ∧
    tb.lookup (rows.map fun r => r.take (plain ++ desired).length) (rows.map fun r => r.drop (plain ++ desired).length) = .ok x.table ∧
    x.part = part

theorem takeWhile_split (p : Str → Bool) (xs plain rest : List Str) (h : xs = plain ++ rest) (h1 : ∀ k ∈ plain, p k = true)
    (h2 : ∀ k ∈ rest, p k = false) : xs.takeWhile p = plain := by
  subst h
  induction plain with
  | nil =>
    cases rest with
    | nil => rfl
    | cons r rs => simp [h2 r List.mem_cons_self]
  | cons a as ih =>
    rw [List.cons_append, List.takeWhile_cons_of_pos (h1 a List.mem_cons_self), ih fun k hk => h1 k (List.mem_cons_of_mem _ hk)]

theorem isDesired_iff (k : Str) : isDesired k = true ↔ "Desired".toList <:+: k := decide_eq_true_iff

theorem not_isDesired_iff (k : Str) : (!isDesired k) = true ↔ ¬ "Desired".toList <:+: k := by
  rw [← isDesired_iff, Bool.not_eq_true', Bool.not_eq_true]

theorem columns_split (xs : List Str) :
    ((xs.drop (xs.takeWhile fun k => !isDesired k).length).all isDesired = true) ↔
      ∃ desired, xs = (xs.takeWhile fun k => !isDesired k) ++ desired ∧ (∀ k ∈ desired, "Desired".toList <:+: k) := by
  have hd : xs.drop (xs.takeWhile fun k => !isDesired k).length = xs.dropWhile fun k => !isDesired k := by
    have h := List.drop_left (l₁ := xs.takeWhile fun k => !isDesired k) (l₂ := xs.dropWhile fun k => !isDesired k)
    rwa [List.takeWhile_append_dropWhile] at h
  rw [hd]
  constructor
  · intro h
    refine ⟨_, (List.takeWhile_append_dropWhile).symm, ?_⟩
    intro k hk
    exact (isDesired_iff k).1 (List.all_eq_true.1 h k hk)
  · rintro ⟨desired, h1, h2⟩
    have : xs.dropWhile (fun k => !isDesired k) = desired := by
      have h3 := List.takeWhile_append_dropWhile (p := fun k => !isDesired k) (l := xs)
      exact List.append_cancel_left (h3.trans h1)
    rw [this]
    apply List.all_eq_true.2
    intro k hk
    exact (isDesired_iff k).2 (h2 k hk)

/-- **C73.** The actuated component is set up exactly as the definition says. -/
theorem actuated_iff (d : Source) (tb : Tables) (dict : String) (part n : Nat) (x : Driven) :
    actuatedSystem d tb dict.toList part n = .ok x ↔ DrivenAsked d tb dict part n x := by
  unfold actuatedSystem DrivenAsked
  simp only [bind_ok_iff, actuatorList_iff, actuatorFactory_iff, text_iff]
  constructor
  · rintro ⟨as, h1, kind, h2, h3⟩
    by_cases hk : kind = "TableInterpolating".toList
    · rw [if_pos hk] at h3
      simp only [bind_ok_iff, text_iff] at h3
      obtain ⟨file, h4, columns, h5, h6⟩ := h3
      split_ifs at h6 with hall
      simp only [bind_ok_iff, aeroKeys_iff, load2D_iff] at h6
      obtain ⟨keys, h7, rows, h8, width, h9, h10⟩ := h6
      split_ifs at h10 with hw
      simp only [bind_ok_iff] at h10
      obtain ⟨table, h11, h12⟩ := h10
      obtain ⟨desired, hs, hd⟩ := (columns_split _).1 hall
      rw [← Except.ok.inj h12]
      refine ⟨file, columns, _, desired, rows, ?_, by rw [← hk]; exact h2, h4, h5, hs, ?_, hd, h7, h8, ⟨width, h9, by rw [← hs]; exact hw⟩,
        by rw [← hs]; exact h11, rfl⟩
      · rcases h1 with h1 | ⟨a, ⟨g1, τ, mx, mn, g2, g3, g4, rfl⟩, rfl⟩
        · exact .inl h1
        · exact .inr ⟨g1, τ, mx, mn, g2, g3, g4, rfl⟩
      · intro k hk'
        exact (not_isDesired_iff k).1 (List.mem_takeWhile_imp (p := fun k => !isDesired k) hk')
    · rw [if_neg hk] at h3; cases h3
  · rintro ⟨file, columns, plain, desired, rows, h1, h2, h3, h4, h5, h6, h7, h8, h9, ⟨width, h10, h11⟩, h12, h13⟩
    have htw : (Str.wsSplit columns).takeWhile (fun k => !isDesired k) = plain :=
      takeWhile_split _ _ plain desired h5 (fun k hk => (not_isDesired_iff k).2 (h6 k hk)) fun k hk => by
        rw [(isDesired_iff k).2 (h7 k hk)]; rfl
    refine ⟨x.actuators, ?_, _, h2, ?_⟩
    · rcases h1 with h1 | ⟨g1, τ, mx, mn, g2, g3, g4, g5⟩
      · exact .inl h1
      · exact .inr ⟨_, ⟨g1, τ, mx, mn, g2, g3, g4, rfl⟩, g5⟩
    · rw [if_pos rfl]
      simp only [bind_ok_iff, text_iff]
      refine ⟨file, h3, columns, h4, ?_⟩
      rw [if_pos ((columns_split _).2 ⟨desired, by rw [htw]; exact h5, h7⟩)]
      simp only [bind_ok_iff, aeroKeys_iff, load2D_iff]
      refine ⟨x.keys, by rw [htw]; exact h8, rows, h9, width, h10, ?_⟩
      rw [if_pos (by rw [h5]; exact h11)]
      simp only [bind_ok_iff]
      refine ⟨x.table, by rw [h5]; exact h12, ?_⟩
      cases x
      simp only at h13
      subst h13
      rfl

/-- the time stepping a control system asks for: nothing without an update rate; otherwise a period of `1/rate`, the time step of the
definition if the period is a whole number of time steps and the nearest whole division of the period otherwise, and no adaptive method -/
inductive SteppingAsked (d : Source) (dict : String) : ℝ → ℝ → Option ℝ → Bool → Bool → Prop
  | perStep (rate : ℝ) (h : rate ≤ 0) : SteppingAsked d dict rate 0 none false false
  | divides (rate dt : ℝ) (n : ℤ) (method : Str) (h : 0 < rate) (hm : Says d dict "SimControl.timeDiscretization" method)
      (ht : SaysNumber d dict "SimControl.timeStep" dt) (h0 : dt ≠ 0) (hn : 1 / rate / dt = n) (rk4 : Bool)
      (ha : rk4 = true ↔ "Adaptive".toList <:+: method) : SteppingAsked d dict rate (1 / rate) (some dt) rk4 rk4
  | adjusted (rate dt : ℝ) (method : Str) (h : 0 < rate) (hm : Says d dict "SimControl.timeDiscretization" method)
      (ht : SaysNumber d dict "SimControl.timeStep" dt) (h0 : dt ≠ 0) (hn : ∀ n : ℤ, 1 / rate / dt ≠ n) (rk4 : Bool)
      (ha : rk4 = true ↔ "Adaptive".toList <:+: method) :
      SteppingAsked d dict rate (1 / rate) (some (1 / rate / (max 1 (pyRound (1 / rate / dt)) : ℤ))) rk4 true

theorem pyRound_int (n : ℤ) : pyRound ((n : ℝ)) = n := by
  unfold pyRound
  dsimp only
  rw [Int.floor_intCast, if_pos (by rw [sub_self]; norm_num)]

theorem stepping_iff (d : Source) (dict : String) (rate period : ℝ) (dt : Option ℝ) (rk4 modified : Bool) :
    timeStepping d dict.toList rate = .ok (period, dt, rk4, modified) ↔ SteppingAsked d dict rate period dt rk4 modified := by
  unfold timeStepping
  by_cases hr : rate > 0
  · rw [if_pos hr]
    simp only [bind_ok_iff, text_iff, getFloat_iff]
    constructor
    · rintro ⟨method, h1, dt0, h2, ⟨p, dt'⟩, h3, h4⟩
      simp only [Except.ok.injEq, Prod.mk.injEq] at h4
      obtain ⟨rfl, rfl, h5, h6⟩ := h4
      have hb : rk4 = true ↔ "Adaptive".toList <:+: method := by rw [← h5]; exact decide_eq_true_iff
      unfold checkTimeStepping at h3
      rw [if_pos hr] at h3
      dsimp only at h3
      split_ifs at h3 with h0 hn
      · cases h3
        have hno : ∀ n : ℤ, 1 / rate / dt0 ≠ n := by
          intro n h
          rw [h, pyRound_int] at hn
          exact hn rfl
        have hne : 1 / rate / ((max 1 (pyRound (1 / rate / dt0)) : ℤ) : ℝ) ≠ dt0 := by
          intro h
          apply hno (max 1 (pyRound (1 / rate / dt0)))
          have hm : ((max 1 (pyRound (1 / rate / dt0)) : ℤ) : ℝ) ≠ 0 := by
            have : (1 : ℤ) ≤ max 1 (pyRound (1 / rate / dt0)) := le_max_left _ _
            intro h'
            have h'' : (max 1 (pyRound (1 / rate / dt0)) : ℤ) = 0 := by exact_mod_cast h'
            omega
          rw [div_eq_iff h0]
          rw [div_eq_iff hm] at h
          rw [mul_comm]; exact h
        have hmod : modified = true := by rw [← h6, decide_eq_true hne, Bool.or_true]
        rw [hmod]
        exact .adjusted rate dt0 method hr h1 h2 h0 hno rk4 hb
      · cases h3
        push_neg at hn
        have hmod : modified = rk4 := by rw [← h6, ← h5, decide_eq_false (not_not.2 rfl), Bool.or_false]
        rw [hmod]
        exact .divides rate _ _ method hr h1 h2 h0 hn rk4 hb
    · intro h
      cases h with
      | perStep h => exact absurd hr (not_lt.2 h)
      | divides dt n method h hm ht h0 hn _ ha =>
        refine ⟨method, hm, _, ht, ⟨1 / rate, dt⟩, ?_, ?_⟩
        · unfold checkTimeStepping
          rw [if_pos hr]
          dsimp only
          rw [if_neg h0, hn, pyRound_int, if_neg (by simp)]
        · have : rk4 = decide ("Adaptive".toList <:+: method) := by
            rw [Bool.eq_iff_iff, ha]; exact decide_eq_true_iff.symm
          dsimp only
          rw [← this, decide_eq_false (not_not.2 rfl), Bool.or_false]
      | adjusted dt method h hm ht h0 hn _ ha =>
        refine ⟨method, hm, dt, ht, ⟨1 / rate, 1 / rate / (max 1 (pyRound (1 / rate / dt)) : ℤ)⟩, ?_, ?_⟩
        · unfold checkTimeStepping
          rw [if_pos hr]
          dsimp only
          rw [if_neg h0, if_pos (hn _)]
        · have h1 : rk4 = decide ("Adaptive".toList <:+: method) := by
            rw [Bool.eq_iff_iff, ha]; exact decide_eq_true_iff.symm
          have hne : 1 / rate / ((max 1 (pyRound (1 / rate / dt)) : ℤ) : ℝ) ≠ dt := by
            intro h
            apply hn (max 1 (pyRound (1 / rate / dt)))
            have hm : ((max 1 (pyRound (1 / rate / dt)) : ℤ) : ℝ) ≠ 0 := by
              have : (1 : ℤ) ≤ max 1 (pyRound (1 / rate / dt)) := le_max_left _ _
              intro h'
              have h'' : (max 1 (pyRound (1 / rate / dt)) : ℤ) = 0 := by exact_mod_cast h'
              omega
            rw [div_eq_iff h0]
            rw [div_eq_iff hm] at h
            rw [mul_comm]; exact h
          dsimp only
          rw [← h1, decide_eq_true hne, Bool.or_true]
  · rw [if_neg hr]
    simp only [Except.ok.injEq, Prod.mk.injEq]
    constructor
    · rintro ⟨rfl, rfl, rfl, rfl⟩
      exact .perStep rate (not_lt.1 hr)
    · intro h
      cases h with
      | perStep => exact ⟨rfl, rfl, rfl, rfl⟩
      | divides _ _ _ h => exact absurd h hr
      | adjusted _ _ h => exact absurd h hr

/-- **C73.** The control system that a definition asks for: the target from the flight direction, the moment controller, and unless that is
ideal, the update rate and the controlled component (which must be a set of fins). -/
theorem control_iff (d : Source) (tb : Tables) (dict : String) (stages : List (List Part)) (t0 : ℝ) (log : Bool) (c : Control)
    (dt : Option ℝ) (rk4 : Bool) :
    controlFactory d tb dict.toList stages t0 log = .ok (c, dt, rk4) ↔
      ∃ dir kind, SaysVector d dict "desiredFlightDirection" dir ∧ stabilizer dir = .ok c.target ∧
        Says d dict "MomentController.Type" kind ∧ MomentAsked d tb dict kind c.moment ∧ c.last = t0 ∧ c.logging = log ∧
        ((kind = "IdealMomentController".toList ∧ c.period = 0 ∧ c.driven = none ∧ c.modified = false ∧ dt = none ∧ rk4 = false) ∨
          (kind ≠ "IdealMomentController".toList ∧ ∃ rate name p n x, SaysNumber d dict "updateRate" rate ∧
            Says d dict "controlledSystem" (String.toList name) ∧ findControlled name.toList none stages = .ok (some p) ∧ p.fins = some n ∧
            c.driven = some x ∧ DrivenAsked d tb name p.id n x ∧ SteppingAsked d dict rate c.period dt rk4 c.modified)) := by
  unfold controlFactory
  simp only [bind_ok_iff, getVector_iff, text_iff, moment_iff]
  constructor
  · rintro ⟨dir, h1, target, h2, kind, h3, moment, h4, h5⟩
    by_cases hk : kind = "IdealMomentController".toList
    · rw [if_pos hk] at h5
      simp only [Except.ok.injEq, Prod.mk.injEq] at h5
      obtain ⟨rfl, rfl, rfl⟩ := h5
      exact ⟨dir, kind, h1, h2, h3, h4, rfl, rfl, .inl ⟨hk, rfl, rfl, rfl, rfl, rfl⟩⟩
    · rw [if_neg hk] at h5
      simp only [bind_ok_iff, getFloat_iff, text_iff] at h5
      obtain ⟨rate, h6, name, h7, found, h8, h9⟩ := h5
      cases found with
      | none => cases h9
      | some p =>
        dsimp only at h9
        cases hf : p.fins with
        | none => rw [hf] at h9; cases h9
        | some n =>
          rw [hf] at h9
          dsimp only at h9
          rw [bind_ok_iff] at h9
          obtain ⟨x, h10, h11⟩ := h9
          rw [bind_ok_iff] at h11
          obtain ⟨⟨period, dt', rk, modified⟩, h12, h13⟩ := h11
          simp only [Except.ok.injEq, Prod.mk.injEq] at h13
          obtain ⟨rfl, rfl, rfl⟩ := h13
          have hn : name = (String.ofList name).toList := by simp
          rw [hn] at h7 h8 h10
          rw [stepping_iff] at h12
          rw [actuated_iff] at h10
          exact ⟨dir, kind, h1, h2, h3, h4, rfl, rfl, .inr ⟨hk, rate, _, p, n, x, h6, h7, h8, hf, rfl, h10, h12⟩⟩
  · rintro ⟨dir, kind, h1, h2, h3, h4, h5, h6, h7⟩
    refine ⟨dir, h1, _, h2, kind, h3, _, h4, ?_⟩
    obtain ⟨target, moment, period, last, driven, modified, logging⟩ := c
    simp only at h2 h4 h5 h6 h7 ⊢
    subst h5 h6
    rcases h7 with ⟨hk, k1, k2, k3, k4, k5⟩ | ⟨hk, rate, name, p, n, x, k1, k2, k3, k4, k5, k6, k7⟩
    · rw [if_pos hk]
      subst k1 k2 k3 k4 k5
      rfl
    · rw [if_neg hk]
      simp only [bind_ok_iff, getFloat_iff, text_iff]
      refine ⟨rate, k1, _, k2, some p, k3, ?_⟩
      dsimp only
      rw [k4]
      dsimp only
      rw [bind_ok_iff]
      refine ⟨x, (actuated_iff _ _ _ _ _ _).2 k6, ?_⟩
      rw [bind_ok_iff]
      refine ⟨⟨period, dt, rk4, modified⟩, (stepping_iff _ _ _ _ _ _ _).2 k7, ?_⟩
      subst k5
      rfl

/-- **C73.** A control system exists exactly for a rocket that is not a dropped stage and either names a controlled component or has the ideal
controller. -/
theorem controlWanted_iff (d : Source) (dict : String) (dropped b : Bool) :
    controlWanted d dict.toList dropped = .ok b ↔
      ((∃ s, Says d dict "ControlSystem.controlledSystem" s) ∧ b = !dropped) ∨
      (Lacks d dict "ControlSystem.controlledSystem" ∧ ∃ kind : Option Str,
        kind.elim (Lacks d dict "ControlSystem.MomentController.Type") (Says d dict "ControlSystem.MomentController.Type") ∧
        b = (decide (kind = some "IdealMomentController".toList) && !dropped)) := by
  unfold controlWanted
  simp only [bind_ok_iff, tryString_iff]
  constructor
  · rintro ⟨system, h1, wanted, h2, h3⟩
    cases system with
    | some s =>
      cases h2
      exact .inl ⟨⟨s, h1⟩, by simpa using (Except.ok.inj h3).symm⟩
    | none =>
      rw [if_neg (by simp)] at h2
      simp only [bind_ok_iff, tryString_iff] at h2
      obtain ⟨kind, h4, h5⟩ := h2
      cases h5
      exact .inr ⟨h1, kind, h4, (Except.ok.inj h3).symm⟩
  · rintro (⟨⟨s, h1⟩, h2⟩ | ⟨h1, kind, h2, h3⟩)
    · exact ⟨some s, h1, true, rfl, by rw [h2]; simp⟩
    · refine ⟨none, h1, decide (kind = some "IdealMomentController".toList), ?_, by rw [h3]⟩
      rw [if_neg (by simp)]
      simp only [bind_ok_iff, tryString_iff]
      exact ⟨kind, h2, rfl⟩

/-! ## Dropping the controlled stage -/

/-- **C73 (partial).** Dropping a stage ends the control exactly if the controlled component is in it. Missing: a control system that changed the
time stepping, see `restore_violated`. -/
theorem drop_partial (c : Option Control) (dropped : List Part) (hm : ∀ x, c = some x → x.modified = false) (c' : Option Control) :
    dropControl c dropped = .ok c' ↔
      (c' = none ∧ ∃ x d, c = some x ∧ x.driven = some d ∧ ∃ p ∈ dropped, p.id = d.part) ∨
      (c' = c ∧ ∀ x d, c = some x → x.driven = some d → ∀ p ∈ dropped, p.id ≠ d.part) := by
  unfold dropControl
  cases c with
  | none => simp [eq_comm]
  | some x =>
    have hx := hm x rfl
    cases hd : x.driven with
    | none =>
      dsimp only
      rw [hd]
      constructor
      · intro h
        refine .inr ⟨(Except.ok.inj h).symm, ?_⟩
        intro x' d hx' hd'
        cases hx'
        rw [hd] at hd'; cases hd'
      · rintro (⟨_, x', d, h1, h2, _⟩ | ⟨h, _⟩)
        · cases h1; rw [hd] at h2; cases h2
        · rw [h]
    | some d =>
      dsimp only
      rw [hd]
      simp only [Option.some.injEq, List.mem_map]
      by_cases hin : ∃ p ∈ dropped, p.id = d.part
      · rw [if_pos hin, hx]
        constructor
        · intro h
          exact .inl ⟨(Except.ok.inj h).symm, x, d, rfl, hd, hin⟩
        · rintro (⟨h, _⟩ | ⟨_, h⟩)
          · rw [h]; rfl
          · obtain ⟨p, h1, h2⟩ := hin
            exact absurd h2 (h x d rfl hd p h1)
      · rw [if_neg hin]
        constructor
        · intro h
          refine .inr ⟨(Except.ok.inj h).symm, ?_⟩
          rintro _ d' rfl hd' p hp hpd
          rw [hd] at hd'
          cases hd'
          exact hin ⟨p, hp, hpd⟩
        · rintro (⟨_, x', d', h1, h2, h3⟩ | ⟨h, _⟩)
          · subst h1
            rw [hd] at h2
            cases h2
            exact absurd h3 hin
          · rw [h]

/-- **C73 (violated part).** If the control system changed the time stepping, dropping its stage raises `AttributeError`: the simulation cannot go
on. -/
theorem restore_violated (c : Control) (d : Driven) (dropped : List Part) (p : Part) (hm : c.modified = true) (hd : c.driven = some d)
    (hp : p ∈ dropped) (hpd : p.id = d.part) : dropControl (some c) dropped = .error .attributeError := by
  unfold dropControl
  dsimp only
  rw [hd]
  dsimp only
  rw [if_pos (List.mem_map.2 ⟨p, hp, hpd⟩), if_pos hm]

/-! ## Examples -/

/-- a ready control system: two actuators, deflections proportional to the desired pitch and yaw moments -/
noncomputable def sampleControl : Control where
  target := ⟨1, 0, 0, 0⟩
  moment := .constant [⟨2, 1, 1, 0, 0, none⟩, ⟨2, 1, 1, 0, 0, none⟩, ⟨1, 0, 0, 0, 0, none⟩]
  period := 1 / 10
  last := 0
  driven := some ⟨7, [Actuator.make 1 0 0 (some 5) (some (-5)), Actuator.make 1 0 0 (some 5) (some (-5))], [.mach],
    fun ks => .ok [ks.getD 1 0, ks.getD 2 0]⟩
  modified := false
  logging := true

/-- the sample control system runs at 0.1 s, whatever the position, with the rocket tilted -/
example (pos vel w : V3 ℝ) : ∃ res, sampleControl.run (1 / 10) ⟨pos, vel, ⟨3 / 5, 4 / 5, 0, 0⟩, w⟩ (fun _ => .ok 1) = .ok res ∧
    res.ran = true := by
  have hr : Ready sampleControl (1 / 10) ⟨2, 1, 1, 0, 0, none⟩ ⟨2, 1, 1, 0, 0, none⟩ ⟨1, 0, 0, 0, 0, none⟩
      ⟨7, [Actuator.make 1 0 0 (some 5) (some (-5)), Actuator.make 1 0 0 (some 5) (some (-5))], [.mach],
        fun ks => .ok [ks.getD 1 0, ks.getD 2 0]⟩ := by
    refine ⟨rfl, ⟨rfl, rfl, rfl⟩, rfl, ?_⟩
    intro x hx
    simp only [List.mem_cons, List.not_mem_nil, or_false, or_self] at hx
    subst hx
    norm_num [Actuator.make]
  obtain ⟨res, _, _, _, _, h1, h2, _⟩ := run_ready sampleControl (1 / 10) ⟨pos, vel, ⟨3 / 5, 4 / 5, 0, 0⟩, w⟩ (fun _ => .ok 1) _ _ _ _ hr
    (by norm_num [sampleControl]) (by norm_num [sampleControl]) (by norm_num [Quat.Unit, Quat.nsq])
    (by norm_num [sampleControl, Quat.Unit, Quat.nsq])
    (by intro h; have := congrArg Quat.q1 h; norm_num [sampleControl, Quat.neg] at this)
    (fun _ _ => ⟨1, rfl⟩) (fun ks => ⟨_, rfl, rfl⟩)
  exact ⟨res, h1, h2⟩

example : dropControl (some sampleControl) [⟨7, none, some 2⟩] = .ok none :=
  (drop_partial _ _ (fun x h => by cases h; rfl) _).2 (.inl ⟨rfl, _, _, rfl, rfl, _, List.mem_cons_self, rfl⟩)

end Mapleaf.GNC
