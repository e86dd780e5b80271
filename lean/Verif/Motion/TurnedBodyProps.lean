import Verif.Motion.HomProps
import Verif.ENV.EnvProps

/-!
# Turned and shifted rigid-body states (used for C96)

The operators on rigid-body states and their derivatives, and the rigid-body equations, seen from axes that are turned by `r` and moved by `a`.
-/

namespace Mapleaf.Motion
open V3 ENV

/-! ## Quaternions seen from turned axes -/

namespace Quat

theorem mul_assoc' (a b c : Quat ℝ) : (a.mul b).mul c = a.mul (b.mul c) := by
  apply ext4 <;> simp only [mul] <;> ring

theorem conj_mul' (a b : Quat ℝ) : (a.mul b).conj = b.conj.mul a.conj := by
  apply ext4 <;> simp only [mul, conj] <;> ring

theorem conj_nsq (a : Quat ℝ) : a.conj.nsq = a.nsq := by simp [nsq, conj]

theorem norm_mul_left {r : Quat ℝ} (hr : r.nsq = 1) (q : Quat ℝ) : (r.mul q).norm = q.norm := by
  rw [norm_def', nsq_mul, hr, one_mul, norm_def']

theorem norm_mul_right {r : Quat ℝ} (hr : r.nsq = 1) (q : Quat ℝ) : (q.mul r).norm = q.norm := by
  rw [norm_def', nsq_mul, hr, mul_one, norm_def']

theorem normalize_left {r : Quat ℝ} (hr : r.nsq = 1) (q : Quat ℝ) : (r.mul q).normalize = q.normalize.map r.mul := by
  unfold normalize
  dsimp only
  rw [norm_mul_left hr]
  split
  · rfl
  split
  · rfl
  · simp only [Except.map, Except.ok.injEq]
    apply ext4 <;> simp only [mul] <;> ring

theorem normalize_right {r : Quat ℝ} (hr : r.nsq = 1) (q : Quat ℝ) : (q.mul r).normalize = q.normalize.map fun x => x.mul r := by
  unfold normalize
  dsimp only
  rw [norm_mul_right hr]
  split
  · rfl
  split
  · rfl
  · simp only [Except.map, Except.ok.injEq]
    apply ext4 <;> simp only [mul] <;> ring

/-- the rotation `q` as seen from axes turned by `r` -/
noncomputable def about (r q : Quat ℝ) : Quat ℝ := (r.mul q).mul r.conj

theorem normalize_about {r : Quat ℝ} (hr : r.nsq = 1) (q : Quat ℝ) : (r.about q).normalize = q.normalize.map r.about := by
  unfold about
  rw [normalize_right (by rw [conj_nsq]; exact hr), normalize_left hr]
  cases q.normalize <;> rfl

theorem conj_cancel {r : Quat ℝ} (hr : r.nsq = 1) (q : Quat ℝ) : (q.mul r.conj).mul r = q := by
  have h : r.q0 * r.q0 + r.q1 * r.q1 + r.q2 * r.q2 + r.q3 * r.q3 = 1 := hr
  have e : (q.mul r.conj).mul r = q.scale (r.q0 * r.q0 + r.q1 * r.q1 + r.q2 * r.q2 + r.q3 * r.q3) := by
    apply ext4 <;> simp only [mul, conj, scale] <;> ring
  rw [e, h]
  apply ext4 <;> simp [scale]

theorem about_mul {r : Quat ℝ} (hr : r.nsq = 1) (a b : Quat ℝ) : (r.about a).mul (r.mul b) = r.mul (a.mul b) := by
  unfold about
  rw [← mul_assoc', conj_cancel hr, mul_assoc']

theorem about_about {r : Quat ℝ} (hr : r.nsq = 1) (a b : Quat ℝ) : (r.about a).mul (r.about b) = r.about (a.mul b) := by
  rw [show r.about b = (r.mul b).mul r.conj from rfl, ← mul_assoc', about_mul hr]
  rfl

theorem about_q0 {r : Quat ℝ} (hr : r.nsq = 1) (q : Quat ℝ) : (r.about q).q0 = q.q0 := by
  have h : r.q0 * r.q0 + r.q1 * r.q1 + r.q2 * r.q2 + r.q3 * r.q3 = 1 := hr
  have e : (r.about q).q0 = q.q0 * (r.q0 * r.q0 + r.q1 * r.q1 + r.q2 * r.q2 + r.q3 * r.q3) := by
    simp only [about, mul, conj]; ring
  rw [e, h, mul_one]

/-- scalar part `c`, vector part `s u` -/
theorem about_axis {r : Quat ℝ} (hr : r.nsq = 1) (c : ℝ) (u : V3 ℝ) :
    r.about ⟨c, u.x, u.y, u.z⟩ = ⟨c, (r.rotF u).x, (r.rotF u).y, (r.rotF u).z⟩ := by
  have h : r.q0 * r.q0 + r.q1 * r.q1 + r.q2 * r.q2 + r.q3 * r.q3 = 1 := hr
  apply ext4
  · exact about_q0 hr _
  all_goals
    simp only [rotF, hr, about, mul, conj, sandwich, smul_x, smul_y, smul_z, div_one, one_mul]
    ring

theorem rotF_div {r : Quat ℝ} (v : V3 ℝ) (k : ℝ) : r.rotF ⟨v.x / k, v.y / k, v.z / k⟩ =
    ⟨(r.rotF v).x / k, (r.rotF v).y / k, (r.rotF v).z / k⟩ := by
  have e : (⟨v.x / k, v.y / k, v.z / k⟩ : V3 ℝ) = (1 / k) • v := by
    apply V3.ext' <;> simp <;> ring
  rw [e, ENV.rotF_smul]
  apply V3.ext' <;> simp <;> ring

theorem normalize_rotF {r : Quat ℝ} (hr : r.nsq = 1) (v : V3 ℝ) : (r.rotF v).normalize = r.rotF v.normalize := by
  unfold V3.normalize
  rw [ENV.rotF_length (ENV.unit_ne hr)]
  split
  · rw [rotF_div]
  · exact (ENV.rotF_zero r).symm

theorem about_axisAngle {r : Quat ℝ} (hr : r.nsq = 1) (u : V3 ℝ) (θ : ℝ) : axisAngle (r.rotF u) θ = r.about (axisAngle u θ) := by
  unfold axisAngle
  rw [normalize_rotF hr]
  have := about_axis hr (Real.cos (θ / 2)) (Real.sin (θ / 2) • u.normalize)
  simp only [smul_x, smul_y, smul_z, ENV.rotF_smul] at this
  simpa only [mul_comm] using this.symm

theorem about_ofRotationVector {r : Quat ℝ} (hr : r.nsq = 1) (w : V3 ℝ) : ofRotationVector (r.rotF w) = r.about (ofRotationVector w) := by
  unfold ofRotationVector
  rw [normalize_rotF hr, ENV.rotF_length (ENV.unit_ne hr), about_axisAngle hr]

theorem about_rotationAngle {r : Quat ℝ} (hr : r.nsq = 1) (q : Quat ℝ) :
    (r.about q).rotationAngle = q.rotationAngle.map fun x => (x.1, r.about x.2) := by
  unfold rotationAngle
  rw [normalize_about hr]
  cases q.normalize with
  | error e => rfl
  | ok x =>
    dsimp only [Except.map]
    rw [about_q0 hr]

theorem about_norm {r : Quat ℝ} (hr : r.nsq = 1) (q : Quat ℝ) : (r.about q).norm = q.norm := by
  unfold about
  rw [norm_mul_right (by rw [conj_nsq]; exact hr), norm_mul_left hr]

/-- the axis turns with the axes of reference, if there is an angle to speak of -/
theorem about_rotationAxis {r : Quat ℝ} (hr : r.nsq = 1) (q : Quat ℝ) {θ : ℝ} {x : Quat ℝ} (h : q.rotationAngle = .ok (θ, x)) (h0 : θ ≠ 0) :
    (r.about q).rotationAxis = q.rotationAxis.map r.rotF := by
  unfold rotationAxis
  rw [about_rotationAngle hr, h]
  dsimp only [Except.map]
  rw [if_pos (abs_pos.2 h0), if_pos (abs_pos.2 h0), about_norm hr, about_q0 hr]
  split
  · rfl
  · simp only [Except.ok.injEq]
    have := about_axis hr x.q0 ⟨x.q1, x.q2, x.q3⟩
    have e : r.about x = r.about ⟨x.q0, x.q1, x.q2, x.q3⟩ := rfl
    rw [show (⟨x.q1 / √(x.norm - x.q0 ^ 2), x.q2 / √(x.norm - x.q0 ^ 2), x.q3 / √(x.norm - x.q0 ^ 2)⟩ : V3 ℝ) =
      ⟨(⟨x.q1, x.q2, x.q3⟩ : V3 ℝ).x / √(x.norm - x.q0 ^ 2), (⟨x.q1, x.q2, x.q3⟩ : V3 ℝ).y / √(x.norm - x.q0 ^ 2),
        (⟨x.q1, x.q2, x.q3⟩ : V3 ℝ).z / √(x.norm - x.q0 ^ 2)⟩ from rfl, rotF_div, e, this]

theorem about_scaleRotation {r : Quat ℝ} (hr : r.nsq = 1) (q : Quat ℝ) (k : ℝ) :
    (r.about q).scaleRotation k = (q.scaleRotation k).map r.about := by
  unfold scaleRotation
  rw [about_rotationAngle hr]
  cases hq : q.rotationAngle with
  | error e => rfl
  | ok x =>
    dsimp only [Except.map]
    by_cases h0 : x.1 = 0
    · rw [if_pos h0, if_pos h0]
    · rw [if_neg h0, if_neg h0]
      have hx : x.2.rotationAngle = .ok (x.1, x.2) := by
        unfold rotationAngle at hq ⊢
        cases hn : q.normalize with
        | error e => rw [hn] at hq; cases hq
        | ok y =>
          rw [hn] at hq
          obtain rfl := Except.ok.inj hq
          dsimp only
          have hy : y.normalize = .ok y := by
            have hq0 : q ≠ zeroQ := by
              intro h
              rw [(qnormalize_spec q).1.2 h] at hn
              cases hn
            obtain ⟨y', h1, h2, -⟩ := (qnormalize_spec q).2 hq0
            obtain rfl := Except.ok.inj (h1.symm.trans hn)
            unfold normalize
            simp [h2]
          rw [hy]
      rw [about_rotationAxis hr x.2 hx h0]
      cases x.2.rotationAxis with
      | error e => rfl
      | ok u =>
        dsimp only [Except.map]
        rw [about_axisAngle hr]

/-- the sandwich product of a unit quaternion is the rotation -/
theorem sandwich_left {r : Quat ℝ} (hr : r.nsq = 1) (q : Quat ℝ) (v : V3 ℝ) : (r.mul q).sandwich v = r.rotF (q.sandwich v) := by
  unfold rotF
  rw [hr]
  apply V3.ext' <;> simp only [sandwich, mul, conj, smul_x, smul_y, smul_z] <;> ring

theorem rotate_left {r : Quat ℝ} (hr : r.nsq = 1) (q : Quat ℝ) (v : V3 ℝ) :
    (r.mul q).rotate v = (q.rotate v).map fun x => (r.rotF x.1, r.mul x.2) := by
  unfold rotate
  rw [normalize_left hr]
  cases q.normalize with
  | error e => rfl
  | ok x =>
    dsimp only [Except.map]
    rw [sandwich_left hr]

/-- back from the global frame: the turn cancels -/
theorem rotate_back {r : Quat ℝ} (hr : r.nsq = 1) (q : Quat ℝ) (v : V3 ℝ) :
    ((r.mul q).conj.rotate (r.rotF v)).map Prod.fst = (q.conj.rotate v).map Prod.fst := by
  have hn := ENV.unit_ne hr
  have hc : r.conj.nsq = 1 := by rw [conj_nsq]; exact hr
  rw [conj_mul']
  unfold rotate
  rw [normalize_right hc]
  cases q.conj.normalize with
  | error e => rfl
  | ok x =>
    dsimp only [Except.map]
    congr 1
    have h : (x.mul r.conj).sandwich (r.rotF v) = x.sandwich (r.conj.sandwich (r.rotF v)) := by
      apply V3.ext' <;> simp only [sandwich, mul, conj] <;> ring
    rw [h]
    have h2 : r.conj.sandwich (r.rotF v) = r.conj.rotF (r.rotF v) := by
      rw [show r.conj.rotF (r.rotF v) = (1 / r.conj.nsq) • r.conj.sandwich (r.rotF v) from rfl, hc]
      apply V3.ext' <;> simp
    rw [h2, ENV.rotF_conj hn]

end Quat

/-! ## States, changes of state, derivatives -/

/-- a state seen from axes turned by `r` and moved by `a`; the angular velocity is given in the body's own axes -/
noncomputable def RBState.turn (r : Quat ℝ) (a : V3 ℝ) (s : RBState) : RBState := ⟨r.rotF s.pos + a, r.rotF s.vel, r.mul s.ori, s.angVel⟩

/-- a change of state -/
noncomputable def RBState.turnChange (r : Quat ℝ) (s : RBState) : RBState := ⟨r.rotF s.pos, r.rotF s.vel, r.about s.ori, s.angVel⟩

/-- the negative of a state -/
noncomputable def RBState.turnNeg (r : Quat ℝ) (a : V3 ℝ) (s : RBState) : RBState :=
  ⟨r.rotF s.pos + (-1 : ℝ) • a, r.rotF s.vel, s.ori.mul r.conj, s.angVel⟩

/-- a derivative: the velocity, the acceleration and the turning rate are given in global axes, the angular acceleration in the body's own -/
noncomputable def RBDeriv.turn (r : Quat ℝ) (d : RBDeriv) : RBDeriv := ⟨r.rotF d.vel, r.rotF d.acc, r.rotF d.angVel, d.angAcc⟩

/-- the operators do not depend on where the axes point and where the origin is -/
theorem turn_hom {r : Quat ℝ} (hr : r.nsq = 1) (a : V3 ℝ) :
    Body.Hom Body.bodyArith Body.bodyArith (RBState.turn r a) (RBState.turnChange r) (RBState.turnNeg r a) (RBDeriv.turn r) where
  add s c := by
    change (s.turn r a).add (c.turnChange r) = (s.add c).map _
    unfold RBState.add
    change (match (r.mul s.ori).normalize with | .error e => _ | .ok o => _) = _
    rw [Quat.normalize_left hr]
    cases s.ori.normalize with
    | error e => rfl
    | ok o =>
      change (match ((r.about c.ori).mul (r.mul o)).normalize with | .error e => _ | .ok o => _) = _
      rw [Quat.about_mul hr, Quat.normalize_left hr]
      dsimp only
      cases (c.ori.mul o).normalize with
      | error e => rfl
      | ok o' =>
        simp only [Except.map, Except.ok.injEq, RBState.turn, RBState.turnChange, ENV.rotF_add]
        congr 1
        apply V3.ext' <;> simp <;> ring
  aug s c := by
    change (s.turnChange r).add (c.turnChange r) = (s.add c).map _
    unfold RBState.add
    change (match (r.about s.ori).normalize with | .error e => _ | .ok o => _) = _
    rw [Quat.normalize_about hr]
    cases s.ori.normalize with
    | error e => rfl
    | ok o =>
      change (match ((r.about c.ori).mul (r.about o)).normalize with | .error e => _ | .ok o => _) = _
      rw [Quat.about_about hr, Quat.normalize_about hr]
      dsimp only
      cases (c.ori.mul o).normalize with
      | error e => rfl
      | ok o' => simp only [Except.map, RBState.turnChange, ENV.rotF_add]
  smul s k := by
    change (s.turnChange r).mul k = (s.mul k).map _
    unfold RBState.mul
    change (match (r.about s.ori).scaleRotation k with | .error e => _ | .ok o => _) = _
    rw [Quat.about_scaleRotation hr]
    cases s.ori.scaleRotation k with
    | error e => rfl
    | ok o => simp only [Except.map, RBState.turnChange, ENV.rotF_smul]
  neg s := by
    change Except.ok (s.turn r a).neg = .ok (s.neg.turnNeg r a)
    unfold RBState.neg RBState.turn RBState.turnNeg
    simp only [Except.ok.injEq, ENV.rotF_smul, Quat.conj_mul']
    congr 1
    apply V3.ext' <;> simp <;> ring
  diff s c := by
    change (s.turnNeg r a).add (c.turn r a) = (s.add c).map _
    unfold RBState.add
    change (match (s.ori.mul r.conj).normalize with | .error e => _ | .ok o => _) = _
    rw [Quat.normalize_right (by rw [Quat.conj_nsq]; exact hr)]
    cases s.ori.normalize with
    | error e => rfl
    | ok o =>
      change (match ((r.mul c.ori).mul (o.mul r.conj)).normalize with | .error e => _ | .ok o => _) = _
      rw [← Quat.mul_assoc', Quat.mul_assoc' r, show (r.mul (c.ori.mul o)).mul r.conj = r.about (c.ori.mul o) from rfl, Quat.normalize_about hr]
      dsimp only
      cases (c.ori.mul o).normalize with
      | error e => rfl
      | ok o' =>
        simp only [Except.map, Except.ok.injEq, RBState.turn, RBState.turnChange, RBState.turnNeg, ENV.rotF_add]
        congr 1
        apply V3.ext' <;> simp <;> ring
  mag s := by
    change (s.turnChange r).abs = s.abs
    unfold RBState.abs
    rw [show (s.turnChange r).ori = r.about s.ori from rfl]
    rw [Quat.about_rotationAngle hr]
    cases s.ori.rotationAngle with
    | error e => rfl
    | ok x => simp only [Except.map, RBState.turnChange, ENV.rotF_length (ENV.unit_ne hr)]
  dmul d k := by
    change (d.turn r).mul k = (d.mul k).map _
    unfold RBDeriv.mul
    change (match (Quat.ofRotationVector (k • r.rotF d.angVel)).normalize with | .error e => _ | .ok o => _) = _
    rw [← ENV.rotF_smul, Quat.about_ofRotationVector hr, Quat.normalize_about hr]
    cases (Quat.ofRotationVector (k • d.angVel)).normalize with
    | error e => rfl
    | ok o => simp only [Except.map, RBState.turnChange, RBDeriv.turn, ENV.rotF_smul]
  ddiv d k := by
    change (d.turn r).div k = (d.div k).map _
    unfold RBDeriv.div
    split
    · rfl
    · simp only [Except.map, RBDeriv.turn, ENV.rotF_smul]
  dadd d k := by
    change Except.ok ((d.turn r).add (k.turn r)) = .ok ((d.add k).turn r)
    simp only [RBDeriv.add, RBDeriv.turn, ENV.rotF_add]
  daug d k := by
    change Except.ok ((d.turn r).add (k.turn r)) = .ok ((d.add k).turn r)
    simp only [RBDeriv.add, RBDeriv.turn, ENV.rotF_add]

/-- the rigid-body equations do not depend on where the axes point: force and moment are given in the body's own axes -/
theorem derivative_turn {r : Quat ℝ} (hr : r.nsq = 1) (a : V3 ℝ) (s : RBState) (force moment : V3 ℝ) (I1 I2 : MassProps) :
    rigidBodyDerivative (s.turn r a) force moment I1 I2 = (rigidBodyDerivative s force moment I1 I2).map (RBDeriv.turn r) := by
  unfold rigidBodyDerivative
  rw [show (s.turn r a).ori = r.mul s.ori from rfl, show (s.turn r a).angVel = s.angVel from rfl, Quat.rotate_left hr]
  cases s.ori.rotate ((1 / 1e-8 : ℝ) • (I2.cg - I1.cg)) with
  | error e => rfl
  | ok x =>
    dsimp only [Except.map]
    rw [Quat.rotate_left hr]
    cases x.2.rotate force with
    | error e => rfl
    | ok y =>
      dsimp only [Except.map]
      split
      · rfl
      rw [Quat.rotate_left hr]
      cases y.2.rotate s.angVel with
      | error e => rfl
      | ok z =>
        dsimp only [Except.map]
        split
        · rfl
        · simp only [RBDeriv.turn, ENV.rotF_add, ENV.rotF_smul]
          rfl

end Mapleaf.Motion
