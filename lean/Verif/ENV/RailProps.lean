import Verif.ENV.RailModel
import Verif.Motion.QuatProps
import Mathlib.Analysis.InnerProductSpace.Projection.Basic
import Mathlib.Analysis.SpecialFunctions.Trigonometric.Deriv

/-!
# C36: the launch rail
-/

namespace Mapleaf.ENV
open Mapleaf.Motion Mapleaf.Motion.V3

/-- Turning a point about the z axis by the angle `θ`, in coordinates. -/
noncomputable def turnZ (θ : ℝ) (v : V3 ℝ) : V3 ℝ :=
  ⟨Real.cos θ * v.x - Real.sin θ * v.y, Real.sin θ * v.x + Real.cos θ * v.y, v.z⟩

theorem zAxis_unit : (⟨0, 0, 1⟩ : V3 ℝ).normalize = ⟨0, 0, 1⟩ := by
  have hl : (⟨0, 0, 1⟩ : V3 ℝ).length = 1 := by simp [V3.length]
  refine (normalize_unique _ _ ?_ ?_).symm
  · intro h; have := congrArg V3.z h; simp at this
  · rw [hl, one_smul]

theorem zTurn (θ : ℝ) (v : V3 ℝ) : ((Quat.axisAngle ⟨0, 0, 1⟩ θ).rotate v).map Prod.fst = .ok (turnZ θ v) := by
  have hne : (⟨0, 0, 1⟩ : V3 ℝ) ≠ 0 := by intro h; have := congrArg V3.z h; simp at this
  obtain ⟨r, hr⟩ := (Quat.axisAngle_rotates ⟨0, 0, 1⟩ θ hne v).2.1
  rw [hr, zAxis_unit]
  simp only [Except.map]
  congr 1
  apply V3.ext' <;> simp [Quat.rodrigues, turnZ, cross, dot] <;> ring

theorem turnZ_dot (θ : ℝ) (a b : V3 ℝ) : dot (turnZ θ a) (turnZ θ b) = dot a b := by
  have := Real.sin_sq_add_cos_sq θ
  simp only [turnZ, dot]
  linear_combination (a.x * b.x + a.y * b.y) * this

theorem turnZ_zero (v : V3 ℝ) : turnZ 0 v = v := by
  apply V3.ext' <;> simp [turnZ]

namespace Rail
variable (r : Rail)

theorem getPosition_ok (t : ℝ) : r.getPosition t = .ok (turnZ (r.rate * t) r.pos) := zTurn _ _
theorem getDirection_ok (t : ℝ) : r.getDirection t = .ok (turnZ (r.rate * t) r.dir) := zTurn _ _
theorem getVelocity_ok (t : ℝ) : r.getVelocity t = .ok (cross ⟨0, 0, r.rate⟩ (turnZ (r.rate * t) r.pos)) := by
  unfold getVelocity; rw [getPosition_ok]

/-- **C36.** The rail is carried along by the earth: its foot and its direction are turned about the earth's axis by the
angle rate·time (never an error), a rail built with a non-zero direction has a unit direction at all times, and the
velocity reported for the foot is the time derivative of its position. -/
theorem rail_motion (t : ℝ) :
    (∃ p d v, r.getPosition t = .ok p ∧ r.getDirection t = .ok d ∧ r.getVelocity t = .ok v ∧
      p = turnZ (r.rate * t) r.pos ∧ d = turnZ (r.rate * t) r.dir ∧ d.length = r.dir.length ∧ p.length = r.pos.length ∧
      HasDerivAt (fun u => (turnZ (r.rate * u) r.pos).x) v.x t ∧
      HasDerivAt (fun u => (turnZ (r.rate * u) r.pos).y) v.y t ∧
      HasDerivAt (fun u => (turnZ (r.rate * u) r.pos).z) v.z t) ∧
    (∀ pos dir l w, dir ≠ 0 → (Rail.make pos dir l w).dir.length = 1) := by
  have hlen : ∀ v : V3 ℝ, (turnZ (r.rate * t) v).length = v.length := by
    intro v
    have h1 := turnZ_dot (r.rate * t) v v
    rw [← length_sq, ← length_sq] at h1
    nlinarith [V3.length_nonneg v, V3.length_nonneg (turnZ (r.rate * t) v),
      mul_self_eq_mul_self_iff.1 h1 |>.elim (fun h => h) (fun h => by
        have a := V3.length_nonneg v; have b := V3.length_nonneg (turnZ (r.rate * t) v); linarith)]
  refine ⟨⟨_, _, _, r.getPosition_ok t, r.getDirection_ok t, r.getVelocity_ok t, rfl, rfl, hlen _, hlen _, ?_, ?_, ?_⟩, ?_⟩
  · have hl : HasDerivAt (fun u : ℝ => r.rate * u) r.rate t := by simpa using (hasDerivAt_id t).const_mul r.rate
    refine ((hl.cos.mul_const r.pos.x).sub (hl.sin.mul_const r.pos.y)).congr_deriv ?_
    simp [cross, turnZ]; ring
  · have hl : HasDerivAt (fun u : ℝ => r.rate * u) r.rate t := by simpa using (hasDerivAt_id t).const_mul r.rate
    refine ((hl.sin.mul_const r.pos.x).add (hl.cos.mul_const r.pos.y)).congr_deriv ?_
    simp [cross, turnZ]; ring
  · refine (hasDerivAt_const t r.pos.z).congr_deriv ?_
    simp [cross]
  · intro pos dir l w h
    exact (normalize_spec dir).1 h

/-- **C36.** The force while the rocket is within the rail's length of the (moved) foot: a multiple of the rail's
initial direction, no moment, applied at the origin. The multiple is the component of the incoming force along the
current direction. Farther away the force is returned as it is. Nothing else happens. -/
theorem force_spec (pos : V3 ℝ) (t : ℝ) (f : FMS ℝ) :
    ((pos - turnZ (r.rate * t) r.pos).length < r.length →
      r.applyForce pos t f = .ok ⟨dot f.force (turnZ (r.rate * t) r.dir) • r.dir, 0, 0⟩) ∧
    (r.length ≤ (pos - turnZ (r.rate * t) r.pos).length → r.applyForce pos t f = .ok f) := by
  constructor
  · intro h
    unfold applyForce
    rw [getPosition_ok, getDirection_ok]
    simp only [if_pos h]
  · intro h
    unfold applyForce
    rw [getPosition_ok]
    simp only [if_neg (not_lt.2 h)]

/-- **C36 (partial: a rail that does not rotate, force and rail in the same frame).** On the rail the force is replaced by
its orthogonal projection onto the rail's direction, and all moments vanish. What is missing: a rotating earth, where the
result points along the initial direction, and the rocket's frame, see `tilted_rail_violated`. -/
theorem force_projection_partial (hr : r.rate = 0) (hd : r.dir.length = 1) (pos : V3 ℝ) (t : ℝ) (f : FMS ℝ)
    (h : (pos - r.pos).length < r.length) :
    ∃ g, r.applyForce pos t f = .ok g ∧ g.moment = 0 ∧
      toE g.force = (Submodule.span ℝ {toE r.dir}).starProjection (toE f.force) := by
  have h0 : ∀ v, turnZ (r.rate * t) v = v := by intro v; rw [hr, zero_mul, turnZ_zero]
  have := (r.force_spec pos t f).1 (by rw [h0]; exact h)
  rw [h0] at this
  refine ⟨_, this, rfl, ?_⟩
  have hu : ‖toE r.dir‖ = 1 := by rw [← length_eq_norm]; exact hd
  rw [Submodule.starProjection_unit_singleton ℝ hu]
  rw [← dot_eq_inner]
  have hc : dot r.dir f.force = dot f.force r.dir := by simp [dot]; ring
  rw [hc]
  ext i
  fin_cases i <;> simp [toE, mul_comm]

/-- The distance along the rail, of a position at a time. -/
noncomputable def along (t : ℝ) (p : V3 ℝ) : ℝ := dot (p - turnZ (r.rate * t) r.pos) (turnZ (r.rate * t) r.dir)

/-- **C36.** The motion constraint, exactly. At or past the end of the rail: reported off the rail, state untouched.
Strictly above the foot: on the rail, state untouched. At or below the foot: on the rail, position put back to the foot,
and a velocity that points down the rail replaced by the velocity of the rail itself. -/
theorem constrain_spec (s : RBState3) (t : ℝ) :
    (r.length ≤ r.along t s.pos → r.constrain s t = .ok (false, s)) ∧
    (r.along t s.pos < r.length → 0 < r.along t s.pos → r.constrain s t = .ok (true, s)) ∧
    (r.along t s.pos < r.length → r.along t s.pos ≤ 0 → dot s.vel (turnZ (r.rate * t) r.dir) < 0 →
      r.constrain s t = .ok (true, ⟨turnZ (r.rate * t) r.pos, cross ⟨0, 0, r.rate⟩ (turnZ (r.rate * t) r.pos)⟩)) ∧
    (r.along t s.pos < r.length → r.along t s.pos ≤ 0 → 0 ≤ dot s.vel (turnZ (r.rate * t) r.dir) →
      r.constrain s t = .ok (true, ⟨turnZ (r.rate * t) r.pos, s.vel⟩)) := by
  unfold constrain along
  rw [getPosition_ok, getDirection_ok, getVelocity_ok]
  dsimp only
  refine ⟨fun h => ?_, fun h h' => ?_, fun h h' h'' => ?_, fun h h' h'' => ?_⟩
  · rw [if_neg (not_lt.2 h)]
  · rw [if_pos h, if_neg (not_le.2 h')]
  · rw [if_pos h, if_pos h', if_pos h'']
  · rw [if_pos h, if_pos h', if_neg (not_lt.2 h'')]

/-- **C36.** The constraint never fails, and a rocket it reports on the rail is at the foot or above it; it reports "off"
exactly from the end of the rail on. -/
theorem constrain_above_foot (s : RBState3) (t : ℝ) :
    ∃ b s', r.constrain s t = .ok (b, s') ∧ 0 ≤ (if b then r.along t s'.pos else 0) ∧
      (b = false ↔ r.length ≤ r.along t s.pos) ∧ (b = false → s' = s) := by
  obtain ⟨h1, h2, h3, h4⟩ := r.constrain_spec s t
  have hfoot : r.along t (turnZ (r.rate * t) r.pos) = 0 := by unfold along; simp [dot]
  rcases le_or_gt r.length (r.along t s.pos) with h | h
  · exact ⟨_, _, h1 h, by simp, by simp [h], by simp⟩
  · rcases lt_or_ge 0 (r.along t s.pos) with h' | h'
    · exact ⟨_, _, h2 h h', by simpa using h'.le, by simp [h], by simp⟩
    · rcases lt_or_ge (dot s.vel (turnZ (r.rate * t) r.dir)) 0 with h'' | h''
      · exact ⟨_, _, h3 h h' h'', by simp [hfoot], by simp [h], by simp⟩
      · exact ⟨_, _, h4 h h' h'', by simp [hfoot], by simp [h], by simp⟩

/-- The rocket sits on the line of a rail that does not rotate and moves along it. -/
def OnLine (s : RBState3) : Prop := ∃ a b : ℝ, s.pos = r.pos + a • r.dir ∧ s.vel = b • r.dir

/-- **C36 (partial: no rotation, force in the rail's frame).** On the line and moving along it, the rocket stays so: the
motion constraint keeps it there and leaves it at the foot or above, moving up or not at all when at the foot; the
acceleration on the rail is along the line as well, so any step with a velocity and an acceleration taken at such states
stays on the line. -/
theorem line_partial (hr : r.rate = 0) (hd : r.dir.length = 1) (s : RBState3) (hs : r.OnLine s) (t : ℝ) :
    (∃ b s', r.constrain s t = .ok (b, s') ∧ r.OnLine s' ∧
      (b = true → 0 ≤ dot (s'.pos - r.pos) r.dir ∧
        (dot (s.pos - r.pos) r.dir ≤ 0 → s'.pos = r.pos ∧ 0 ≤ dot s'.vel r.dir))) ∧
    (∀ f g m, (s.pos - r.pos).length < r.length → r.applyForce s.pos t f = .ok g → m ≠ 0 →
      ∃ a : ℝ, rigidBodyDerivative3 s g.force m = .ok (s.vel, a • r.dir) ∧
        ∀ (h : ℝ) (s1 : RBState3), r.OnLine s1 → r.OnLine ⟨s.pos + h • s1.vel, s.vel + h • (a • r.dir)⟩) := by
  have h0 : ∀ v, turnZ (r.rate * t) v = v := by intro v; rw [hr, zero_mul, turnZ_zero]
  have hdd : dot r.dir r.dir = 1 := by rw [← length_sq, hd, one_mul]
  constructor
  · obtain ⟨h1, h2, h3, h4⟩ := r.constrain_spec s t
    simp only [along, h0] at h1 h2 h3 h4
    have hz : cross ⟨0, 0, r.rate⟩ r.pos = 0 := by rw [hr]; apply V3.ext' <;> simp [cross]
    have hself : dot (r.pos - r.pos) r.dir = 0 := by simp [dot]
    obtain ⟨a, b, hp, hv⟩ := hs
    rcases le_or_gt r.length (dot (s.pos - r.pos) r.dir) with h | h
    · exact ⟨_, _, h1 h, ⟨a, b, hp, hv⟩, by simp⟩
    · rcases lt_or_ge 0 (dot (s.pos - r.pos) r.dir) with h' | h'
      · refine ⟨_, _, h2 h h', ⟨a, b, hp, hv⟩, fun _ => ⟨h'.le, fun he => ?_⟩⟩
        exact absurd h' (not_lt.2 he)
      · rcases lt_or_ge (dot s.vel r.dir) 0 with h'' | h''
        · refine ⟨_, _, h3 h h' h'', ⟨0, 0, by simp, by rw [hz]; simp⟩, fun _ => ⟨by rw [hself], fun _ => ⟨rfl, ?_⟩⟩⟩
          rw [hz]; simp [dot]
        · exact ⟨_, _, h4 h h' h'', ⟨0, b, by simp, hv⟩, fun _ => ⟨by rw [hself], fun _ => ⟨rfl, h''⟩⟩⟩
  · intro f g m hl hg hm
    have := (r.force_spec s.pos t f).1 (by rw [h0]; exact hl)
    rw [this] at hg
    cases hg
    refine ⟨1 / m * dot f.force (turnZ (r.rate * t) r.dir), ?_, ?_⟩
    · unfold rigidBodyDerivative3
      rw [if_neg hm, smul_smul]
    · rintro h s1 ⟨a1, b1, hp1, hv1⟩
      obtain ⟨a, b, hp, hv⟩ := hs
      refine ⟨a + h * b1, b + h * (1 / m * dot f.force (turnZ (r.rate * t) r.dir)), ?_, ?_⟩
      · simp only [hp, hv1, smul_smul, add_smul]; rw [add_assoc]
      · simp only [hv, smul_smul, add_smul]

/-- The end of the rail is consistent: when the constraint reports the rail cleared, the force is free as well. -/
theorem cleared_force_free (hd : r.dir.length = 1) (p : V3 ℝ) (t : ℝ) (f : FMS ℝ) (h : r.length ≤ r.along t p) :
    r.applyForce p t f = .ok f := by
  apply (r.force_spec p t f).2
  refine h.trans ?_
  unfold along
  obtain ⟨⟨_, d, _, _, _, _, _, hd', hlen, _⟩, _⟩ := r.rail_motion t
  rw [hd', hd] at hlen
  have h1 := real_inner_le_norm (toE (p - turnZ (r.rate * t) r.pos)) (toE (turnZ (r.rate * t) r.dir))
  rw [← dot_eq_inner, ← length_eq_norm, ← length_eq_norm, hlen, mul_one] at h1
  exact h1

end Rail

/-- What a call answers when there is no rail: the state or the force that was passed in. -/
def RailCall.unconstrained : RailCall → RailAnswer
  | .constrain s _ => .state s
  | .force _ _ f => .force f

/-- The call is a motion constraint for a state at or past the end of the rail. -/
def RailCall.clears (r : Rail) : RailCall → Prop
  | .constrain s t => r.length ≤ r.along t s.pos
  | .force _ _ _ => False

theorem railCalls_none (cs : List RailCall) : railCalls none cs = .ok (cs.map RailCall.unconstrained, none) := by
  induction cs with
  | nil => rfl
  | cons c cs ih =>
    cases c <;>
      simp [railCalls, railCall, envConstrain, envForce, Except.map, ih, RailCall.unconstrained]

/-- **C36.** For every history of calls: no call fails; the rail is gone at the end exactly if some motion constraint was
asked for a state at or past its end; and from then on every state and every force is returned as it was passed in, for
whatever states, times and forces follow. Before that the rail is the original one. -/
theorem rail_history (r : Rail) (cs : List RailCall) :
    ∃ as rail, railCalls (some r) cs = .ok (as, rail) ∧ as.length = cs.length ∧ (rail = none ∨ rail = some r) ∧
      (rail = none ↔ ∃ c ∈ cs, c.clears r) ∧
      (rail = none → ∀ cs', railCalls (some r) (cs ++ cs') = .ok (as ++ cs'.map RailCall.unconstrained, none)) := by
  induction cs with
  | nil => exact ⟨[], some r, rfl, rfl, Or.inr rfl, by simp, by simp⟩
  | cons c cs ih =>
    obtain ⟨as, rail, hrun, hlen, hor, hiff, hafter⟩ := ih
    cases c with
    | force p t f =>
      obtain ⟨g, hg⟩ : ∃ g, r.applyForce p t f = .ok g := by
        rcases lt_or_ge (p - turnZ (r.rate * t) r.pos).length r.length with h | h
        · exact ⟨_, (r.force_spec p t f).1 h⟩
        · exact ⟨_, (r.force_spec p t f).2 h⟩
      refine ⟨.force g :: as, rail, ?_, by simp [hlen], hor, ?_, ?_⟩
      · simp [railCalls, railCall, envForce, hg, Except.map, hrun]
      · rw [hiff]; simp [RailCall.clears]
      · intro hn cs'
        simp [railCalls, railCall, envForce, hg, Except.map, hafter hn cs']
    | constrain s t =>
      obtain ⟨b, s', hc, _, hb, hsame⟩ := r.constrain_above_foot s t
      cases b with
      | true =>
        have hno : ¬ RailCall.clears r (.constrain s t) := by
          unfold RailCall.clears
          intro hcl
          exact absurd (hb.2 hcl) (by simp)
        refine ⟨.state s' :: as, rail, ?_, by simp [hlen], hor, ?_, ?_⟩
        · simp [railCalls, railCall, envConstrain, hc, Except.map, hrun]
        · rw [hiff]; simp [hno]
        · intro hn cs'
          simp [railCalls, railCall, envConstrain, hc, Except.map, hafter hn cs']
      | false =>
        refine ⟨.state s' :: cs.map RailCall.unconstrained, none, ?_, by simp, Or.inl rfl, ?_, ?_⟩
        · simp [railCalls, railCall, envConstrain, hc, Except.map, railCalls_none]
        · exact ⟨fun _ => ⟨_, List.mem_cons_self, hb.1 rfl⟩, fun _ => rfl⟩
        · intro _ cs'
          simp [railCalls, railCall, envConstrain, hc, Except.map, railCalls_none]

/-- **C36 (partial: rails whose direction the rocket's orientation leaves in place, e.g. a vertical rail on a flat earth
with any roll angle; no rotation of the earth).** The force on the rocket, in the global frame, is the orthogonal
projection of the free force, in the global frame, onto the rail. -/
theorem global_force_partial (r : Rail) (hr : r.rate = 0) (pos : V3 ℝ) (t : ℝ) (f : FMS ℝ) (q q' q'' : Quat ℝ)
    (fG : V3 ℝ) (hfix : q.rotate r.dir = .ok (r.dir, q')) (hf : q.rotate f.force = .ok (fG, q''))
    (h : (pos - r.pos).length < r.length) :
    globalForce (some r) pos q t f = .ok (dot fG r.dir • r.dir) := by
  have h0 : ∀ v, turnZ (r.rate * t) v = v := by intro v; rw [hr, zero_mul, turnZ_zero]
  unfold globalForce envForce
  simp only
  rw [(r.force_spec pos t f).1 (by rw [h0]; exact h), h0]
  simp only
  obtain ⟨hdot, _⟩ := Quat.rotate_isometry q f.force r.dir fG r.dir q'' q' 0 hf hfix
  obtain ⟨_, _, _, _, _, hs⟩ := Quat.rotate_isometry q r.dir r.dir r.dir r.dir q' q' (dot f.force r.dir) hfix hfix
  rw [hs, hdot]
  rfl

/-- non-vacuity of `global_force_partial`: a rocket rolled by a quarter turn about a vertical rail -/
example : ∃ q', (⟨1, 0, 0, 1⟩ : Quat ℝ).rotate ⟨0, 0, 1⟩ = .ok (⟨0, 0, 1⟩, q') := by
  refine ⟨(⟨1, 0, 0, 1⟩ : Quat ℝ).scale (1 / (⟨1, 0, 0, 1⟩ : Quat ℝ).norm), (Quat.rotate_eq_rotF _ _ ?_).trans ?_⟩
  · intro h; have := congrArg Quat.q0 h; simp [Quat.zeroQ] at this
  · congr 2
    apply V3.ext' <;> norm_num [Quat.rotF, Quat.nsq, Quat.sandwich, Quat.mul, Quat.conj]

/-- **C36 violated.** A rail leaning by the angle with cosine 3/5, the rocket aligned with it (its axis is the rail's
direction), and a thrust of 1 N along the rocket's axis, that is straight up the rail. The resulting global force is not along the
rail: it points sideways and *down* (z component −21/125), because the force in the rocket's frame is projected on the
rail's direction in the global frame. -/
theorem tilted_rail_violated :
    let r : Rail := ⟨0, ⟨0, -4/5, 3/5⟩, 5, 0⟩
    let q : Quat ℝ := ⟨2, 1, 0, 0⟩
    let f : FMS ℝ := ⟨⟨0, 0, 1⟩, 0, 0⟩
    (∃ q', q.rotate f.force = .ok (r.dir, q')) ∧
    globalForce (some r) 0 q 0 f = .ok ⟨0, -72/125, -21/125⟩ ∧
    ¬ ∃ k : ℝ, (⟨0, -72/125, -21/125⟩ : V3 ℝ) = k • r.dir := by
  intro r q f
  have hq : q ≠ Quat.zeroQ := by
    intro h; have := congrArg Quat.q0 h; simp [Quat.zeroQ, q] at this
  have hpos : ((0 : V3 ℝ) - r.pos).length < r.length := by
    simp [r, V3.length]
  refine ⟨⟨q.scale (1 / q.norm), (Quat.rotate_eq_rotF _ _ hq).trans ?_⟩, ?_, ?_⟩
  · congr 2
    apply V3.ext' <;> norm_num [Quat.rotF, Quat.nsq, Quat.sandwich, Quat.mul, Quat.conj, q, f, r]
  · unfold globalForce envForce
    simp only
    have h0 : ∀ v, turnZ (r.rate * 0) v = v := by intro v; rw [mul_zero, turnZ_zero]
    rw [(r.force_spec 0 0 f).1 (by rw [h0]; exact hpos), h0]
    simp only
    rw [Quat.rotate_eq_rotF _ _ hq]
    simp only [Except.map]
    congr 1
    apply V3.ext' <;> norm_num [Quat.rotF, Quat.nsq, Quat.sandwich, Quat.mul, Quat.conj, q, f, r, dot]
  · rintro ⟨k, hk⟩
    have h1 := congrArg V3.y hk
    have h2 := congrArg V3.z hk
    simp [r] at h1 h2
    linarith

/-- **C36 violated.** On a rotating earth the test for sliding back uses the inertial velocity: a rail pointing east, the
rocket at its foot and sliding down the rail (velocity relative to the rail −1/2 along it) is left moving. -/
theorem sliding_back_violated :
    let r : Rail := ⟨⟨1, 0, 0⟩, ⟨0, 1, 0⟩, 5, 1⟩
    let s : RBState3 := ⟨⟨1, 0, 0⟩, ⟨0, 1/2, 0⟩⟩
    r.constrain s 0 = .ok (true, s) ∧
    ∃ v, r.getVelocity 0 = .ok v ∧ dot (s.vel - v) r.dir = -1/2 := by
  intro r s
  have h0 : ∀ v, turnZ (r.rate * 0) v = v := by intro v; rw [mul_zero, turnZ_zero]
  constructor
  · have := (r.constrain_spec s 0).2.2.2
    simp only [Rail.along, h0] at this
    rw [this]
    · norm_num [r, s, dot]
    · norm_num [r, s, dot]
    · norm_num [r, s, dot]
  · refine ⟨_, r.getVelocity_ok 0, ?_⟩
    rw [h0]
    norm_num [r, s, dot, cross]

/-- **C36 violated.** A position beside the rail is not brought back to it, neither by the constraint nor by the force. -/
theorem off_line_violated :
    let r : Rail := ⟨0, ⟨0, 0, 1⟩, 5, 0⟩
    let s : RBState3 := ⟨⟨3, 0, 1⟩, ⟨1, 0, 0⟩⟩
    ∀ t, r.constrain s t = .ok (true, s) ∧ ¬ r.OnLine s := by
  intro r s t
  have h0 : ∀ v, turnZ (r.rate * t) v = v := by intro v; simp only [r, zero_mul, turnZ_zero]
  constructor
  · have := (r.constrain_spec s t).2.1
    simp only [Rail.along, h0] at this
    exact this (by norm_num [r, s, dot]) (by norm_num [r, s, dot])
  · rintro ⟨a, b, hp, _⟩
    have := congrArg V3.x hp
    simp [r, s] at this

end Mapleaf.ENV
