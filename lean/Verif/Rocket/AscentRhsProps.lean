import Verif.Rocket.AscentSample
import Mathlib.Analysis.Calculus.MeanValue

/-!
# The right-hand side of the equations of motion of a whole rocket: Newton's and Euler's laws for the sum of the forces on its parts,
and a velocity that follows the centre of gravity within the body
-/

namespace Mapleaf.Rocket
open Mapleaf.Motion V3 ENV

/-- Newton's and Euler's laws for the whole rocket. `f` is the force of all parts, of gravity and of the launch rail; the velocity is that of the state
plus the change of the centre of gravity within the body over the next `1e-8` s. -/
theorem Craft.rhs_newton (c : Craft) (E : Env) (t : ℝ) (s : RBState) {f : FMS ℝ} {i i' : Inertia ℝ} (hf : c.appliedForce E t s = .ok f)
    (hi : c.inertia t = .ok i) (hi' : c.inertia (t + 1e-8) = .ok i') (ho : s.ori ≠ Quat.zeroQ) (hm : i.mass ≠ 0)
    (hx : i.moi.x ≠ 0) (hy : i.moi.y ≠ 0) (hz : i.moi.z ≠ 0) :
    ∃ d, c.rhs E t s = .ok d ∧
      (∃ FG, Quat.IsRotation s.ori f.force FG ∧ i.mass • d.acc = FG) ∧
      (∃ wG, Quat.IsRotation s.ori s.angVel wG ∧ d.angVel = wG) ∧
      tensor i.moi d.angAcc + V3.cross s.angVel (tensor i.moi s.angVel) = f.moment ∧
      (∃ v, Quat.IsRotation s.ori ((1e8 : ℝ) • (i'.cg - i.cg)) v ∧ d.vel = s.vel + v) := by
  obtain ⟨d, h1, h2, h3, h4, -, h5⟩ := newton_euler s f.force f.moment ⟨i.mass, i.moi, i.cg⟩ ⟨i'.mass, i'.moi, i'.cg⟩ ho hm hx hy hz
  refine ⟨d, ?_, h2, h3, h4, h5⟩
  unfold Craft.rhs
  rw [hf, hi, hi']
  exact h1

/-- without mass, without a moment of inertia or without an orientation the equations of motion have no right-hand side -/
theorem Craft.rhs_degenerate (c : Craft) (E : Env) (t : ℝ) (s : RBState) {f : FMS ℝ} {i i' : Inertia ℝ} (hf : c.appliedForce E t s = .ok f)
    (hi : c.inertia t = .ok i) (hi' : c.inertia (t + 1e-8) = .ok i')
    (h : s.ori = Quat.zeroQ ∨ i.mass = 0 ∨ i.moi.x = 0 ∨ i.moi.y = 0 ∨ i.moi.z = 0) : c.rhs E t s = .error .zeroDivision := by
  unfold Craft.rhs
  rw [hf, hi, hi']
  exact newton_euler_degenerate s f.force f.moment ⟨i.mass, i.moi, i.cg⟩ ⟨i'.mass, i'.moi, i'.cg⟩ h

/-- the difference quotient over `1e-8` s of a quantity whose rate changes by at most `L` per second is within `1e-8 L` of its rate -/
theorem quotient_near {g g' : ℝ → ℝ} {t L : ℝ} (hd : ∀ x, t ≤ x → x ≤ t + 1e-8 → HasDerivAt g (g' x) x)
    (hL : ∀ x, t ≤ x → x ≤ t + 1e-8 → |g' x - g' t| ≤ L * (x - t)) (h0 : 0 ≤ L) : |1e8 * (g (t + 1e-8) - g t) - g' t| ≤ 1e-8 * L := by
  have hlt : t < t + 1e-8 := by norm_num
  obtain ⟨x, ⟨hx1, hx2⟩, hx⟩ := exists_hasDerivAt_eq_slope g g' hlt
    (fun x hx => (hd x hx.1 hx.2).continuousAt.continuousWithinAt) (fun x hx => hd x hx.1.le hx.2.le)
  have e : 1e8 * (g (t + 1e-8) - g t) = g' x := by
    rw [hx, add_sub_cancel_left]
    norm_num
    ring
  rw [e]
  refine (hL x hx1.le hx2.le).trans ?_
  nlinarith

/-- the velocity of the rocket in its own axes, relative to the state's, is that of its centre of gravity up to `1e-8 L` in every axis, if the
velocity of the centre of gravity within the body changes by at most `L` per second -/
theorem Craft.rhs_velocity (c : Craft) (E : Env) (t : ℝ) (s : RBState) {f : FMS ℝ} {i : ℝ → Inertia ℝ} (hf : c.appliedForce E t s = .ok f)
    (hi : ∀ x, t ≤ x → x ≤ t + 1e-8 → c.inertia x = .ok (i x)) (ho : s.ori ≠ Quat.zeroQ) (hm : (i t).mass ≠ 0)
    (hx : (i t).moi.x ≠ 0) (hy : (i t).moi.y ≠ 0) (hz : (i t).moi.z ≠ 0) {w : ℝ → V3 ℝ} {L : ℝ} (h0 : 0 ≤ L)
    (dx : ∀ x, t ≤ x → x ≤ t + 1e-8 → HasDerivAt (fun y => (i y).cg.x) (w x).x x ∧ |(w x).x - (w t).x| ≤ L * (x - t))
    (dy : ∀ x, t ≤ x → x ≤ t + 1e-8 → HasDerivAt (fun y => (i y).cg.y) (w x).y x ∧ |(w x).y - (w t).y| ≤ L * (x - t))
    (dz : ∀ x, t ≤ x → x ≤ t + 1e-8 → HasDerivAt (fun y => (i y).cg.z) (w x).z x ∧ |(w x).z - (w t).z| ≤ L * (x - t)) :
    ∃ d b v, c.rhs E t s = .ok d ∧ Quat.IsRotation s.ori b v ∧ d.vel = s.vel + v ∧
      |b.x - (w t).x| ≤ 1e-8 * L ∧ |b.y - (w t).y| ≤ 1e-8 * L ∧ |b.z - (w t).z| ≤ 1e-8 * L := by
  have h8 : t ≤ t + 1e-8 := by norm_num
  obtain ⟨d, h1, -, -, -, v, hv, h5⟩ := c.rhs_newton E t s hf (hi t le_rfl h8) (hi (t + 1e-8) h8 le_rfl) ho hm hx hy hz
  refine ⟨d, _, v, h1, hv, h5, ?_, ?_, ?_⟩
  · rw [smul_x, sub_x, mul_comm]
    exact quotient_near (g := fun y => (i y).cg.x) (g' := fun y => (w y).x) (fun x a b => (dx x a b).1) (fun x a b => (dx x a b).2) h0
  · rw [smul_y, sub_y, mul_comm]
    exact quotient_near (g := fun y => (i y).cg.y) (g' := fun y => (w y).y) (fun x a b => (dy x a b).1) (fun x a b => (dy x a b).2) h0
  · rw [smul_z, sub_z, mul_comm]
    exact quotient_near (g := fun y => (i y).cg.z) (g' := fun y => (w y).z) (fun x a b => (dz x a b).1) (fun x a b => (dz x a b).2) h0

/-- hypotheses of `rhs_newton` and `rhs_velocity`: the rocket of the sample on its rail -/
example : ∃ d, Ascent.craft.rhs Ascent.env 0 Ascent.start = .ok d ∧ ∃ f : FMS ℝ, 0 < f.force.z ∧ Quat.IsRotation ⟨1, 0, 0, 0⟩ f.force d.acc := by
  obtain ⟨F, hF, -, hz⟩ := Ascent.start_force
  have ho : Ascent.start.ori ≠ Quat.zeroQ := by
    intro h
    have := congrArg Quat.q0 h
    simp [Ascent.start, Quat.zeroQ] at this
  obtain ⟨d, hd, ⟨FG, h1, h2⟩, -⟩ := Ascent.craft.rhs_newton Ascent.env 0 Ascent.start hF (Ascent.craft_inertia 0) (Ascent.craft_inertia _) ho
    (by simp [Ascent.body]) (by simp [Ascent.body]) (by simp [Ascent.body]) (by simp [Ascent.body])
  refine ⟨d, hd, F, hz, ?_⟩
  obtain rfl : d.acc = FG := by
    rw [← h2]
    apply V3.ext' <;> simp [Ascent.body]
  exact h1

example : ∃ d b v, Ascent.craft.rhs Ascent.env 0 Ascent.start = .ok d ∧ Quat.IsRotation Ascent.start.ori b v ∧ d.vel = Ascent.start.vel + v ∧
    |b.x| ≤ 0 ∧ |b.y| ≤ 0 ∧ |b.z| ≤ 0 := by
  obtain ⟨F, hF, -, hz⟩ := Ascent.start_force
  have ho : Ascent.start.ori ≠ Quat.zeroQ := by
    intro h
    have := congrArg Quat.q0 h
    simp [Ascent.start, Quat.zeroQ] at this
  obtain ⟨d, b, v, h1, h2, h3, h4⟩ := Ascent.craft.rhs_velocity Ascent.env 0 Ascent.start (i := fun _ => Ascent.body) hF
    (fun x _ _ => Ascent.craft_inertia x) ho (by simp [Ascent.body]) (by simp [Ascent.body]) (by simp [Ascent.body]) (by simp [Ascent.body])
    (w := fun _ => ⟨0, 0, 0⟩) (L := 0) le_rfl (fun x _ _ => ⟨hasDerivAt_const _ _, by simp⟩) (fun x _ _ => ⟨hasDerivAt_const _ _, by simp⟩)
    (fun x _ _ => ⟨hasDerivAt_const _ _, by simp⟩)
  simp only [sub_zero, mul_zero] at h4
  exact ⟨d, b, v, h1, h2, h3, h4⟩

end Mapleaf.Rocket
