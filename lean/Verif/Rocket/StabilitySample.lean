import Verif.Rocket.StabilityProps
import Verif.Rocket.AscentSample

/-!
# C97: the hypotheses can be met; three fins
-/

namespace Mapleaf.Rocket
open Mapleaf.Motion V3 ENV

/-- **C97.** Three fins, air in the plane of the first: the drag of the other two, which are at an angle of attack, tilts the rocket too, so
the moment is not that of a force at the centre of pressure. -/
theorem FinSet.three_fins (p : FinSet) (h : p.Regular) (s : Ship) (f : Flow) (cg : V3 ℝ) (t : ℝ)
    (hd : ∀ i < p.shape.geom.numFins, p.deflection i t = 0) (hn : p.shape.geom.numFins = 3) (h0 : p.shape.geom.firstFinAngle = 0)
    (hm : 0 ≤ f.mach) (ho : f.omega = 0) (hy : f.v.y = 0)
    (hv : Real.sqrt (f.v.x ^ 2 + f.v.y ^ 2) ≤ (1 - 1e-14) * f.v.length) (F : FMS ℝ) (hF : p.force s f cg t = .ok F) :
    ∃ cpx cd, cpXPos p.cpCoeffs p.shape.geom.aspectRatio p.shape.mac p.macX f.mach = .ok cpx ∧ p.shape.dragCd p.thickK s f = .ok cd ∧
      ∀ z, tilt F z f.v = (p.position.z - cpx - z) * push F f.v -
        p.factor * (p.macY + p.shape.geom.bodyRadius) * cd * s.aref * f.q * f.v.x *
          (dragToAxial (rawAOA (Real.sqrt 3 / 2 * f.v.x) f.v.length) - 1) := by
  obtain ⟨cpx, cd, h1, h2, h3, -⟩ := p.still_formula h s f cg t hd hm ho F hF
  refine ⟨cpx, cd, h1, h2, fun z => ?_⟩
  rw [h3 z, hn, Finset.sum_range_succ, Finset.sum_range_succ, Finset.sum_range_one]
  have d0 : p.shape.geom.direction 0 = ⟨1, 0, 0⟩ := by
    simp [FinGeom.direction, h0]
  have d1 : p.shape.geom.direction 1 = ⟨-(1 / 2), Real.sqrt 3 / 2, 0⟩ := by
    have : (p.shape.geom.firstFinAngle + ((1 : ℕ) : ℝ) * (360 / (p.shape.geom.numFins : ℝ))) * Real.pi / 180 = Real.pi - Real.pi / 3 := by
      rw [h0, hn]; push_cast; ring
    unfold FinGeom.direction
    dsimp only
    rw [this, Real.cos_pi_sub, Real.sin_pi_sub, Real.cos_pi_div_three, Real.sin_pi_div_three]
  have d2 : p.shape.geom.direction 2 = ⟨-(1 / 2), -(Real.sqrt 3 / 2), 0⟩ := by
    have : (p.shape.geom.firstFinAngle + ((2 : ℕ) : ℝ) * (360 / (p.shape.geom.numFins : ℝ))) * Real.pi / 180 = Real.pi / 3 + Real.pi := by
      rw [h0, hn]; push_cast; ring
    unfold FinGeom.direction
    dsimp only
    rw [this, Real.cos_add_pi, Real.sin_add_pi, Real.cos_pi_div_three, Real.sin_pi_div_three]
  have hle : |Real.sqrt 3 / 2 * f.v.x| ≤ (1 - 1e-14) * f.v.length := by
    have e : across (p.shape.geom.direction 1) f.v = Real.sqrt 3 / 2 * f.v.x := by rw [d1]; simp [across, hy]
    rw [← e]
    exact (across_le _ _ (direction_ok _ 1).2).trans hv
  have a0 : across (p.shape.geom.direction 0) f.v = 0 := by rw [d0]; simp [across, hy]
  have a1 : across (p.shape.geom.direction 1) f.v = Real.sqrt 3 / 2 * f.v.x := by rw [d1]; simp [across, hy]
  have a2 : across (p.shape.geom.direction 2) f.v = -(Real.sqrt 3 / 2 * f.v.x) := by rw [d2]; simp [across, hy]
  have b0 : along (p.shape.geom.direction 0) f.v = f.v.x := by rw [d0]; simp [along]
  have b1 : along (p.shape.geom.direction 1) f.v = -(1 / 2) * f.v.x := by rw [d1]; simp [along, hy]
  have b2 : along (p.shape.geom.direction 2) f.v = -(1 / 2) * f.v.x := by rw [d2]; simp [along, hy]
  have r0 : rawAOA 0 f.v.length = 0 := rawAOA_zero _
  rw [a0, a1, a2, b0, b1, b2, r0, rawAOA_neg _ _ hle, (dragToAxial_range _).2.2.1, (dragToAxial_range 0).2.1]
  ring

namespace Ascent

/-- a tube of 2 m below a centre of gravity at its top -/
noncomputable def arrow : Craft :=
  ⟨⟨1, some 10, true⟩, [⟨⟨none, none, none⟩, [.tube body ⟨0, 0, 0⟩ 2 0.1 0]⟩]⟩

/-- wind of 5 m/s, no rail -/
noncomputable def breeze : Env := { env with mean := fun _ => .ok ⟨5, 0, 0⟩, rail := none }

/-- going up at 30 m/s -/
noncomputable def rising : RBState := ⟨⟨0, 0, 0⟩, ⟨0, 0, 30⟩, ⟨1, 0, 0, 0⟩, ⟨0, 0, 0⟩⟩

theorem arrow_inertia (t : ℝ) : arrow.inertia t = .ok body := by
  have h1 : fixedTotal [body] = .ok body := by
    unfold fixedTotal Inertia.combine
    simp [Inertia.withSelf, Inertia.definedAboutCG, Inertia.addMass, Inertia.addMOI, Inertia.axisDistSq, body, Inertia.make, z3]
  have h2 : (⟨⟨none, none, none⟩, [.tube body ⟨0, 0, 0⟩ 2 0.1 0]⟩ : StageP).inertia t = .ok body := by
    unfold StageP.inertia
    simp only [List.filterMap, Part.fixed, bind, Except.bind, h1, Body.mapE, Part.variable, id]
    unfold Inertia.combine
    simp [Inertia.withSelf, Inertia.definedAboutCG, Inertia.addMass, Inertia.addMOI, Inertia.axisDistSq, body, Inertia.make, z3,
      zeroInertia, applyOverrides]
  unfold Craft.inertia
  simp only [arrow, bind, Except.bind, Body.mapE, h2]
  unfold fixedTotal Inertia.combine
  simp [Inertia.withSelf, Inertia.definedAboutCG, Inertia.addMass, Inertia.addMOI, Inertia.axisDistSq, body, Inertia.make, z3]

theorem arrow_air : breeze.conditions false rising.pos (some 0) = .ok ⟨0, 300, 100000, 1, 1, ⟨5, 0, 0⟩, ⟨5, 0, 0⟩, 0⟩ := by
  unfold Env.conditions Env.airProperties Env.getWind
  simp [breeze, env, flatEarth, noEarth, rising, z3, idq_rotate]

theorem arrow_flow : ∃ f, flowOf rising ⟨0, 300, 100000, 1, 1, ⟨5, 0, 0⟩, ⟨5, 0, 0⟩, 0⟩ = .ok f ∧ f.v = ⟨5, 0, -30⟩ ∧ f.rho = 1 := by
  unfold flowOf Aero.machOf Aero.airVel Aero.reynoldsOf condOf
  have h3 : ¬ (1.4 * 287 * (300 : ℝ) < 0) := by norm_num
  have h4 : ¬ (Real.sqrt (1.4 * 287 * (300 : ℝ)) = 0) := by
    have : (0 : ℝ) < Real.sqrt (1.4 * 287 * (300 : ℝ)) := Real.sqrt_pos.2 (by norm_num)
    exact this.ne'
  have h5 : rising.ori.conj = ⟨1, 0, 0, 0⟩ := by simp [rising, Quat.conj]
  rw [if_neg h3, if_neg h4, h5, idq_rotate]
  simp only [bind, Except.bind, Except.map]
  refine ⟨_, by rw [if_neg (by norm_num)], ?_, rfl⟩
  apply V3.ext' <;> simp [rising]

theorem arrow_rhs : ∃ d, arrow.rhs breeze 0 rising = .ok d := by
  obtain ⟨f, hf, -⟩ := arrow_flow
  obtain ⟨a, haoa⟩ := aoa_ok f.v
  have hg : ∃ g, breeze.gravityForce body.mass body.cg rising = .ok g := by
    have h5 : rising.ori.conj = ⟨1, 0, 0, 0⟩ := by simp [rising, Quat.conj]
    have h6 : breeze.earth.gravity body.mass rising.pos = .ok ⟨0, 0, -(398600.5e9 / 6371000 ^ 2)⟩ := by
      show flatGravity _ _ = _
      unfold flatGravity
      rw [if_neg (by simp [rising])]
      congr 1
      apply V3.ext' <;> simp [rising, body]
    unfold Env.gravityForce
    rw [h6, h5]
    simp only [idq_rotate]
    exact ⟨_, rfl⟩
  obtain ⟨g, hg⟩ := hg
  have hparts : ∃ F, arrow.force ⟨arrow.ship, f, 0, body.cg, fun t => (arrow.inertia t).map (·.moi.x)⟩ = .ok F := by
    obtain ⟨F, hF⟩ := (bodyTube_dissipates ⟨0, 0, 0⟩ body.cg f.omega f.v f.rho 2 0.1 1
      (skinFriction (f.unitRe * 2) 2 f.mach 0 true) (some 10)).1.2 ⟨⟨10, rfl, by norm_num⟩, by norm_num, by norm_num⟩
    unfold Craft.force sumForces
    simp only [arrow, Body.mapE, Part.applied, sumForces, hF]
    exact ⟨_, rfl⟩
  obtain ⟨F, hF⟩ := hparts
  have happ : ∃ T, arrow.appliedForce breeze 0 rising = .ok T := by
    unfold Craft.appliedForce
    simp only [arrow_inertia] at hF
    simp only [bind, Except.bind, arrow_air, arrow_inertia, hf, haoa, hg, hF]
    exact ⟨_, rfl⟩
  obtain ⟨T, hT⟩ := happ
  unfold Craft.rhs
  simp only [bind, Except.bind, hT, arrow_inertia]
  unfold rigidBodyDerivative
  have ho : rising.ori = ⟨1, 0, 0, 0⟩ := rfl
  rw [ho]
  simp only [idq_rotate]
  rw [if_neg (by simp [body]), if_neg (by simp [body])]
  exact ⟨_, rfl⟩

/-- an arrow in a cross wind turns its nose into the wind -/
theorem arrow_turns : ∃ d, arrow.rhs breeze 0 rising = .ok d ∧ d.angAcc.y < 0 := by
  obtain ⟨d, hd⟩ := arrow_rhs
  refine ⟨d, hd, ?_⟩
  have hplain : ∀ p ∈ arrow.parts, p.Plain 0 := by
    intro p hp
    obtain rfl : p = .tube body ⟨0, 0, 0⟩ 2 0.1 0 := by simpa [arrow, Craft.parts] using hp
    exact ⟨rfl, rfl⟩
  obtain ⟨air, i, flow, h1, h2, h3, h4⟩ := arrow.turn_rate breeze 0 rising d hd rfl rfl hplain
  rw [arrow_inertia] at h2
  obtain rfl := Except.ok.inj h2
  rw [arrow_air] at h1
  obtain rfl := Except.ok.inj h1
  obtain ⟨f, e1, e2, e3⟩ := arrow_flow
  obtain rfl := Except.ok.inj (e1.symm.trans h3)
  have hl : f.v.length ^ 2 = 925 := by
    have := V3.length_sq f.v
    rw [e2] at this ⊢
    rw [sq, this]; norm_num [dot]
  have hl0 := V3.length_nonneg f.v
  have h30 : 30 < f.v.length := by nlinarith
  have h5 : Real.sqrt (f.v.x ^ 2 + f.v.y ^ 2) = 5 := by
    rw [e2]
    norm_num
    rw [show (25 : ℝ) = 5 ^ 2 by norm_num, Real.sqrt_sq (by norm_num)]
  have h6 := h4 ⟨rfl, rfl⟩ rfl (by rw [h5]; norm_num; linarith)
  set sc : Scene := ⟨arrow.ship, f, 0, body.cg, fun t => (arrow.inertia t).map (·.moi.x)⟩ with hsc
  obtain ⟨F, hF⟩ := (bodyTube_dissipates ⟨0, 0, 0⟩ body.cg f.omega f.v f.rho 2 0.1 1
      (skinFriction (f.unitRe * 2) 2 f.mach 0 true) (some 10)).1.2 ⟨⟨10, rfl, by norm_num⟩, by norm_num, by norm_num⟩
  have hF' : Part.applied sc (.tube body ⟨0, 0, 0⟩ 2 0.1 0) = .ok F := hF
  obtain ⟨a, ha, -, hpush, -⟩ := hull_push sc (flow_of e1).2 ⟨rfl, rfl⟩ F
  have hside : (Part.tube body ⟨0, 0, 0⟩ 2 0.1 0).side sc = push F f.v := by
    simp only [Part.side, hF']; rfl
  have hsin : Real.sin a * f.v.length = 5 := by
    rw [← h5]
    refine (aoa_lateral f.v (by rw [e2]; intro h0; have := congrArg V3.x h0; norm_num at this) a ha).resolve_right ?_
    rintro ⟨-, h7⟩
    have h8 := (abs_lt.1 h7).1
    have h9 : (1 - 0.00000001) * f.v.length < 30 := by
      have : (1 - 0.00000001 : ℝ) < -f.v.z / f.v.length := by linarith
      rw [lt_div_iff₀ (by linarith)] at this
      have hz : f.v.z = -30 := by rw [e2]
      linarith
    nlinarith
  have hsin0 : 0 < Real.sin a := by
    by_contra h0
    push Not at h0
    nlinarith
  have hpos : 0 < push F f.v := by
    have := hpush body ⟨0, 0, 0⟩ 2 0.1 0 ⟨rfl, rfl⟩ hF'
    have e5 : push F f.v = 1.1 * Real.sin a ^ 2 * (0.1 * 2) * f.q * Real.sqrt (f.v.x ^ 2 + f.v.y ^ 2) := this
    rw [e5, h5]
    have : f.q = 925 / 2 := by unfold Flow.q; rw [hl, e3]; norm_num
    rw [this]
    positivity
  have e6 : (arrow.parts.map fun p => (p.centre f.mach - body.cg.z) * p.side sc).sum = -1 * push F f.v := by
    have : arrow.parts = [.tube body ⟨0, 0, 0⟩ 2 0.1 0] := rfl
    rw [this, List.map_singleton, List.sum_singleton, hside]
    congr 1
    simp [Part.centre, body]
  rw [e6, e2] at h6
  have e7 : dot (cross d.angAcc ⟨0, 0, 1⟩) (⟨5, 0, -30⟩ : V3 ℝ) = d.angAcc.y * 5 := by simp [dot, cross]
  rw [e7, show body.moi.x = 1 from rfl, div_one, ← e2] at h6
  linarith

/-- a rocket with a body tube and four fins is covered -/
example : ∃ c : Craft, (∀ p ∈ c.parts, p.Plain 0) ∧ c.parts.length = 3 := by
  obtain ⟨p, hp, hr⟩ := fins_built
  have hdef : p.deflection = (fun _ _ => 0) ∧ p.shape.geom.numFins = 4 := by
    unfold FinSet.build at hp
    simp only [bind, Except.bind] at hp
    repeat' split at hp
    all_goals first
      | cases hp; done
      | (obtain rfl := Except.ok.inj hp; exact ⟨rfl, rfl⟩)
  refine ⟨⟨⟨1, some 10, true⟩, [⟨⟨none, none, none⟩, [.mass body, .tube body ⟨0, 0, -1⟩ 2 1 0, .fins body p]⟩]⟩, ?_, rfl⟩
  intro q hq
  have hq' : q = .mass body ∨ q = .tube body ⟨0, 0, -1⟩ 2 1 0 ∨ q = .fins body p := by simpa [Craft.parts] using hq
  rcases hq' with rfl | rfl | rfl
  · trivial
  · exact ⟨rfl, rfl⟩
  · exact ⟨hr, by rw [hdef.2]; decide, fun i _ => by rw [hdef.1]⟩

end Ascent
end Mapleaf.Rocket
