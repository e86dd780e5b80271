import Verif.Rocket.AscentLaunchProps

/-!
# C95: the hypotheses can be met
-/

namespace Mapleaf.Rocket.Ascent
open Mapleaf.Motion V3 ENV

/-- one kilogram with a constant push of 20 N along the axis -/
noncomputable def body : Inertia ℝ := ⟨⟨1, 1, 1⟩, ⟨0, 0, 0⟩, 1, ⟨0, 0, 0⟩⟩

noncomputable def craft : Craft :=
  ⟨⟨1, some 10, true⟩, [⟨⟨none, none, none⟩, [.mass body, .force ⟨⟨0, 0, 20⟩, ⟨0, 0, 0⟩, ⟨0, 0, 0⟩⟩]⟩]⟩

/-- flat earth, still air, a vertical launch rail of 3 m -/
noncomputable def env : Env where
  earth := flatEarth
  elevation := 0
  lat := 0
  lon := 0
  mean := fun _ => .ok ⟨0, 0, 0⟩
  turb := none
  air := fun _ _ => .ok (300, 100000, 1, 1)
  rail := some ⟨⟨0, 0, 0⟩, ⟨0, 0, 1⟩, 3, 0⟩

theorem env_calm : Calm env := ⟨.inl rfl, fun _ _ e => by rw [← Except.ok.inj e]; exact ⟨rfl, rfl⟩, fun _ h => by cases h⟩

theorem craft_symmetric : craft.Symmetric ∧ craft.Rolless := by
  constructor
  · intro s hs
    obtain rfl := List.mem_singleton.1 hs
    refine ⟨by simp, ?_⟩
    intro p hp
    rcases List.mem_cons.1 hp with rfl | hp
    · exact ⟨rfl, rfl⟩
    · obtain rfl := List.mem_singleton.1 hp
      exact ⟨⟨rfl, rfl⟩, ⟨rfl, rfl⟩, ⟨rfl, rfl⟩⟩
  · intro s hs
    obtain rfl := List.mem_singleton.1 hs
    intro p hp
    rcases List.mem_cons.1 hp with rfl | hp
    · trivial
    · obtain rfl := List.mem_singleton.1 hp
      rfl

theorem z3 : (⟨0, 0, 0⟩ : V3 ℝ) = 0 := rfl

theorem craft_inertia (t : ℝ) : craft.inertia t = .ok body := by
  have h1 : fixedTotal [body] = .ok body := by
    unfold fixedTotal Inertia.combine
    simp [Inertia.withSelf, Inertia.definedAboutCG, Inertia.addMass, Inertia.addMOI, Inertia.axisDistSq, body, Inertia.make, z3]
  have h2 : (⟨⟨none, none, none⟩, [.mass body, .force ⟨⟨0, 0, 20⟩, ⟨0, 0, 0⟩, ⟨0, 0, 0⟩⟩]⟩ : StageP).inertia t = .ok body := by
    unfold StageP.inertia
    simp only [List.filterMap, Part.fixed, bind, Except.bind, h1, Body.mapE, Part.variable, id]
    unfold Inertia.combine
    simp [Inertia.withSelf, Inertia.definedAboutCG, Inertia.addMass, Inertia.addMOI, Inertia.axisDistSq, body, Inertia.make, z3,
      zeroInertia, applyOverrides]
  unfold Craft.inertia
  simp only [craft, bind, Except.bind, Body.mapE, h2]
  unfold fixedTotal Inertia.combine
  simp [Inertia.withSelf, Inertia.definedAboutCG, Inertia.addMass, Inertia.addMOI, Inertia.axisDistSq, body, Inertia.make, z3]

/-- rotating by the identity -/
theorem idq_rotate (v : V3 ℝ) : (⟨1, 0, 0, 0⟩ : Quat ℝ).rotate v = .ok (v, ⟨1, 0, 0, 0⟩) :=
  spin_still (r := ⟨0, 0, 0, 0⟩) rfl 0 v ▸ by
    simp [Rail.spin, Quat.axisAngle]

noncomputable def start : RBState := ⟨⟨0, 0, 0⟩, ⟨0, 0, 0⟩, ⟨1, 0, 0, 0⟩, ⟨0, 0, 0⟩⟩

theorem start_state : env.initialState ⟨0, 0, 0⟩ ⟨0, 0, 0⟩ ⟨0, 0, 7⟩ (some (⟨0, 0, 1⟩, 0)) ⟨0, 0, 1⟩ ⟨0, 0, 0⟩ = .ok start := by
  unfold Env.initialState initialOrientation Env.initialToGlobal moveToCG
  simp only [env, flatEarth, noEarth, radians, Quat.axisAngle]
  simp [idq_rotate, start, z3]

theorem start_rail : makeRail env.earth env.elevation env.lat env.lon 3 ⟨0, 0, 0⟩ (some (⟨0, 0, 1⟩, 0)) ⟨0, 0, 1⟩ = .ok env.rail := by
  unfold makeRail railOrientation
  have : (⟨0, 0, 1⟩ : V3 ℝ).normalize = ⟨0, 0, 1⟩ := by
    unfold V3.normalize
    rw [length_axis]
    simp
  simp only [env, flatEarth, noEarth, radians, Quat.axisAngle]
  simp [idq_rotate, z3, Rail.make, this]

theorem start_force : ∃ F, craft.appliedForce env 0 start = .ok F ∧ F.moment = 0 ∧ 0 < F.force.z := by
  have hair : env.conditions false start.pos (some 0) = .ok ⟨0, 300, 100000, 1, 1, 0, 0, 0⟩ := by
    unfold Env.conditions Env.airProperties Env.getWind
    simp [env, flatEarth, noEarth, start, z3, idq_rotate]
  have hflow : ∃ f, flowOf start ⟨0, 300, 100000, 1, 1, 0, 0, 0⟩ = .ok f ∧ f.v = 0 := by
    unfold flowOf Aero.machOf Aero.airVel Aero.reynoldsOf condOf
    have h3 : ¬ (1.4 * 287 * (300 : ℝ) < 0) := by norm_num
    have h4 : ¬ (Real.sqrt (1.4 * 287 * (300 : ℝ)) = 0) := by
      have : (0 : ℝ) < Real.sqrt (1.4 * 287 * (300 : ℝ)) := Real.sqrt_pos.2 (by norm_num)
      exact this.ne'
    have h5 : start.ori.conj = ⟨1, 0, 0, 0⟩ := by simp [start, Quat.conj]
    rw [if_neg h3, if_neg h4, h5, idq_rotate]
    simp [bind, Except.bind, Except.map, start, z3]
  obtain ⟨f, hf, hv⟩ := hflow
  have haoa : Aero.totalAOAOf f.v = .ok 0 := by
    rw [hv]
    exact aoa_axial 0 le_rfl
  have hg : env.gravityForce body.mass body.cg start = .ok ⟨⟨0, 0, -(398600.5e9 / 6371000 ^ 2)⟩, 0, 0⟩ := by
    have h5 : start.ori.conj = ⟨1, 0, 0, 0⟩ := by simp [start, Quat.conj]
    have h6 : env.earth.gravity body.mass start.pos = .ok ⟨0, 0, -(398600.5e9 / 6371000 ^ 2)⟩ := by
      show flatGravity _ _ = _
      unfold flatGravity
      rw [if_neg (by simp [start])]
      congr 1
      apply V3.ext' <;> simp [start, body]
    unfold Env.gravityForce
    rw [h6, h5]
    simp only [idq_rotate, body, z3]
  unfold Craft.appliedForce
  simp only [bind, Except.bind, hair, craft_inertia, hf, haoa, hg]
  have hparts : craft.force ⟨craft.ship, f, 0, body.cg, fun t => (craft.inertia t).map (·.moi.x)⟩ = .ok ⟨⟨0, 0, 20⟩, 0, 0⟩ := by
    unfold Craft.force sumForces
    simp only [craft, Body.mapE, Part.applied, sumForces]
    simp only [List.foldl, zeroForce, FMS.make, FMS.add, FMS.getAt, body, z3, Option.getD, sub_zero, Except.ok.injEq, FMS.mk.injEq]
    refine ⟨?_, trivial, ?_⟩ <;> apply V3.ext' <;> simp [cross]
  simp only [craft_inertia] at hparts
  rw [hparts]
  dsimp only
  unfold envForce Rail.applyForce
  simp only [env]
  rw [rail_position rfl, rail_direction rfl]
  have hl : (start.pos - (⟨0, 0, 0⟩ : V3 ℝ)).length = 0 := by
    rw [show start.pos - (⟨0, 0, 0⟩ : V3 ℝ) = ⟨0, 0, 0⟩ from sub_self _, length_axis, abs_zero]
  dsimp only
  rw [hl, if_pos (by norm_num)]
  refine ⟨_, rfl, rfl, ?_⟩
  simp only [FMS.add, FMS.getAt, dot, smul_z, add_x, add_y, add_z]
  norm_num

theorem start_flight : ∃ w', fly env "Euler" ⟨0, start, env.rail, none⟩ [(craft, 1 / 10)] = .ok w' ∧ 0 < w'.state.vel.z := by
  obtain ⟨F, hF, hm, hz⟩ := start_force
  have hd : ∃ d, craft.rhs env 0 start = .ok d ∧ 0 < d.acc.z ∧ d.angVel = 0 := by
    unfold Craft.rhs
    simp only [bind, Except.bind, hF, craft_inertia]
    unfold rigidBodyDerivative
    simp only [start, idq_rotate, body]
    simp [z3, hz]
  obtain ⟨d, h1, h2, h3⟩ := hd
  have hcon : envConstrain env.rail ⟨start.pos, start.vel⟩ 0 = .ok (⟨start.pos, start.vel⟩, env.rail) := by
    unfold envConstrain Rail.constrain
    simp only [env]
    rw [rail_position rfl, rail_direction rfl]
    simp [start, dot]
  unfold fly Craft.timeStep
  simp only [bind, Except.bind, hcon]
  have hmul : d.mul (1 / 10) = .ok ⟨(1 / 10 : ℝ) • d.vel, (1 / 10 : ℝ) • d.acc, ⟨1, 0, 0, 0⟩, (1 / 10 : ℝ) • d.angAcc⟩ := by
    unfold RBDeriv.mul Quat.ofRotationVector
    rw [h3, smul_zero, show (0 : V3 ℝ).length = 0 by rw [← z3, length_axis, abs_zero],
      show ∀ v : V3 ℝ, Quat.axisAngle v 0 = ⟨1, 0, 0, 0⟩ by intro v; simp [Quat.axisAngle], unit_normalize norm_idq]
  have hadd : ∃ s', start.add ⟨(1 / 10 : ℝ) • d.vel, (1 / 10 : ℝ) • d.acc, ⟨1, 0, 0, 0⟩, (1 / 10 : ℝ) • d.angAcc⟩ = .ok s' ∧ 0 < s'.vel.z := by
    unfold RBState.add
    simp only [start, unit_normalize norm_idq]
    rw [show Quat.mul (⟨1, 0, 0, 0⟩ : Quat ℝ) ⟨1, 0, 0, 0⟩ = ⟨1, 0, 0, 0⟩ by simp [Quat.mul], unit_normalize norm_idq]
    refine ⟨_, rfl, ?_⟩
    simp only [add_z, smul_z]
    linarith
  obtain ⟨s', hs', hv⟩ := hadd
  have hint : integrateStep "Euler" (craft.rhs env) ⟨0, start, env.rail, none⟩ (1 / 10) = .ok (s', none) := by
    unfold integrateStep
    have e1 : ∃ e, RK.adaptiveTableau "Euler" = .error e := ⟨_, rfl⟩
    obtain ⟨e, e1⟩ := e1
    rw [e1]
    unfold Body.classicalStep
    rw [show RK.classicalTableau "Euler" = .ok none from rfl]
    unfold Body.eulerStep Body.plus
    simp only [h1, bind, Except.bind, Body.bodyArith, hmul, hs']
  have hint' : integrateStep "Euler" (craft.rhs { env with rail := env.rail })
      ⟨0, { start with pos := start.pos, vel := start.vel }, env.rail, none⟩ (1 / 10) = .ok (s', none) := hint
  rw [hint']
  exact ⟨_, rfl, hv⟩

/-- hypotheses of `launch_flight` (spin 7 rad/s in the definition, taken away by the rail) -/
example : ∃ w' : InFlight, w'.state.pos.x = 0 ∧ w'.state.angVel = 0 ∧ w'.state.ori = ⟨1, 0, 0, 0⟩ ∧ 0 < w'.state.vel.z := by
  obtain ⟨w', h, hv⟩ := start_flight
  have := launch_flight env env_calm ⟨0, 0, 0⟩ ⟨0, 0, 0⟩ ⟨0, 0, 7⟩ ⟨0, 0, 1⟩ ⟨0, 0, 0⟩ (some (⟨0, 0, 1⟩, 0)) 3
    (fun p hp => by rw [← Option.some.inj hp]; exact ⟨rfl, rfl⟩) ⟨rfl, rfl⟩ ⟨rfl, rfl⟩ ⟨rfl, rfl⟩ ⟨rfl, rfl⟩ start_rail start start_state "Euler"
    [(craft, 1 / 10)] (fun p hp => by rw [List.mem_singleton.1 hp]; exact craft_symmetric.1) w' h
  obtain ⟨h1, h2⟩ := this
  obtain ⟨h3, h4⟩ := h2 (fun p hp => by rw [List.mem_singleton.1 hp]; exact craft_symmetric.2) (.inr (by norm_num))
  exact ⟨w', h1.1, h3, h4, hv⟩

/-! ## A rocket with fins -/

/-- four square fins of side one metre -/
noncomputable def geom : FinGeom := ⟨4, 0, 0, 0, 1, 1, 1, 1, 10⟩

theorem fins_built : ∃ p, FinSet.build geom 1 0 (.round 0) .tapered ⟨0, 0, -3⟩ 1 0 (fun _ _ => 0) = .ok p ∧ p.Regular := by
  have hmac : ∃ m, geom.macProperties = .ok m := by
    unfold FinGeom.macProperties
    have : GNC.pyRound (geom.span / 0.0001) ≠ 0 := by
      have : geom.span / 0.0001 = ((10000 : ℤ) : ℝ) := by norm_num [geom]
      rw [this]
      unfold GNC.pyRound
      simp
    dsimp only
    rw [if_neg this]
    exact ⟨_, rfl⟩
  have hsl : ∃ l, geom.slices = .ok l := by
    unfold FinGeom.slices
    rw [if_neg (by norm_num [geom])]
    exact ⟨_, rfl⟩
  obtain ⟨m, hm⟩ := hmac
  obtain ⟨l, hl⟩ := hsl
  have hk : ∃ k, (⟨geom, 1, 0, .round 0, .tapered, m.1⟩ : FinShape).thicknessK 1 = .ok k := by
    have hc : Real.cos geom.midChordSweep = 1 := by
      unfold FinGeom.midChordSweep FinGeom.trailingEdgeSweep
      simp [geom]
    unfold FinShape.thicknessK
    dsimp only
    rw [if_neg (by norm_num [geom, FinGeom.planformArea]), if_neg (by norm_num [geom]), if_neg (by rw [hc]; norm_num [geom])]
    exact ⟨_, rfl⟩
  obtain ⟨k, hk⟩ := hk
  have hb : FinSet.build geom 1 0 (.round 0) .tapered ⟨0, 0, -3⟩ 1 0 (fun _ _ => 0) =
      .ok ⟨⟨geom, 1, 0, .round 0, .tapered, m.1⟩, ⟨0, 0, -3⟩, m.2.1, m.2.2, l, 0, k, geom.bodyInterference * ((1 : ℚ) : ℝ), fun _ _ => 0⟩ := by
    unfold FinSet.build
    rw [show finNumberInterference geom.numFins = .ok 1 from rfl, hm, hl, ((directions_spec geom).2 (by simp [geom])).1]
    simp only [bind, Except.bind, hk]
  refine ⟨_, hb, by norm_num [geom], by norm_num [geom], by norm_num [geom], by norm_num [geom], by norm_num [geom], ⟨rfl, rfl⟩,
    fun _ _ _ => rfl, _, _, _, _, _, hb⟩

/-- a mass, a body tube and four fins: symmetric, without rolling moment -/
example : ∃ c : Craft, c.Symmetric ∧ c.Rolless ∧ ∃ s ∈ c.stages, s.parts.length = 3 := by
  obtain ⟨p, hp, hr⟩ := fins_built
  have hdef : p.deflection = fun _ _ => 0 := by
    unfold FinSet.build at hp
    simp only [bind, Except.bind] at hp
    repeat' split at hp
    all_goals first
      | cases hp; done
      | (obtain rfl := Except.ok.inj hp; rfl)
  refine ⟨⟨⟨1, some 10, true⟩, [⟨⟨none, none, none⟩, [.mass body, .tube body ⟨0, 0, -1⟩ 2 1 0, .fins body p]⟩]⟩, ?_, ?_, _, List.mem_singleton.2 rfl, rfl⟩
  · intro s hs
    obtain rfl := List.mem_singleton.1 hs
    refine ⟨by simp, ?_⟩
    intro q hq
    simp only [List.mem_cons, List.not_mem_nil, or_false] at hq
    rcases hq with rfl | rfl | rfl
    · exact ⟨rfl, rfl⟩
    · exact ⟨⟨rfl, rfl⟩, ⟨rfl, rfl⟩⟩
    · exact ⟨⟨rfl, rfl⟩, hr⟩
  · intro s hs
    obtain rfl := List.mem_singleton.1 hs
    intro q hq
    simp only [List.mem_cons, List.not_mem_nil, or_false] at hq
    rcases hq with rfl | rfl | rfl
    · trivial
    · trivial
    · intro t i hi
      rw [hdef]

end Mapleaf.Rocket.Ascent
