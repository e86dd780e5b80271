import Verif.Rocket.CoastFlyProps
import Verif.Rocket.AscentSample
import Mathlib.Analysis.ODE.ExistUnique
import Mathlib.Analysis.Calculus.ContDiff.Operations

/-!
# C107: falling tail first, and the hypotheses can be met
-/

namespace Mapleaf.Rocket
open Mapleaf.Motion V3 ENV

/-- **C107** violated: a rocket that falls tail first is pushed on by the air, it falls faster than it would in a vacuum. So is every upright
rocket of ordinary shape that is not under power, if it has a body tube and the air moves past it at all (also one that rises in a faster
updraught, which is slowed). -/
theorem falls_faster_violated (c : Craft) (E : Env) (hE : Quiet E) {x y t₀ : ℝ} (hc : c.Coasts t₀) (t : ℝ) (ht : t₀ ≤ t) (s : RBState)
    (hs : Upright x y s) (d : RBDeriv) (h : c.rhs E t s = .ok d) (i : Inertia ℝ) (pos : V3 ℝ) (len dia rough : ℝ)
    (hp : ∃ st ∈ c.stages, Part.tube i pos len dia rough ∈ st.parts)
    (hair : ∀ a, E.conditions false s.pos (some t) = .ok a → 0 < a.density ∧ a.wind.z ≠ s.vel.z ∧ ∀ f, flowOf s a = .ok f → f.unitRe * len ≤ 1e100) :
    d.acc.z < -(398600.5e9 / (s.pos.z + 6371000) ^ 2) := by
  obtain ⟨I, hI, hi⟩ := hc.inertia
  obtain ⟨-, -, -, -, a, f, ha, hf, hax, hvz, hall⟩ := c.rhs_drifting E hE.calm hE.flat hE.free t s hs hc.symmetric (hc.drifts t ht) I hI (hi t ht)
    (hi _ (by linarith [show (0 : ℝ) ≤ 1e-8 by norm_num])) (hE.air s.pos t) (fun h => absurd h hc.hull) d h
  obtain ⟨st, hst, hp⟩ := hp
  obtain ⟨G, g1, g2⟩ := hall st hst _ hp
  obtain ⟨hA, hfin, hd⟩ := hc.drifts t ht
  obtain ⟨-, hl, hdd, hro⟩ := hd st hst _ hp
  obtain ⟨k1, k2, k3⟩ := hair a ha
  obtain ⟨m0, -, -⟩ := flow_axial hs (calm_wind hE.calm _ _ _ ha) hf
  have hcf := friction_pos (f.unitRe * len) len f.mach rough c.ship.turbulent hl hro m0 (k3 f hf)
  have hrho : f.rho = a.density := by
    unfold flowOf at hf
    simp only [bind, Except.bind] at hf
    repeat' split at hf
    all_goals first
      | cases hf; done
      | (obtain rfl := Except.ok.inj hf; rfl)
  obtain ⟨al, fr, -, e1, e2⟩ := tube_brakes _ _ _ _ _ _ _ _ _ _ hl hdd hA (by rw [hrho]; exact k1.le) hcf.le hfin G g1
  have hG : G.force.z < 0 := by
    rw [e2]
    have h1 := (dragToAxial_range al).1
    have h2 := hfin fr e1
    have h3 := Real.pi_pos
    have h4 : 0 < f.v.length := by
      rw [onAxis_form hax, length_axis, abs_pos, hvz]
      exact sub_ne_zero.2 k2
    have h5 : 0 < f.rho := by rw [hrho]; exact k1
    exact neg_lt_zero.2 (by positivity)
  have := div_neg_of_neg_of_pos hG hI
  linarith

namespace Coast
open Ascent

/-- flat earth, still air -/
noncomputable def sky : Env := { env with rail := none }

/-- one kilogram: a body tube of 10 cm, or nothing that drags -/
noncomputable def dart : Craft := ⟨⟨1, some 10, true⟩, [⟨⟨none, none, none⟩, [.tube body ⟨0, 0, 0⟩ 1 (1 / 10) 0]⟩]⟩

noncomputable def stone : Craft := ⟨⟨1, some 10, true⟩, [⟨⟨none, none, none⟩, [.mass body]⟩]⟩

noncomputable def at' (z v : ℝ) : RBState := ⟨⟨0, 0, z⟩, ⟨0, 0, v⟩, ⟨1, 0, 0, 0⟩, ⟨0, 0, 0⟩⟩

theorem at_upright (z v : ℝ) : Upright 0 0 (at' z v) := ⟨rfl, rfl, ⟨rfl, rfl⟩, rfl, rfl, ⟨rfl, rfl⟩⟩

theorem sky_air (pos : V3 ℝ) (t : ℝ) : sky.conditions false pos (some t) = .ok ⟨pos.z, 300, 100000, 1, 1, 0, 0, 0⟩ := by
  unfold Env.conditions Env.airProperties Env.getWind
  simp [sky, env, flatEarth, noEarth, z3, idq_rotate]

theorem sky_quiet : Quiet sky where
  calm := ⟨.inl rfl, fun _ _ e => by rw [← Except.ok.inj e]; exact ⟨rfl, rfl⟩, fun _ h => by cases h⟩
  flat := rfl
  free := rfl
  air pos t a h := by rw [sky_air] at h; rw [← Except.ok.inj h]; norm_num

theorem single_inertia (ship : Ship) (p : Part) (hf : p.fixed = some body) (hv : ∀ t, p.variable t = .ok none) (t : ℝ) :
    (⟨ship, [⟨⟨none, none, none⟩, [p]⟩]⟩ : Craft).inertia t = .ok body := by
  have h1 : fixedTotal [body] = .ok body := by
    unfold fixedTotal Inertia.combine
    simp [Inertia.withSelf, Inertia.definedAboutCG, Inertia.addMass, Inertia.addMOI, Inertia.axisDistSq, body, Inertia.make, z3]
  have h2 : (⟨⟨none, none, none⟩, [p]⟩ : StageP).inertia t = .ok body := by
    unfold StageP.inertia
    simp only [List.filterMap, hf, bind, Except.bind, h1, Body.mapE, hv, id]
    unfold Inertia.combine
    simp [Inertia.withSelf, Inertia.definedAboutCG, Inertia.addMass, Inertia.addMOI, Inertia.axisDistSq, body, Inertia.make, z3, applyOverrides]
  unfold Craft.inertia
  simp only [bind, Except.bind, Body.mapE, h2]
  unfold fixedTotal Inertia.combine
  simp [Inertia.withSelf, Inertia.definedAboutCG, Inertia.addMass, Inertia.addMOI, Inertia.axisDistSq, body, Inertia.make, z3]

theorem dart_coasts : dart.Coasts 0 where
  symmetric := by
    intro s hs
    obtain rfl := List.mem_singleton.1 hs
    refine ⟨by simp, fun p hp => ?_⟩
    obtain rfl := List.mem_singleton.1 hp
    exact ⟨⟨rfl, rfl⟩, rfl, rfl⟩
  drifts t _ := by
    refine ⟨by norm_num [dart], fun fr h => ?_, fun s hs p hp => ?_⟩
    · cases h; norm_num
    · obtain rfl := List.mem_singleton.1 hs
      obtain rfl := List.mem_singleton.1 hp
      exact ⟨⟨⟨rfl, rfl⟩, rfl, rfl⟩, by norm_num, by norm_num, le_rfl⟩
  inertia := ⟨body, by norm_num [body], fun t _ => single_inertia _ _ rfl (fun _ => rfl) t⟩
  hull := by
    rintro ⟨s, hs, p, hp, h⟩
    obtain rfl := List.mem_singleton.1 hs
    obtain rfl := List.mem_singleton.1 hp
    exact h

theorem stone_coasts : stone.Coasts 0 where
  symmetric := by
    intro s hs
    obtain rfl := List.mem_singleton.1 hs
    refine ⟨by simp, fun p hp => ?_⟩
    obtain rfl := List.mem_singleton.1 hp
    exact ⟨rfl, rfl⟩
  drifts t _ := by
    refine ⟨by norm_num [stone], fun fr h => ?_, fun s hs p hp => ?_⟩
    · cases h; norm_num
    · obtain rfl := List.mem_singleton.1 hs
      obtain rfl := List.mem_singleton.1 hp
      exact ⟨⟨rfl, rfl⟩, trivial⟩
  inertia := ⟨body, by norm_num [body], fun t _ => single_inertia _ _ rfl (fun _ => rfl) t⟩
  hull := by
    rintro ⟨s, hs, p, hp, h⟩
    obtain rfl := List.mem_singleton.1 hs
    obtain rfl := List.mem_singleton.1 hp
    exact h

theorem sky_flow (z v : ℝ) : ∃ m, flowOf (at' z v) ⟨z, 300, 100000, 1, 1, 0, 0, 0⟩ = .ok ⟨⟨0, 0, -v⟩, 1, m, |v|, ⟨0, 0, 0⟩⟩ := by
  unfold flowOf Aero.machOf Aero.airVel Aero.reynoldsOf condOf
  have h3 : ¬ (1.4 * 287 * (300 : ℝ) < 0) := by norm_num
  have h4 : ¬ (Real.sqrt (1.4 * 287 * (300 : ℝ)) = 0) := by
    have : (0 : ℝ) < Real.sqrt (1.4 * 287 * (300 : ℝ)) := Real.sqrt_pos.2 (by norm_num)
    exact this.ne'
  have h5 : (at' z v).ori.conj = ⟨1, 0, 0, 0⟩ := by simp [at', Quat.conj]
  have h6 : (-1 : ℝ) • (at' z v).vel = ⟨0, 0, -v⟩ := by apply V3.ext' <;> simp [at']
  rw [if_neg h3, if_neg h4, h5, idq_rotate]
  simp only [bind, Except.bind, Except.map, sub_zero, one_ne_zero, if_false, h6, length_axis, abs_neg, mul_one, div_one]
  exact ⟨_, rfl⟩

theorem single_rhs (p : Part) (z v t : ℝ) (hz : z + 6371000 ≠ 0) (hf : p.fixed = some body) (hv : ∀ t, p.variable t = .ok none)
    (hp : ∀ m, ∃ G, p.applied ⟨⟨1, some 10, true⟩, ⟨⟨0, 0, -v⟩, 1, m, |v|, ⟨0, 0, 0⟩⟩, t, body.cg,
      fun t => ((⟨⟨1, some 10, true⟩, [⟨⟨none, none, none⟩, [p]⟩]⟩ : Craft).inertia t).map (·.moi.x)⟩ = .ok G) :
    ∃ d, (⟨⟨1, some 10, true⟩, [⟨⟨none, none, none⟩, [p]⟩]⟩ : Craft).rhs sky t (at' z v) = .ok d := by
  obtain ⟨m, hm⟩ := sky_flow z v
  obtain ⟨G, hG⟩ := hp m
  obtain ⟨al, hal⟩ := aoa_ok ⟨0, 0, -v⟩
  have h5 : (at' z v).ori.conj = ⟨1, 0, 0, 0⟩ := by simp [at', Quat.conj]
  have hg : ∃ g, sky.gravityForce body.mass body.cg (at' z v) = .ok g := by
    have h6 : ∃ g, sky.earth.gravity body.mass (at' z v).pos = .ok g := by
      show ∃ g, flatGravity _ _ = .ok g
      unfold flatGravity
      rw [if_neg (by simpa [at'] using hz)]
      exact ⟨_, rfl⟩
    obtain ⟨g, h6⟩ := h6
    unfold Env.gravityForce
    rw [h6, h5]
    simp only [idq_rotate]
    exact ⟨_, rfl⟩
  obtain ⟨g, hg⟩ := hg
  have hc := single_inertia ⟨1, some 10, true⟩ p hf hv
  have hF : ∃ F, (⟨⟨1, some 10, true⟩, [⟨⟨none, none, none⟩, [p]⟩]⟩ : Craft).appliedForce sky t (at' z v) = .ok F := by
    unfold Craft.appliedForce
    simp only [bind, Except.bind, sky_air, hc t, show (at' z v).pos.z = z from rfl, hm, hal]
    unfold Craft.force
    simp only [sumForces, Body.mapE, hG, hg]
    unfold envForce
    exact ⟨_, rfl⟩
  obtain ⟨F, hF⟩ := hF
  unfold Craft.rhs
  simp only [bind, Except.bind, hF, hc]
  unfold rigidBodyDerivative
  simp only [at', idq_rotate]
  rw [if_neg (by norm_num [body]), if_neg (by norm_num [body])]
  exact ⟨_, rfl⟩

/-- hypotheses of `falls_faster_violated`: the dart falls tail first at 10 m/s -/
theorem dart_falls : ∃ d, dart.rhs sky 0 (at' 1000 (-10)) = .ok d ∧ d.acc.z < -(398600.5e9 / (1000 + 6371000) ^ 2) := by
  obtain ⟨d, hd⟩ := single_rhs (.tube body ⟨0, 0, 0⟩ 1 (1 / 10) 0) 1000 (-10) 0 (by norm_num) rfl (fun _ => rfl) (fun m =>
    (bodyTube_dissipates _ _ _ _ _ _ _ _ _ _).1.2 ⟨⟨10, rfl, by norm_num⟩, by norm_num, by norm_num⟩)
  refine ⟨d, hd, ?_⟩
  refine falls_faster_violated dart sky sky_quiet dart_coasts 0 le_rfl (at' 1000 (-10)) (at_upright _ _) d hd body ⟨0, 0, 0⟩ 1 (1 / 10) 0
    ⟨_, List.mem_singleton_self _, List.mem_singleton_self _⟩ ?_
  intro a ha
  rw [sky_air] at ha
  obtain rfl := Except.ok.inj ha
  refine ⟨by norm_num, by norm_num [at'], fun f hf => ?_⟩
  obtain ⟨m, hm⟩ := sky_flow 1000 (-10)
  have : flowOf (at' 1000 (-10)) ⟨1000, 300, 100000, 1, 1, 0, 0, 0⟩ = .ok f := hf
  rw [hm] at this
  obtain rfl := Except.ok.inj this
  norm_num

theorem stone_rhs (z v t : ℝ) (hz : z + 6371000 ≠ 0) :
    ∃ d, stone.rhs sky t (at' z v) = .ok d ∧ d.vel.z = v ∧ d.acc.z = -(398600.5e9 / (z + 6371000) ^ 2) ∧ d.angVel = 0 := by
  obtain ⟨m, hm⟩ := sky_flow z v
  obtain ⟨al, hal⟩ := aoa_ok ⟨0, 0, -v⟩
  have h5 : (at' z v).ori.conj = ⟨1, 0, 0, 0⟩ := by simp [at', Quat.conj]
  have hg : sky.gravityForce body.mass body.cg (at' z v) = .ok ⟨⟨0, 0, -(398600.5e9 / (z + 6371000) ^ 2)⟩, 0, 0⟩ := by
    have h6 : sky.earth.gravity body.mass (at' z v).pos = .ok ⟨0, 0, -(398600.5e9 / (z + 6371000) ^ 2)⟩ := by
      show flatGravity _ _ = _
      unfold flatGravity
      rw [if_neg (by simpa [at'] using hz)]
      congr 1
      apply V3.ext' <;> simp [at', body]
    unfold Env.gravityForce
    rw [h6, h5]
    simp only [idq_rotate, body, z3]
  have hc := single_inertia ⟨1, some 10, true⟩ (.mass body) rfl (fun _ => rfl)
  have hF : ∃ F, stone.appliedForce sky t (at' z v) = .ok F ∧ F.force.z = -(398600.5e9 / (z + 6371000) ^ 2) := by
    unfold Craft.appliedForce
    simp only [stone, bind, Except.bind, sky_air, hc t, show (at' z v).pos.z = z from rfl, hm, hal]
    unfold Craft.force
    simp only [sumForces, Body.mapE, Part.applied, hg]
    unfold envForce
    refine ⟨_, rfl, ?_⟩
    simp [FMS.add, FMS.getAt, FMS.make, zeroForce]
  obtain ⟨F, hF, hFz⟩ := hF
  unfold Craft.rhs
  simp only [bind, Except.bind, hF, show ∀ t, stone.inertia t = .ok body from hc]
  unfold rigidBodyDerivative
  simp only [at', idq_rotate]
  rw [if_neg (by norm_num [body]), if_neg (by norm_num [body])]
  exact ⟨_, rfl, by simp, by simp [body, hFz], by simp [z3]⟩

/-- hypotheses of `coast_apogee`: a stone thrown upwards at 100 m/s; it stays below 520 m -/
example : ∃ (T : ℝ) (s : ℝ → RBState), 0 < T ∧ (s 0).vel.z = 100 ∧ (s 0).pos.z = 0 ∧ (∀ t ∈ Set.Icc 0 T, (s t).pos.z ≤ 520) ∧
    ∀ t ∈ Set.Icc 0 T, ∃ d, stone.rhs sky t (s t) = .ok d ∧ HasDerivWithinAt (fun τ => (s τ).pos.z) d.vel.z (Set.Icc 0 T) t := by
  let F : ℝ × ℝ → ℝ × ℝ := fun p => (p.2, -(398600.5e9 / (p.1 + 6371000) ^ 2))
  have hF : ContDiffAt ℝ 1 F (0, 100) := by
    refine contDiffAt_snd.prodMk (ContDiffAt.neg (ContDiffAt.div contDiffAt_const ((contDiffAt_fst.add contDiffAt_const).pow 2) ?_))
    norm_num
  obtain ⟨α, h0, ε, hε, hα⟩ := hF.exists_forall_mem_closedBall_exists_eq_forall_mem_Ioo_hasDerivAt₀ (0 : ℝ)
  have hcont : ContinuousAt (fun t => (α t).1) 0 :=
    continuous_fst.continuousAt.comp (hα 0 (by constructor <;> linarith)).continuousAt
  have hev : ∀ᶠ t in nhds (0 : ℝ), -1 < (α t).1 := hcont.eventually (lt_mem_nhds (by show -1 < (α 0).1; rw [h0]; norm_num))
  obtain ⟨δ, hδ, hball⟩ := Metric.eventually_nhds_iff.1 hev
  have hT : 0 < min (ε / 2) (δ / 2) := lt_min (by linarith) (by linarith)
  set T := min (ε / 2) (δ / 2) with hTd
  have hode : ∀ t ∈ Set.Icc 0 T, ∃ d, stone.rhs sky t (at' (α t).1 (α t).2) = .ok d ∧
      HasDerivWithinAt (fun τ => (at' (α τ).1 (α τ).2).pos.z) d.vel.z (Set.Icc 0 T) t ∧
      HasDerivWithinAt (fun τ => (at' (α τ).1 (α τ).2).vel.z) d.acc.z (Set.Icc 0 T) t := by
    intro t ht
    have t1 : t ≤ ε / 2 := le_trans ht.2 (min_le_left _ _)
    have t2 : t ≤ δ / 2 := le_trans ht.2 (min_le_right _ _)
    have hz : -1 < (α t).1 := hball (by rw [dist_zero_right, Real.norm_eq_abs, abs_of_nonneg ht.1]; linarith)
    obtain ⟨d, d1, d2, d3, -⟩ := stone_rhs (α t).1 (α t).2 t (by linarith)
    have hd := hα t ⟨by linarith [ht.1], by linarith⟩
    refine ⟨d, d1, ?_, ?_⟩
    · rw [d2]; exact ((ContinuousLinearMap.fst ℝ ℝ ℝ).hasFDerivAt.comp_hasDerivAt t hd).hasDerivWithinAt
    · rw [d3]; exact ((ContinuousLinearMap.snd ℝ ℝ ℝ).hasFDerivAt.comp_hasDerivAt t hd).hasDerivWithinAt
  refine ⟨T, fun t => at' (α t).1 (α t).2, hT, by simp [h0, at'], by simp [h0, at'], ?_, fun t ht => ?_⟩
  · have := (coast_apogee stone sky sky_quiet (x := 0) (y := 0) stone_coasts (fun t => at' (α t).1 (α t).2) (fun t _ => at_upright _ _) hode
      (by rw [h0]; norm_num [at']) (by rw [h0]; norm_num [at'])).2.2
    intro t ht
    refine this t ht 520 (by rw [h0]; norm_num [at']) ?_
    rw [h0]
    norm_num [at']
  · obtain ⟨d, d1, d2, -⟩ := hode t ht
    exact ⟨d, d1, d2⟩

/-- hypotheses of `fly_coast`: one step of the stone, rising at 10 m/s -/
theorem stone_rises : ∃ w', fly sky "Euler" ⟨0, at' 1000 10, none, none⟩ [(stone, 1 / 10)] = .ok w' ∧ w'.state.vel.z ≤ 10 ∧ w'.state.pos.z ≤ 1001 := by
  obtain ⟨d, h1, -, -, h3⟩ := stone_rhs 1000 10 0 (by norm_num)
  have hmul : d.mul (1 / 10) = .ok ⟨(1 / 10 : ℝ) • d.vel, (1 / 10 : ℝ) • d.acc, ⟨1, 0, 0, 0⟩, (1 / 10 : ℝ) • d.angAcc⟩ := by
    unfold RBDeriv.mul Quat.ofRotationVector
    rw [h3, smul_zero, show (0 : V3 ℝ).length = 0 by rw [← z3, length_axis, abs_zero],
      show ∀ v : V3 ℝ, Quat.axisAngle v 0 = ⟨1, 0, 0, 0⟩ by intro v; simp [Quat.axisAngle], unit_normalize norm_idq]
  have hadd : ∃ s', (at' 1000 10).add ⟨(1 / 10 : ℝ) • d.vel, (1 / 10 : ℝ) • d.acc, ⟨1, 0, 0, 0⟩, (1 / 10 : ℝ) • d.angAcc⟩ = .ok s' := by
    unfold RBState.add
    simp only [at', unit_normalize norm_idq]
    rw [show Quat.mul (⟨1, 0, 0, 0⟩ : Quat ℝ) ⟨1, 0, 0, 0⟩ = ⟨1, 0, 0, 0⟩ by simp [Quat.mul], unit_normalize norm_idq]
    exact ⟨_, rfl⟩
  obtain ⟨s', hs'⟩ := hadd
  have hint : integrateStep "Euler" (stone.rhs { sky with rail := none })
      ⟨0, { at' 1000 10 with pos := (at' 1000 10).pos, vel := (at' 1000 10).vel }, none, none⟩ (1 / 10) = .ok (s', none) := by
    show integrateStep "Euler" (stone.rhs sky) ⟨0, at' 1000 10, none, none⟩ (1 / 10) = .ok (s', none)
    unfold integrateStep
    have e1 : ∃ e, RK.adaptiveTableau "Euler" = .error e := ⟨_, rfl⟩
    obtain ⟨e, e1⟩ := e1
    rw [e1]
    unfold Body.classicalStep
    rw [show RK.classicalTableau "Euler" = .ok none from rfl]
    unfold Body.eulerStep Body.plus
    simp only [h1, bind, Except.bind, Body.bodyArith, hmul, hs']
  have hrun : ∃ w', fly sky "Euler" ⟨0, at' 1000 10, none, none⟩ [(stone, 1 / 10)] = .ok w' := by
    unfold fly Craft.timeStep envConstrain
    simp only [bind, Except.bind]
    rw [hint]
    exact ⟨_, rfl⟩
  obtain ⟨w', h⟩ := hrun
  have := fly_coast sky sky_quiet (x := 0) (y := 0) (t₀ := 0) "Euler" (by simp) [(stone, 1 / 10)]
    (fun p hp => by rw [List.mem_singleton.1 hp]; exact ⟨stone_coasts, by norm_num⟩) ⟨0, at' 1000 10, none, none⟩
    ⟨at_upright _ _, rfl, fun k hk => by cases hk⟩ le_rfl w' h
  obtain ⟨-, h2, h3, h4⟩ := this
  refine ⟨w', h, h3, ?_⟩
  rw [h2] at h4
  rw [if_neg (by decide)] at h4
  simp only [at', List.map_cons, List.map_nil, List.sum_cons, List.sum_nil] at h4
  linarith

end Coast

end Mapleaf.Rocket
