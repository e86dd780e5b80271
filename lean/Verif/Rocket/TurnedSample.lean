import Verif.Rocket.TurnedLaunchProps
import Verif.Rocket.AscentSample

/-!
# C96: the hypotheses can be met, and the launch rails for which the claim fails
-/

namespace Mapleaf.Rocket.Turned
open Mapleaf.Motion V3 ENV Ascent

/-! ## Flat earth -/

/-- a steady wind from the west, and the same wind turned -/
noncomputable def windy (ψ : ℝ) : Env := { env with mean := fun _ => .ok (turnZ ψ ⟨5, 0, 0⟩) }

theorem windy_turned (ψ : ℝ) : WindsTurned ψ (windy 0) (windy ψ) :=
  ⟨.inl rfl, rfl, rfl, rfl, fun _ => by simp only [windy, turnZ_zero, Except.map], .inl ⟨rfl, rfl⟩⟩

theorem calm_turned (ψ : ℝ) : WindsTurned ψ env env :=
  ⟨.inl rfl, rfl, rfl, rfl, fun _ => by simp [env, Except.map, turnZ], .inl ⟨rfl, rfl⟩⟩

/-- hypotheses of `turned_flight`: the flight of the sample rocket off its vertical rail, turned by a quarter turn and moved by 100 m -/
example : ∃ w w' : InFlight, fly env "Euler" (turnFlight (yawQ (Real.pi / 2)) ⟨100, 0, 0⟩ ⟨0, start, env.rail, none⟩) [(craft, 1 / 10)] = .ok w' ∧
    fly env "Euler" ⟨0, start, env.rail, none⟩ [(craft, 1 / 10)] = .ok w ∧ w'.state.vel.z = w.state.vel.z ∧ 0 < w.state.vel.z := by
  obtain ⟨w, hw, hz⟩ := start_flight
  refine ⟨w, turnFlight (yawQ (Real.pi / 2)) ⟨100, 0, 0⟩ w, ?_, hw, ?_, hz⟩
  · have := turned_flight (calm_turned (Real.pi / 2)) 100 0 "Euler" [(craft, 1 / 10)] ⟨0, start, env.rail, none⟩ (by
      intro l hl
      obtain rfl := Option.some.inj hl
      exact ⟨rfl, rfl, rfl⟩)
    rw [this, hw]
    rfl
  · rw [show (turnFlight (yawQ (Real.pi / 2)) ⟨100, 0, 0⟩ w).state = w.state.turn (yawQ (Real.pi / 2)) ⟨100, 0, 0⟩ from rfl,
      (turn_coords _ _ _).2.1]
    rfl

/-- the launch of the sample rocket -/
noncomputable def launch : Launch := ⟨⟨0, 0, 0⟩, ⟨0, 0, 0⟩, ⟨0, 0, 7⟩, some (⟨0, 0, 1⟩, 0), ⟨0, 0, 1⟩, ⟨0, 0, 0⟩, 3⟩

/-- a launch of `launch_moved` that does fly -/
example : ∃ w : InFlight, launchFlight env { launch with pos := launch.pos + ⟨30, 40, 0⟩ } "Euler" [(craft, 1 / 10)] = .ok (shiftFlight 30 40 w) ∧
    0 < w.state.vel.z := by
  obtain ⟨w, hw, hz⟩ := start_flight
  refine ⟨w, ?_, hz⟩
  rw [launch_moved (.inl rfl)]
  have : launchFlight env launch "Euler" [(craft, 1 / 10)] = .ok w := by
    unfold launchFlight
    rw [show makeRail env.earth env.elevation env.lat env.lon launch.railLength launch.pos launch.rotation launch.dir = .ok env.rail from start_rail]
    change Except.bind (Env.initialState _ _ _ _ _ _ _) _ = _
    rw [show Env.initialState { env with rail := env.rail } launch.pos launch.vel launch.angVel launch.rotation launch.dir launch.cg = .ok start
      from start_state]
    exact hw
  rw [this]
  rfl

/-! ## Round earth -/

/-- still air over the round earth, 1000 m above sea level at 45 degrees north -/
noncomputable def globe : Env := calm roundEarth

theorem rotate_some {q : Quat ℝ} (h : q.nsq ≠ 0) (v : V3 ℝ) : ∃ x, q.rotate v = .ok x :=
  ⟨_, Quat.rotate_eq_rotF q v (fun e => h (by rw [e]; simp [Quat.nsq, Quat.zeroQ]))⟩

theorem normalize_some {q : Quat ℝ} (h : q.nsq ≠ 0) : ∃ x, q.normalize = .ok x ∧ x.nsq = 1 := by
  obtain ⟨x, h1, h2, -⟩ := (Quat.qnormalize_spec q).2 (fun e => h (by rw [e]; simp [Quat.nsq, Quat.zeroQ]))
  exact ⟨x, h1, by rw [← Quat.norm_sq', h2, one_mul]⟩

theorem rotate_unit {q : Quat ℝ} (h : q.nsq ≠ 0) (v : V3 ℝ) : ∃ w x, q.rotate v = .ok (w, x) ∧ x.nsq = 1 := by
  obtain ⟨x, h1, h2⟩ := normalize_some h
  exact ⟨x.sandwich v, x, by unfold Quat.rotate; rw [h1], h2⟩

theorem globe_force (t : ℝ) (s : RBState) (ho : s.ori.nsq = 1) (hp : ¬ Polar s.pos) : ∃ F, craft.appliedForce (offAxis globe) t s = .ok F := by
  have hen : (offAxis globe).earth.enu s.pos = .ok (Sphere.enuRotation s.pos) := if_neg hp
  have hair : ∃ c, (offAxis globe).conditions false s.pos (some t) = .ok c ∧ c.temp = 280 ∧ c.viscosity = 2e-5 := by
    unfold Env.conditions Env.airProperties
    rw [hen, show (offAxis globe).earth.altitude s.pos = .ok (Sphere.altitude s.pos) from rfl]
    dsimp only
    rw [show (offAxis globe).getWind (Sphere.altitude s.pos - (offAxis globe).elevation) (some t) = .ok (0, ⟨0, 0, 0⟩) from rfl]
    dsimp only
    obtain ⟨w, x, hw, hx⟩ := rotate_unit (q := Sphere.enuRotation s.pos) (by unfold Sphere.enuRotation; rw [Sphere.enuOf_nsq]; norm_num)
      (0 + ⟨(offAxis globe).earth.rate * √(s.pos.x ^ 2 + s.pos.y ^ 2), 0, 0⟩)
    rw [hw]
    dsimp only
    obtain ⟨w', hw'⟩ := rotate_some (q := x) (by rw [hx]; norm_num) ⟨0, 0, 0⟩
    rw [hw']
    exact ⟨_, rfl, rfl, rfl⟩
  obtain ⟨c, hc, h280, hvis⟩ := hair
  have hflow : ∃ f, flowOf s c = .ok f := by
    unfold flowOf Aero.machOf Aero.airVel Aero.reynoldsOf condOf
    rw [h280, hvis]
    have h3 : ¬ (1.4 * 287 * (280 : ℝ) < 0) := by norm_num
    have h4 : ¬ (Real.sqrt (1.4 * 287 * (280 : ℝ)) = 0) := by
      have : (0 : ℝ) < Real.sqrt (1.4 * 287 * (280 : ℝ)) := Real.sqrt_pos.2 (by norm_num)
      exact this.ne'
    obtain ⟨w, hw⟩ := rotate_some (q := s.ori.conj) (by rw [Quat.conj_nsq, ho]; norm_num) (s.vel - c.wind)
    rw [if_neg h3, if_neg h4, hw]
    simp only [bind, Except.bind, Except.map]
    rw [if_neg (by norm_num)]
    exact ⟨_, rfl⟩
  obtain ⟨f, hf⟩ := hflow
  have haoa : ∃ x, Aero.totalAOAOf f.v = .ok x := by
    unfold Aero.totalAOAOf
    split
    · exact ⟨_, rfl⟩
    · rename_i h
      unfold V3.angle
      have h1 : (⟨0, 0, -1⟩ : V3 ℝ).length = 1 := by rw [length_axis]; norm_num
      rw [if_neg (by rw [h1, mul_one]; exact h)]
      dsimp only
      repeat' split
      all_goals exact ⟨_, rfl⟩
  obtain ⟨x, hx⟩ := haoa
  have hl : s.pos.length ≠ 0 := by
    intro h
    have : s.pos = 0 := (length_zero_iff s.pos).1 h
    exact hp ⟨by rw [this]; rfl, by rw [this]; rfl⟩
  have hg : ∃ g, (offAxis globe).gravityForce body.mass body.cg s = .ok g := by
    unfold Env.gravityForce
    have : ∃ g, (offAxis globe).earth.gravity body.mass s.pos = .ok g := by
      change ∃ g, Sphere.gravity _ _ = .ok g
      unfold Sphere.gravity
      rw [if_neg (pow_ne_zero 2 hl)]
      exact ⟨_, rfl⟩
    obtain ⟨g, hg⟩ := this
    rw [hg]
    dsimp only
    obtain ⟨w, hw⟩ := rotate_some (q := s.ori.conj) (by rw [Quat.conj_nsq, ho]; norm_num) g
    rw [hw]
    exact ⟨_, rfl⟩
  obtain ⟨g, hg⟩ := hg
  have hparts : ∃ P, craft.force ⟨craft.ship, f, t, body.cg, fun t => (craft.inertia t).map (·.moi.x)⟩ = .ok P := by
    unfold Craft.force sumForces
    simp only [craft, Body.mapE, Part.applied, sumForces]
    exact ⟨_, rfl⟩
  obtain ⟨P, hP⟩ := hparts
  simp only [craft_inertia] at hP
  unfold Craft.appliedForce
  simp only [bind, Except.bind, hc, craft_inertia, hf, hx, hg, hP]
  exact ⟨_, rfl⟩

theorem globe_step (s : RBState) (ho : s.ori.nsq = 1) (hp : ¬ Polar s.pos) :
    ∃ w, fly (offAxis globe) "Euler" ⟨0, s, none, none⟩ [(craft, 1 / 10)] = .ok w := by
  obtain ⟨F, hF⟩ := globe_force 0 s ho hp
  have hd : ∃ d, craft.rhs (offAxis globe) 0 s = .ok d := by
    unfold Craft.rhs
    simp only [bind, Except.bind, hF, craft_inertia]
    unfold rigidBodyDerivative
    obtain ⟨a, x, h1, hx⟩ := rotate_unit (q := s.ori) (by rw [ho]; norm_num) ((1 / 1e-8 : ℝ) • (body.cg - body.cg))
    rw [h1]
    dsimp only
    obtain ⟨a', x', h1', hx'⟩ := rotate_unit (q := x) (by rw [hx]; norm_num) F.force
    rw [h1']
    dsimp only
    rw [if_neg (by simp [body])]
    obtain ⟨a'', h1''⟩ := rotate_some (q := x') (by rw [hx']; norm_num) s.angVel
    rw [h1'']
    dsimp only
    rw [if_neg (by simp [body])]
    exact ⟨_, rfl⟩
  obtain ⟨d, hd⟩ := hd
  have hmul : ∃ c, d.mul (1 / 10) = .ok c ∧ c.ori.nsq = 1 := by
    unfold RBDeriv.mul Quat.ofRotationVector
    have : (Quat.axisAngle ((1 / 10 : ℝ) • d.angVel).normalize ((1 / 10 : ℝ) • d.angVel).length).nsq ≠ 0 := by
      by_cases h0 : ((1 / 10 : ℝ) • d.angVel) = 0
      · rw [h0, show (0 : V3 ℝ).length = 0 by rw [← z3, length_axis, abs_zero]]
        simp [Quat.axisAngle, Quat.nsq]
      · rw [Quat.axisAngle_nsq]
        · norm_num
        · intro h
          have h2 := (normalize_spec _).1 h0
          rw [h, show (0 : V3 ℝ).length = 0 by rw [← z3, length_axis, abs_zero]] at h2
          norm_num at h2
    obtain ⟨x, h1, h2⟩ := normalize_some this
    rw [h1]
    exact ⟨_, rfl, h2⟩
  obtain ⟨c, hc, hcu⟩ := hmul
  have hadd : ∃ s', s.add c = .ok s' := by
    unfold RBState.add
    obtain ⟨x, h1, h2⟩ := normalize_some (q := s.ori) (by rw [ho]; norm_num)
    rw [h1]
    dsimp only
    obtain ⟨y, h3, -⟩ := normalize_some (q := c.ori.mul x) (by rw [Quat.nsq_mul, hcu, h2]; norm_num)
    rw [h3]
    exact ⟨_, rfl⟩
  obtain ⟨s', hs'⟩ := hadd
  unfold fly Craft.timeStep
  simp only [bind, Except.bind, envConstrain]
  have hint : integrateStep "Euler" (craft.rhs (offAxis globe)) ⟨0, s, none, none⟩ (1 / 10) = .ok (s', none) := by
    unfold integrateStep
    have e1 : ∃ e, RK.adaptiveTableau "Euler" = .error e := ⟨_, rfl⟩
    obtain ⟨e, e1⟩ := e1
    rw [e1]
    unfold Body.classicalStep
    rw [show RK.classicalTableau "Euler" = .ok none from rfl]
    unfold Body.eulerStep Body.plus
    simp only [hd, bind, Except.bind, Body.bodyArith, hc, hs']
  have hint' : integrateStep "Euler" (craft.rhs { offAxis globe with rail := none })
      ⟨0, { s with pos := s.pos, vel := s.vel }, none, none⟩ (1 / 10) = .ok (s', none) := hint
  rw [hint']
  exact ⟨_, rfl⟩

/-- a launch without rail -/
noncomputable def free : Launch := ⟨⟨0, 0, 0⟩, ⟨0, 0, 100⟩, ⟨0, 0, 0⟩, some (⟨0, 0, 1⟩, 0), ⟨0, 0, 1⟩, ⟨0, 0, 0⟩, 0⟩

/-- hypotheses of `launch_east` -/
theorem free_flight : ∃ w : InFlight, launchFlight (offAxis globe) free "Euler" [(craft, 1 / 10)] = .ok w := by
  have hq : Quat.axisAngle ⟨0, 0, 1⟩ (radians 0) = ⟨1, 0, 0, 0⟩ := by
    unfold Quat.axisAngle radians; simp
  have hoff := (geodetic_off (lat := 45) (lon := 10) (h := 1000) (by norm_num) (by norm_num) (by norm_num)).1
  have hst : ∃ s, Env.initialState { offAxis globe with rail := none } free.pos free.vel free.angVel free.rotation free.dir free.cg = .ok s ∧
      s.ori.nsq = 1 ∧ ¬ Polar s.pos := by
    unfold Env.initialState initialOrientation
    simp only [free]
    rw [hq]
    unfold Env.initialToGlobal
    dsimp only
    rw [if_neg (by simp)]
    rw [show (offAxis globe).earth.toGlobal = Sphere.toGlobal from rfl, show (offAxis globe).lat = 45 from rfl,
      show (offAxis globe).lon = 10 from rfl]
    unfold Sphere.toGlobal
    simp only [add_z, zero_add]
    rw [show (offAxis globe).elevation = 1000 from rfl]
    obtain ⟨v, x, h1, hx⟩ := rotate_unit (q := Sphere.enuRotation (Sphere.geodeticToCartesian 45 10 1000 0))
      (by unfold Sphere.enuRotation; rw [Sphere.enuOf_nsq]; norm_num) ⟨0, 0, 100⟩
    rw [h1]
    dsimp only
    have hxm : (x.mul ⟨1, 0, 0, 0⟩).nsq = 1 := by rw [Quat.nsq_mul, hx]; norm_num [Quat.nsq]
    obtain ⟨w, hw⟩ := rotate_some (q := (x.mul ⟨1, 0, 0, 0⟩).conj) (by rw [Quat.conj_nsq, hxm]; norm_num) ⟨0, 0, Sphere.rotationRate⟩
    rw [hw]
    dsimp only
    unfold moveToCG
    dsimp only
    obtain ⟨y, hy1, hy2⟩ := normalize_some (q := x.mul ⟨1, 0, 0, 0⟩) (by rw [hxm]; norm_num)
    have hcg : (x.mul ⟨1, 0, 0, 0⟩).rotate ⟨0, 0, 0⟩ = .ok (0, y) := by
      unfold Quat.rotate
      rw [hy1]
      simp only [Except.ok.injEq, Prod.mk.injEq, and_true]
      apply V3.ext' <;> simp [Quat.sandwich, Quat.mul, Quat.conj] <;> ring
    rw [hcg]
    refine ⟨_, rfl, hy2, ?_⟩
    simpa using hoff
  obtain ⟨s, hs, ho, hp⟩ := hst
  obtain ⟨w, hw⟩ := globe_step s ho hp
  refine ⟨w, ?_⟩
  unfold launchFlight
  rw [show makeRail (offAxis globe).earth (offAxis globe).elevation (offAxis globe).lat (offAxis globe).lon free.railLength free.pos free.rotation
    free.dir = .ok none by unfold makeRail; rw [if_neg (by simp [free])]]
  change Except.bind (Env.initialState _ _ _ _ _ _ _) _ = _
  rw [hs]
  exact hw

/-- the same launch 30 degrees further east -/
example : ∃ w w' : InFlight, launchFlight globe free "Euler" [(craft, 1 / 10)] = .ok w ∧
    launchFlight { globe with lon := globe.lon + 30 } free "Euler" [(craft, 1 / 10)] = .ok w' ∧
    w'.state.pos = turnZ (radians 30) w.state.pos := by
  obtain ⟨w, hw⟩ := free_flight
  obtain ⟨h1, w', h2, -, h3, -⟩ := launch_east (E := globe) (.inl rfl) free 30 "Euler" [(craft, 1 / 10)] (by simp [free])
    (by norm_num [globe, calm]) (by norm_num [globe, calm]) (by norm_num [globe, calm, free]) w hw
  exact ⟨w, w', h1, h2, h3⟩

/-! ## Leaning rails, and rails on round earths -/

/-- **C96 violated.** A rail leaning by the angle with cosine 3/5, the rocket aligned with it, 1 N along its axis. Turn everything by half a
turn about the vertical: instead of the force turned (sideways and down), the rocket gets a force straight up. -/
theorem compass_rail_violated :
    let l : Rail := ⟨0, ⟨0, -4/5, 3/5⟩, 5, 0⟩
    let q : Quat ℝ := ⟨2, 1, 0, 0⟩
    let r : Quat ℝ := yawQ Real.pi
    let f : FMS ℝ := ⟨⟨0, 0, 1⟩, 0, 0⟩
    globalForce (some l) 0 q 0 f = .ok ⟨0, -72/125, -21/125⟩ ∧
    globalForce (some (turnRail r 0 l)) (r.rotF 0 + 0) (r.mul q) 0 f = .ok ⟨0, 0, 3/5⟩ ∧
    r.rotF ⟨0, -72/125, -21/125⟩ = ⟨0, 72/125, -21/125⟩ := by
  intro l q r f
  have hr : r = ⟨0, 0, 0, 1⟩ := by
    show yawQ Real.pi = _
    unfold yawQ
    rw [Real.cos_pi_div_two, Real.sin_pi_div_two]
  refine ⟨ENV.tilted_rail_violated.2.1, ?_, ?_⟩
  · have hq : r.mul q ≠ Quat.zeroQ := by
      intro h
      have := congrArg Quat.q3 h
      rw [hr] at this
      simp [Quat.zeroQ, Quat.mul, q] at this
    have hpos : r.rotF 0 + 0 - (turnRail r 0 l).pos = 0 := by
      rw [show (turnRail r 0 l).pos = r.rotF l.pos + 0 from rfl, shift_sub, show (0 : V3 ℝ) - l.pos = 0 by simp [l], ENV.rotF_zero]
    have h0 : ∀ v, turnZ ((turnRail r 0 l).rate * 0) v = v := by intro v; rw [mul_zero, turnZ_zero]
    have hdir : (turnRail r 0 l).dir = ⟨0, 4/5, 3/5⟩ := by
      show r.rotF l.dir = _
      rw [hr]
      apply V3.ext' <;> norm_num [Quat.rotF, Quat.nsq, Quat.sandwich, Quat.mul, Quat.conj, l]
    unfold globalForce envForce
    simp only
    rw [((turnRail r 0 l).force_spec _ 0 f).1 (by
      rw [h0, hpos, show (0 : V3 ℝ).length = 0 by rw [← z3, length_axis, abs_zero]]
      show (0 : ℝ) < 5
      norm_num), h0, hdir]
    simp only
    rw [Quat.rotate_eq_rotF _ _ hq, hr]
    simp only [Except.map]
    congr 1
    apply V3.ext' <;> norm_num [Quat.rotF, Quat.nsq, Quat.sandwich, Quat.mul, Quat.conj, q, f, dot]
  · rw [hr]
    apply V3.ext' <;> norm_num [Quat.rotF, Quat.nsq, Quat.sandwich, Quat.mul, Quat.conj]

/-- **C96 violated.** On the round earth, a rocket standing on a vertical rail on the equator feels no force at all from its motor (nor from
gravity, nor from any other force along its axis), however strong: whatever the longitude, the time and the height. -/
theorem equator_rail_violated (elevation lon len h : ℝ) (hlen : 0 < len) (hh : -6000000 < h + elevation) :
    ∃ l, makeRail roundEarth elevation 0 lon len ⟨0, 0, h⟩ none ⟨0, 0, 1⟩ = .ok (some l) ∧
      ∀ pos t T cg m (ori : Quat ℝ), ori.nsq = 1 → (pos - turnZ (l.rate * t) l.pos).length < l.length →
        globalForce (some l) pos ori t ⟨⟨0, 0, T⟩, cg, m⟩ = .ok 0 := by
  have hori : railOrientation none ⟨0, 0, 1⟩ = .ok ⟨1, 0, 0, 0⟩ := by
    unfold railOrientation
    dsimp only
    rw [zAxis_unit]
    unfold V3.angle
    have h1 : (⟨0, 0, 1⟩ : V3 ℝ).length = 1 := by rw [length_axis]; norm_num
    rw [h1]
    simp [dot, Quat.axisAngle]
  have hoff := (geodetic_off (lat := 0) (lon := lon) (h := h + elevation) (by norm_num) (by norm_num) hh).1
  set P := Sphere.geodeticToCartesian 0 lon (h + elevation) 0 with hP
  obtain ⟨-, -, u, hu⟩ := Sphere.enu_axes P (by
    by_contra hc
    rw [not_or, not_not, not_not] at hc
    exact hoff hc)
  have hPz : P.z = 0 := by rw [hP]; unfold Sphere.geodeticToCartesian radians; simp
  have hgo : ∃ g, roundEarth.toGlobal ⟨⟨0, 0, h⟩ + ⟨0, 0, elevation⟩, ⟨0, 0, 0⟩, ⟨1, 0, 0, 0⟩, ⟨0, 0, 0⟩⟩ 0 lon = .ok g ∧
      ∀ v q, g.ori.rotate ⟨0, 0, 1⟩ = .ok (v, q) → v.z = 0 := by
    change ∃ g, Sphere.toGlobal _ 0 lon = .ok g ∧ _
    unfold Sphere.toGlobal
    simp only [add_z]
    rw [← hP]
    have hun : (Sphere.enuRotation P).nsq = 1 := Sphere.enuOf_nsq _ _
    obtain ⟨n, hn1, hn2⟩ := normalize_some (q := Sphere.enuRotation P) (by rw [hun]; norm_num)
    have hrot : ∀ v, (Sphere.enuRotation P).rotate v = .ok (n.sandwich v, n) := by
      intro v; unfold Quat.rotate; rw [hn1]
    have hne : n = Sphere.enuRotation P := by
      have := Quat.rotate_eq_rotF (Sphere.enuRotation P) 0 (ENV.unit_ne hun)
      rw [hrot, ENV.scale_unit hun] at this
      exact (Prod.mk.inj (Except.ok.inj this)).2
    rw [hrot]
    dsimp only
    have hm : n.mul ⟨1, 0, 0, 0⟩ = n := by apply Quat.ext4 <;> simp [Quat.mul]
    rw [hm]
    obtain ⟨w, hw⟩ := rotate_some (q := n.conj) (by rw [Quat.conj_nsq, hn2]; norm_num) ⟨0, 0, Sphere.rotationRate⟩
    rw [hw]
    refine ⟨_, rfl, fun v q hv => ?_⟩
    dsimp only at hv
    rw [hne, hu] at hv
    rw [← (Prod.mk.inj (Except.ok.inj hv)).1]
    dsimp only
    rw [hPz, zero_div]
  obtain ⟨g, hg, hz⟩ := hgo
  have hrot : ∃ v q, g.ori.rotate ⟨0, 0, 1⟩ = .ok (v, q) := by
    obtain ⟨q, -, hq, -, hgo, -⟩ := toGlobal_turning (e := roundEarth) (.inl rfl) hg
    refine ⟨_, _, Quat.rotate_eq_rotF g.ori _ (ENV.unit_ne ?_)⟩
    rw [hgo, Quat.nsq_mul, hq]
    norm_num [Quat.nsq]
  obtain ⟨v, q, hv⟩ := hrot
  refine ⟨Rail.make g.pos v len roundEarth.rate, ?_, ?_⟩
  · unfold makeRail
    rw [if_pos hlen, hori]
    dsimp only
    rw [hg]
    dsimp only
    rw [hv]
  · intro pos t T cg m ori ho hpos
    have hvz : v.normalize.z = 0 := by
      unfold V3.normalize
      split
      · dsimp only; rw [hz v q hv, zero_div]
      · rfl
    unfold globalForce envForce
    simp only
    rw [(Rail.force_spec _ pos t _).1 hpos]
    simp only
    have hd : dot (⟨0, 0, T⟩ : V3 ℝ) (turnZ ((Rail.make g.pos v len roundEarth.rate).rate * t) (Rail.make g.pos v len roundEarth.rate).dir) = 0 := by
      simp [dot, turnZ, Rail.make, hvz]
    rw [hd, zero_smul, Quat.rotate_eq_rotF _ _ (ENV.unit_ne ho), ENV.rotF_zero]
    rfl

end Mapleaf.Rocket.Turned
