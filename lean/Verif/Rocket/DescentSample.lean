import Verif.Rocket.DescentProps
import Verif.Rocket.MissionSample

/-! # C101: the earth of the simulator, one step in closed form, steps that are too long, and examples -/

namespace Mapleaf.Rocket
open Mapleaf.Motion V3 ENV
open Mapleaf.Motion.Stepper (RBDeriv3)

/-- **C101.** Over the flat earth of the simulator gravity at altitudes between `z₁ - 1` and `z₂ + 1` is within its change over that range of
its value at any of these altitudes. -/
theorem flat_level {E : Env} (hE : E.earth = flatEarth) {z₁ z₂ z₀ : ℝ} (h1 : -6371000 < z₁ - 1) (h0 : z₀ ∈ Set.Icc (z₁ - 1) (z₂ + 1)) :
    Level E (398600.5e9 / (z₀ + 6371000) ^ 2) (398600.5e9 / (z₁ - 1 + 6371000) ^ 2 - 398600.5e9 / (z₂ + 1 + 6371000) ^ 2) z₁ z₂ := by
  intro m pos f hz hf
  rw [hE] at hf
  change flatGravity m pos = .ok f at hf
  unfold flatGravity at hf
  split at hf
  · cases hf
  refine ⟨398600.5e9 / (pos.z + 6371000) ^ 2, ?_, ?_⟩
  · rw [← Except.ok.inj hf]
    congr 1
    ring
  have mono : ∀ a b : ℝ, -6371000 < a → a ≤ b → 398600.5e9 / (b + 6371000) ^ 2 ≤ (398600.5e9 : ℝ) / (a + 6371000) ^ 2 := by
    intro a b ha hab
    apply div_le_div_of_nonneg_left (by norm_num) (by have : 0 < a + 6371000 := by linarith
                                                      positivity)
    exact pow_le_pow_left₀ (by linarith) (by linarith) 2
  have a1 := mono _ _ h1 hz.1
  have a2 := mono _ _ (h1.trans_le hz.1) hz.2
  have a3 := mono _ _ h1 h0.1
  have a4 := mono _ _ (h1.trans_le h0.1) h0.2
  rw [abs_le]
  constructor <;> linarith

/-- under a parachute, away from the rail, the acceleration is gravity and drag in the wind -/
theorem chute_sinks {v : Vessel} {c : Chute ℝ} (hv : v.Hangs c) {E : Env} (hr : E.rail = none) {t : ℝ} {s : RBState3} {air : Conditions} {i : Inertia ℝ}
    {g : ℝ} (h1 : E.conditions v.quietChute s.pos (some t) = .ok air) (h2 : v.craft.inertia t = .ok i) (hm : 0 < i.mass)
    (h3 : E.earth.gravity i.mass s.pos = .ok ((i.mass * g) • ⟨0, 0, -1⟩)) :
    v.chuteRhs E t s = .ok ⟨s.vel, sink (c.cd * c.area * air.density / (2 * i.mass)) g air.wind s.vel⟩ := by
  obtain ⟨cs, j, o1, o2, o3⟩ := hv.open_
  have hok : ∃ d, v.chuteRhs E t s = .ok d := by
    unfold Vessel.chuteRhs
    rw [h1]
    simp only [bind, Except.bind]
    rw [h2]
    dsimp only
    rw [h3, o1, o2, hr]
    have hf : ∃ f, chuteForce cs ((j + 1 : ℕ) : Int) s.vel air.wind air.density = .ok f := by
      have hget : ∀ F : Chute ℝ → ℝ, pyGet (0 :: cs.map F) ((j + 1 : ℕ) : Int) = .ok (F c) := by
        intro F
        obtain ⟨hk, hck⟩ := List.getElem?_eq_some_iff.1 o3
        have hlt : ¬ (((j + 1 : ℕ) : Int) < 0) := by omega
        unfold pyGet
        dsimp only
        rw [if_neg hlt, if_neg hlt]
        simp [hk, hck]
      unfold chuteForce
      rw [if_neg (by omega)]
      dsimp only
      rw [hget, hget]
      exact ⟨_, rfl⟩
    obtain ⟨f, hf⟩ := hf
    simp only [List.getLast?_singleton]
    rw [hf]
    unfold envForce rigidBodyDerivative3
    dsimp only
    rw [if_neg hm.ne']
    exact ⟨_, rfl⟩
  obtain ⟨d, hd⟩ := hok
  obtain ⟨a, i', f, e1, e2, e3, e4, e5, e6⟩ := chute_acceleration o1 o2 o3 hr hd
  obtain rfl := Except.ok.inj (h1.symm.trans e1)
  obtain rfl := Except.ok.inj (h2.symm.trans e2)
  obtain rfl := Except.ok.inj (h3.symm.trans e3)
  rw [hd]
  obtain ⟨dv, da⟩ := d
  dsimp only at e5 e6
  subst e5
  congr 2
  rw [e6]
  have hn := (normalize_spec (s.vel - air.wind)).2.2
  have hne := hm.ne'
  have e1 : (-(c.cd * c.area * ((s.vel - air.wind).length ^ 2 * air.density / 2))) • (s.vel - air.wind).normalize =
      (-(i.mass * (c.cd * c.area * air.density / (2 * i.mass) * (s.vel - air.wind).length))) • (s.vel - air.wind) := by
    rw [show (-(i.mass * (c.cd * c.area * air.density / (2 * i.mass) * (s.vel - air.wind).length))) • (s.vel - air.wind) =
      (-(i.mass * (c.cd * c.area * air.density / (2 * i.mass) * (s.vel - air.wind).length))) • ((s.vel - air.wind).length • (s.vel - air.wind).normalize) by
        rw [hn], smul_smul]
    congr 1
    field_simp
  rw [e1]
  unfold sink
  apply V3.ext'
  · simp only [V3.sub_x, V3.smul_x, V3.add_x]; field_simp; ring
  · simp only [V3.sub_y, V3.smul_y, V3.add_y]; field_simp; ring
  · simp only [V3.sub_z, V3.smul_z, V3.add_z]; field_simp; ring

/-- **C101.** One step of Euler's method under a parachute. -/
theorem euler_sinks {P : Setup} (hP : P.Fixed) (hm : P.method = "Euler") {v : Vessel} {c : Chute ℝ} (hv : v.Hangs c) {w : InFlight3} (hw : v.phase = .three w)
    {air : Conditions} {i : Inertia ℝ} {g : ℝ} (h1 : P.env.conditions v.quietChute w.state.pos (some w.time) = .ok air)
    (h2 : v.craft.inertia w.time = .ok i) (hi : 0 < i.mass) (h3 : P.env.earth.gravity i.mass w.state.pos = .ok ((i.mass * g) • ⟨0, 0, -1⟩)) (dt : ℝ) :
    ∃ r, v.timeStep P dt = .ok r ∧ r.rocket.phase.time = w.time + dt ∧ r.rocket.phase.pos = w.state.pos + dt • w.state.vel ∧
      r.rocket.phase.vel = w.state.vel + dt • (⟨0, 0, -g⟩ -
        (c.cd * c.area * air.density / (2 * i.mass) * (w.state.vel - air.wind).length) • (w.state.vel - air.wind)) := by
  have hs := chute_sinks hv (E := { P.env with rail := none }) rfl h1 h2 hi h3
  obtain ⟨w', hw', hrail⟩ := hv.free
  obtain rfl := Phase.three.inj (hw.symm.trans hw')
  have hi3 : integrateStep3 P.method (v.chuteRhs { P.env with rail := none }) w dt = .ok (⟨w.state.pos + dt • w.state.vel,
      w.state.vel + dt • sink (c.cd * c.area * air.density / (2 * i.mass)) g air.wind w.state.vel⟩, none) := by
    rw [hm]
    unfold integrateStep3
    obtain ⟨e, e1⟩ : ∃ e, RK.adaptiveTableau "Euler" = .error e := ⟨_, rfl⟩
    rw [e1]
    unfold Body.classicalStep
    rw [show RK.classicalTableau "Euler" = .ok none from rfl]
    unfold Body.eulerStep Body.plus
    simp only [hs, bind, Except.bind, arith3, Stepper.dMul3, Stepper.add3]
  have hq := hv.quiet
  have hu := hv.under
  obtain ⟨time, state, rail, kept⟩ := w
  obtain ⟨ship, stages, dia, rough, addT, qc, chutes, current, under, mainT, phase, events, drop⟩ := v
  dsimp only at hw hu hrail hq
  subst hw hu hrail
  have htrig : ∀ u : Live, ∃ d, triggerEvents (missionWorld P) u events = .ok (u, d, 10 ^ 10, false) := by
    intro u
    unfold triggerEvents
    rw [hq]
    exact ⟨_, rfl⟩
  have hov : overrideStep P.adaptive P.eventStep (10 ^ 10) false dt = dt := by unfold overrideStep; rw [hP.1]; simp
  unfold Vessel.timeStep
  rw [show envConstrain (Phase.three ⟨time, state, none, kept⟩).rail ⟨(Phase.three ⟨time, state, none, kept⟩).pos, (Phase.three ⟨time, state, none, kept⟩).vel⟩
    (Phase.three ⟨time, state, none, kept⟩).time = .ok (⟨state.pos, state.vel⟩, none) from rfl]
  simp only [bind, Except.bind]
  rw [(htrig _).choose_spec]
  dsimp only
  rw [hov, hP.2]
  dsimp only
  unfold Vessel.advance
  simp only [Phase.moved, bind, Except.bind]
  dsimp only at hi3
  rw [hi3]
  exact ⟨_, rfl, rfl, rfl, rfl⟩

/-- **C101.** Falling straight down in the wind at `u`, one step of Euler's method of size `h` multiplies the distance of `u` from the terminal speed
`√(g/k)` by `1 - h k (u + √(g/k))`. -/
theorem euler_speed {k g u h : ℝ} (hk : 0 < k) (hg : 0 ≤ g) (hu : 0 ≤ u) (W : V3 ℝ) :
    (W + ⟨0, 0, -u⟩) + h • (⟨0, 0, -g⟩ - (k * ((W + ⟨0, 0, -u⟩) - W).length) • ((W + ⟨0, 0, -u⟩) - W)) =
      W + ⟨0, 0, -(Real.sqrt (g / k) + (1 - h * k * (u + Real.sqrt (g / k))) * (u - Real.sqrt (g / k)))⟩ := by
  have e : (W + ⟨0, 0, -u⟩) - W = (⟨0, 0, -u⟩ : V3 ℝ) := by
    apply V3.ext' <;> simp
  rw [e, length_down hu]
  have hs : Real.sqrt (g / k) * Real.sqrt (g / k) = g / k := Real.mul_self_sqrt (by positivity)
  have hs' : k * (Real.sqrt (g / k) * Real.sqrt (g / k)) = g := by rw [hs]; field_simp
  apply V3.ext'
  · simp
  · simp
  · simp only [V3.add_z, V3.smul_z, V3.sub_z]
    linear_combination h * hs'

/-- **C101.** Not with every step size: a body falling straight down in the wind faster than `√(g/k)` is, when `h k (u + √(g/k)) > 2`, further from its terminal speed
after a step of Euler's method than before; no error is raised. -/
theorem coarse_violated {P : Setup} (hP : P.Fixed) (hm : P.method = "Euler") {v : Vessel} {c : Chute ℝ} (hv : v.Hangs c) {w : InFlight3} (hw : v.phase = .three w)
    {air : Conditions} {i : Inertia ℝ} {g k u h : ℝ} (h1 : P.env.conditions v.quietChute w.state.pos (some w.time) = .ok air)
    (h2 : v.craft.inertia w.time = .ok i) (hi : 0 < i.mass) (h3 : P.env.earth.gravity i.mass w.state.pos = .ok ((i.mass * g) • ⟨0, 0, -1⟩))
    (hkd : k = c.cd * c.area * air.density / (2 * i.mass)) (hk : 0 < k) (hg : 0 ≤ g) (hvel : w.state.vel = air.wind + ⟨0, 0, -u⟩)
    (hu : Real.sqrt (g / k) < u) (hh : 2 < h * k * (u + Real.sqrt (g / k))) :
    ∃ r u', v.timeStep P h = .ok r ∧ r.rocket.phase.vel = air.wind + ⟨0, 0, -u'⟩ ∧ |u - Real.sqrt (g / k)| < |u' - Real.sqrt (g / k)| := by
  obtain ⟨r, e1, -, -, e2⟩ := euler_sinks hP hm hv hw h1 h2 hi h3 h
  have hu0 : 0 ≤ u := (Real.sqrt_nonneg _).trans hu.le
  rw [← hkd, hvel, euler_speed hk hg hu0] at e2
  refine ⟨r, _, e1, e2, ?_⟩
  rw [add_sub_cancel_left, abs_mul]
  have p : 0 < |u - Real.sqrt (g / k)| := abs_pos.2 (sub_ne_zero.2 hu.ne')
  have q : 1 < |1 - h * k * (u + Real.sqrt (g / k))| := by
    rw [abs_of_neg (by linarith)]
    linarith
  exact lt_mul_of_one_lt_left p q

namespace Trip

/-- flat earth, a steady wind, and no launch rail -/
noncomputable def windy : Env := { env with mean := fun _ => .ok ⟨3, 0, 0⟩ }

theorem windy_air (quiet : Bool) (pos : V3 ℝ) (t : ℝ) : ∃ c, windy.conditions quiet pos (some t) = .ok c ∧ c.density = 1 ∧ c.wind = ⟨3, 0, 0⟩ := by
  have : (⟨3, 0, 0⟩ : V3 ℝ) + ⟨0, 0, 0⟩ = ⟨3, 0, 0⟩ := by apply V3.ext' <;> simp
  unfold Env.conditions Env.airProperties Env.getWind
  cases quiet <;> simp [windy, env, Ascent.env, flatEarth, noEarth, Ascent.idq_rotate, this]

/-- the simulation -/
noncomputable def windySetup : Setup := { setup with env := windy }

/-- the body below its parachute -/
noncomputable def hung (w : InFlight3) : Vessel := { second w with events := ⟨[], some (0, 0), 1, [0]⟩ }

theorem hung_hangs (w : InFlight3) (h : w.rail = none) : (hung w).Hangs chute := ⟨⟨[chute], 0, rfl, rfl, rfl⟩, rfl, ⟨w, rfl, h⟩, rfl⟩

theorem windy_steady : SteadyAir { windy with rail := none } true 1 ⟨3, 0, 0⟩ := by
  intro pos t c h
  obtain ⟨c', h1, h2, h3⟩ := windy_air true pos t
  obtain rfl := Except.ok.inj (h1.symm.trans h)
  exact ⟨h2, h3⟩

theorem setup_fixed : windySetup.Fixed := ⟨rfl, fun _ _ => rfl⟩

theorem hung_inertia (w : InFlight3) (t : ℝ) : (hung w).craft.inertia t = .ok weight := first_inertia (.three w) t

theorem windy_gravity (z : ℝ) (hz : 0 ≤ z) (m : ℝ) : windy.earth.gravity m ⟨0, 0, z⟩ = .ok ((m * (398600.5e9 / (z + 6371000) ^ 2)) • ⟨0, 0, -1⟩) := by
  show flatGravity _ _ = _
  unfold flatGravity
  rw [if_neg (by have : (0 : ℝ) < z + 6371000 := by linarith
                 positivity)]
  congr 2
  ring

/-- a body of 5 kg below a parachute of 2 m² at 1000 m, blown along at 3 m/s, makes a step -/
example (u h : ℝ) : ∃ r, (hung ⟨0, ⟨⟨0, 0, 1000⟩, ⟨3, 0, -u⟩⟩, none, none⟩).timeStep windySetup h = .ok r ∧
    Falls windySetup 900 1000 (hung ⟨0, ⟨⟨0, 0, 1000⟩, ⟨3, 0, -u⟩⟩, none, none⟩) [h] r.rocket := by
  obtain ⟨a, h1, h2, h3⟩ := windy_air true ⟨0, 0, 1000⟩ 0
  obtain ⟨r, e, -⟩ := euler_sinks setup_fixed rfl (hung_hangs ⟨0, ⟨⟨0, 0, 1000⟩, ⟨3, 0, -u⟩⟩, none, none⟩ rfl) rfl h1 (hung_inertia _ _)
    (show 0 < weight.mass by norm_num [weight, Inertia.make]) (windy_gravity 1000 (by norm_num) _) h
  exact ⟨r, e, .step (by constructor <;> norm_num [hung, second, vessel, Phase.pos]) e (.stop _)⟩

/-- `descent_settles_partial` applies to it, with `k = 1/5` -/
example : ∃ h₀ : ℝ, 0 < h₀ ∧ ∀ (w : InFlight3) (hs : List ℝ) (v' : Vessel), w.rail = none → 0 ≤ w.time → (∀ h ∈ hs, 0 < h ∧ h ≤ h₀) →
    Falls windySetup 900 1000 (hung w) hs v' →
    (w.state.vel - (⟨3, 0, 0⟩ + ⟨0, 0, -Real.sqrt ((398600.5e9 / (950 + 6371000) ^ 2) / (1 / 5))⟩)).length +
      32 * (398600.5e9 / (900 - 1 + 6371000) ^ 2 - 398600.5e9 / (1000 + 1 + 6371000) ^ 2) / (1 / 5 * Real.sqrt ((398600.5e9 / (950 + 6371000) ^ 2) / (1 / 5))) ≤ 100 →
    v'.phase.time = w.time + hs.sum ∧
    (v'.phase.vel - (⟨3, 0, 0⟩ + ⟨0, 0, -Real.sqrt ((398600.5e9 / (950 + 6371000) ^ 2) / (1 / 5))⟩)).length ≤
      Real.exp (-(1 / 5 * Real.sqrt ((398600.5e9 / (950 + 6371000) ^ 2) / (1 / 5)) / 4 * hs.sum)) *
        (w.state.vel - (⟨3, 0, 0⟩ + ⟨0, 0, -Real.sqrt ((398600.5e9 / (950 + 6371000) ^ 2) / (1 / 5))⟩)).length +
      32 * (398600.5e9 / (900 - 1 + 6371000) ^ 2 - 398600.5e9 / (1000 + 1 + 6371000) ^ 2) / (1 / 5 * Real.sqrt ((398600.5e9 / (950 + 6371000) ^ 2) / (1 / 5))) := by
  obtain ⟨h₀, p, all⟩ := descent_settles_partial (P := windySetup) setup_fixed (by decide) chute (r := 100) (t₀ := 0) (m := 5) (k := 1 / 5) (by norm_num)
    (by norm_num [chute]) (by norm_num) (by norm_num) (by norm_num) true windy_steady
    (flat_level (E := { windy with rail := none }) rfl (z₁ := 900) (z₂ := 1000) (z₀ := 950) (by norm_num) (by constructor <;> norm_num))
  refine ⟨h₀, p, fun w hs v' h1 h2 h3 h4 h5 => all (hung w) hs v' (hung_hangs w h1) rfl h2 (fun u i _ hi => ?_) h3 h4 h5⟩
  rw [hung_inertia] at hi
  rw [← Except.ok.inj hi]
  norm_num [weight, Inertia.make]

/-- falling at 20 m/s, one step of 1 s is too long -/
example : ∃ r u', (hung ⟨0, ⟨⟨0, 0, 0⟩, ⟨3, 0, -20⟩⟩, none, none⟩).timeStep windySetup 1 = .ok r ∧ r.rocket.phase.vel = ⟨3, 0, -u'⟩ ∧
    |20 - Real.sqrt ((398600.5e9 / (0 + 6371000) ^ 2) / (1 / 5))| < |u' - Real.sqrt ((398600.5e9 / (0 + 6371000) ^ 2) / (1 / 5))| := by
  obtain ⟨a, h1, h2, h3⟩ := windy_air true ⟨0, 0, 0⟩ 0
  have hs : Real.sqrt ((398600.5e9 / (0 + 6371000) ^ 2) / (1 / 5)) < 20 := by
    rw [Real.sqrt_lt' (by norm_num)]
    norm_num
  have hn := Real.sqrt_nonneg ((398600.5e9 / (0 + 6371000) ^ 2) / (1 / 5) : ℝ)
  have add (x : ℝ) : (⟨3, 0, 0⟩ : V3 ℝ) + ⟨0, 0, x⟩ = ⟨3, 0, x⟩ := by apply V3.ext' <;> simp
  obtain ⟨r, u', e1, e2, e3⟩ := coarse_violated setup_fixed rfl (hung_hangs ⟨0, ⟨⟨0, 0, 0⟩, ⟨3, 0, -20⟩⟩, none, none⟩ rfl) rfl (k := 1 / 5) (u := 20) (h := 1)
    h1 (hung_inertia _ _) (show 0 < weight.mass by norm_num [weight, Inertia.make]) (windy_gravity 0 le_rfl _) (by rw [h2]; norm_num [chute, weight, Inertia.make])
    (by norm_num) (by norm_num) (by rw [h3, add]) hs (by linarith)
  rw [h3, add] at e2
  exact ⟨r, u', e1, e2, e3⟩

end Trip

end Mapleaf.Rocket
