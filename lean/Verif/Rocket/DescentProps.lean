import Verif.Rocket.DescentFieldProps
import Verif.Rocket.MissionLandProps

/-! # C101: under a parachute, a body settles to its terminal speed and drifts with the wind -/

namespace Mapleaf.Rocket
open Mapleaf.Motion V3 ENV
open Mapleaf.Motion.Stepper (RBDeriv3 add3 mul3 neg3 abs3 dAdd3 dMul3 dDiv3 pair pairD)
open Mapleaf.Motion.Lim (Coef coefOf rk stage incr rowsOf weightsOf)

attribute [local instance] Lim.vNorm Lim.vSpace

/-- The body hangs on parachute `j` of its recovery system, away from the rail, and no event is to come. -/
structure Vessel.Hangs (v : Vessel) (c : Chute ℝ) : Prop where
  open_ : ∃ cs j, v.chutes = [cs] ∧ v.current = [j + 1] ∧ cs[j]? = some c
  under : v.underChute = true
  free : ∃ w, v.phase = .three w ∧ w.rail = none
  quiet : v.events.evs = []

/-- Time steps of the given sizes, from states at altitudes between `z₁` and `z₂`. -/
inductive Falls (P : Setup) (z₁ z₂ : ℝ) : Vessel → List ℝ → Vessel → Prop
  | stop (v : Vessel) : Falls P z₁ z₂ v [] v
  | step {v v' : Vessel} {dt : ℝ} {dts : List ℝ} {r : Run.StepResult Vessel ℝ} (h : v.phase.pos.z ∈ Set.Icc z₁ z₂)
      (e : v.timeStep P dt = .ok r) (rest : Falls P z₁ z₂ r.rocket dts v') : Falls P z₁ z₂ v (dt :: dts) v'

/-- the air is the same everywhere -/
def SteadyAir (E : Env) (quiet : Bool) (ρ : ℝ) (W : V3 ℝ) : Prop :=
  ∀ pos t c, E.conditions quiet pos (some t) = .ok c → c.density = ρ ∧ c.wind = W

/-- gravity points down and is within `δ` of `g` at altitudes between `z₁ - 1` and `z₂ + 1` -/
def Level (E : Env) (g δ z₁ z₂ : ℝ) : Prop :=
  ∀ m pos f, pos.z ∈ Set.Icc (z₁ - 1) (z₂ + 1) → E.earth.gravity m pos = .ok f → ∃ γ, f = (m * γ) • ⟨0, 0, -1⟩ ∧ |γ - g| ≤ δ

/-- the steps are fixed -/
def Setup.Fixed (P : Setup) : Prop := P.adaptive = false ∧ ∀ v dt, P.accepted v dt = (dt, 1)

theorem hanging_step {P : Setup} {v : Vessel} {c : Chute ℝ} (hv : v.Hangs c) (hP : P.Fixed) {dt : ℝ} {r : Run.StepResult Vessel ℝ}
    (h : v.timeStep P dt = .ok r) : ∃ w s kept, v.phase = .three w ∧ w.rail = none ∧
      integrateStep3 P.method (v.chuteRhs { P.env with rail := none }) w dt = .ok (s, kept) ∧
      r.rocket.phase = .three ⟨w.time + dt, s, none, kept⟩ ∧ r.rocket.Hangs c ∧ r.rocket.craft = v.craft ∧ r.rocket.quietChute = v.quietChute := by
  obtain ⟨w, hw, hrail⟩ := hv.free
  have hu := hv.under
  have hq := hv.quiet
  obtain ⟨cs, j, o1, o2, o3⟩ := hv.open_
  obtain ⟨time, state, rail, kept⟩ := w
  obtain ⟨ship, stages, dia, rough, addT, qc, chutes, current, under, mainT, phase, events, drop⟩ := v
  dsimp only at hw hu hrail hq o1 o2
  subst hw hu hrail o1 o2
  unfold Vessel.timeStep at h
  obtain ⟨⟨m, rail⟩, e1, h⟩ := bind_ok h
  obtain ⟨rfl, rfl⟩ := Prod.mk.inj (Except.ok.inj e1)
  dsimp only at h
  obtain ⟨⟨w1, d, est, exact⟩, e2, h⟩ := bind_ok h
  unfold triggerEvents at e2
  dsimp only at e2
  rw [hq] at e2
  dsimp only [List.length_nil, List.range_zero, passLoop] at e2
  obtain ⟨i1, i2⟩ := Prod.mk.inj (Except.ok.inj e2)
  obtain ⟨i2, -⟩ := Prod.mk.inj i2
  clear e2
  subst i1 i2
  dsimp only at h
  obtain ⟨ph, e3, h⟩ := bind_ok h
  obtain rfl := Except.ok.inj h
  rw [hP.2] at e3
  have ho : overrideStep P.adaptive P.eventStep est exact dt = dt := by unfold overrideStep; rw [hP.1]; simp
  rw [ho] at e3
  change (do
    let (s, kept') ← integrateStep3 P.method _ ⟨time, state, none, kept⟩ dt
    .ok (Phase.three ⟨time + dt, s, none, kept'⟩) : Except PyErr Phase) = .ok ph at e3
  obtain ⟨⟨s, kept'⟩, e4, e3⟩ := bind_ok e3
  obtain rfl := Except.ok.inj e3
  refine ⟨⟨time, state, none, kept⟩, s, kept', rfl, rfl, e4, rfl, ⟨⟨cs, j, rfl, rfl, o3⟩, rfl, ⟨_, rfl, rfl⟩, ?_⟩, rfl, rfl⟩
  dsimp only
  rw [hq]
  rfl

theorem z_le_length (v : V3 ℝ) : |v.z| ≤ v.length := by
  unfold V3.length
  apply Real.abs_le_sqrt
  nlinarith [mul_self_nonneg v.x, mul_self_nonneg v.y]

/-- the right-hand side, where it raises continued -/
noncomputable def chuteField (v : Vessel) (E : Env) (k g : ℝ) (W : V3 ℝ) (u : ℝ) (x : V3 ℝ × V3 ℝ) : V3 ℝ × V3 ℝ :=
  match v.chuteRhs E u (stateOf x) with
  | .ok d => pairD d
  | .error _ => (x.2, sink k g W x.2)

theorem chute_pulled {v : Vessel} {c : Chute ℝ} (hv : v.Hangs c) {E : Env} (hr : E.rail = none) {ρ m g δ z₁ z₂ r t : ℝ} {W p : V3 ℝ}
    (hm : 0 < m) (hk : 0 < c.cd * c.area * ρ / (2 * m)) (hg : 0 ≤ g) (hδ : 0 ≤ δ) (hr0 : 0 ≤ r) (air : SteadyAir E v.quietChute ρ W)
    (lev : Level E g δ z₁ z₂) (mass : ∀ u i, t ≤ u → v.craft.inertia u = .ok i → i.mass = m) (hp : p.z ∈ Set.Icc z₁ z₂) :
    Settle.Pulled (chuteField v E (c.cd * c.area * ρ / (2 * m)) g W) (sink (c.cd * c.area * ρ / (2 * m)) g W)
      (settled (c.cd * c.area * ρ / (2 * m)) g W) p t δ (2 * (c.cd * c.area * ρ / (2 * m)) * (Real.sqrt (g / (c.cd * c.area * ρ / (2 * m))) + (2 * r + 1)))
      (c.cd * c.area * ρ / (2 * m) * Real.sqrt (g / (c.cd * c.area * ρ / (2 * m))) / 2)
      ((c.cd * c.area * ρ / (2 * m)) ^ 2 * (2 * Real.sqrt (g / (c.cd * c.area * ρ / (2 * m))) + r) ^ 2 / 2) r := by
  set k := c.cd * c.area * ρ / (2 * m) with hkd
  obtain ⟨cs, j, o1, o2, o3⟩ := hv.open_
  have hw := Real.sqrt_nonneg (g / k)
  refine ⟨?_, ?_, (sink_iff hk hg _).2 rfl, ?_, ?_, hδ, by positivity, hr0⟩
  · intro u x
    unfold chuteField
    split
    · rename_i d hd
      obtain ⟨_, _, _, _, _, _, _, h1, _⟩ := chute_acceleration o1 o2 o3 hr hd
      exact h1
    · rfl
  · intro u x hu hx
    unfold chuteField
    split
    · rename_i d hd
      obtain ⟨a, i, f, h1, h2, h3, h4, h5, h6⟩ := chute_acceleration o1 o2 o3 hr hd
      obtain ⟨ha1, ha2⟩ := air _ _ _ h1
      have hi := mass u i hu h2
      have hz : (stateOf x).pos.z ∈ Set.Icc (z₁ - 1) (z₂ + 1) := by
        have h7 := z_le_length (x.1 - p)
        rw [norm_length] at hx
        have h8 := abs_le.1 (h7.trans hx)
        rw [V3.sub_z] at h8
        change x.1.z ∈ _
        constructor
        · linarith [h8.1, hp.1]
        · linarith [h8.2, hp.2]
      obtain ⟨γ, rfl, hγ⟩ := lev _ _ _ hz h3
      have e : (pairD d).2 - sink k g W x.2 = (γ - g) • (⟨0, 0, -1⟩ : V3 ℝ) := by
        change d.acc - _ = _
        rw [h6, ha1, ha2, hi]
        have hn := (normalize_spec (x.2 - W)).2.2
        change (1 / m) • ((-(c.cd * c.area * ((x.2 - W).length ^ 2 * ρ / 2))) • (x.2 - W).normalize + (m * γ) • (⟨0, 0, -1⟩ : V3 ℝ)) - sink k g W x.2 = _
        have e1 : (-(c.cd * c.area * ((x.2 - W).length ^ 2 * ρ / 2))) • (x.2 - W).normalize = (-(m * (k * (x.2 - W).length))) • (x.2 - W) := by
          rw [show (-(m * (k * (x.2 - W).length))) • (x.2 - W) = (-(m * (k * (x.2 - W).length))) • ((x.2 - W).length • (x.2 - W).normalize) by rw [hn], smul_smul]
          congr 1
          rw [hkd]
          field_simp
        rw [e1]
        unfold sink
        apply V3.ext'
        · simp only [V3.sub_x, V3.smul_x, V3.add_x]; field_simp; ring
        · simp only [V3.sub_y, V3.smul_y, V3.add_y]; field_simp; ring
        · simp only [V3.sub_z, V3.smul_z, V3.add_z]; field_simp; ring
      rw [e, norm_length, length_smul]
      rw [length_down zero_le_one, mul_one]
      exact hγ
    · rw [sub_self, norm_zero]; exact hδ
  · intro x z hx hz
    rw [norm_length] at hx hz
    rw [sink_sub, norm_length, norm_length, length_smul, abs_neg, abs_of_pos hk]
    have h1 := drag_lip (x - W) (z - W)
    rw [sub_sub_sub_cancel_right] at h1
    have h2 := speed_near hx
    have h3 := speed_near hz
    have h4 : ((x - W).length + (z - W).length) * (x - z).length ≤ (2 * (Real.sqrt (g / k) + (2 * r + 1))) * (x - z).length :=
      mul_le_mul_of_nonneg_right (by linarith) (V3.length_nonneg _)
    calc k * ((x - W).length • (x - W) - (z - W).length • (z - W)).length ≤ k * ((2 * (Real.sqrt (g / k) + (2 * r + 1))) * (x - z).length) :=
          mul_le_mul_of_nonneg_left (h1.trans h4) hk.le
      _ = _ := by ring
  · intro x hx s hs
    exact sink_pull hk hg hx hs

/-- a completed step is the step of the continued right-hand side -/
theorem field_step {m : String} (hm : m ∈ ["Euler", "RK2Midpoint", "RK2Heun", "RK4", "RK4_3/8"]) {v : Vessel} {E : Env} {k g : ℝ} {W : V3 ℝ} {w : InFlight3}
    {dt : ℝ} {s : RBState3} {kept : Option RBDeriv3} (h : integrateStep3 m (v.chuteRhs E) w dt = .ok (s, kept)) :
    ∃ r, Body.classicalStep arith3 m (fun t s => .ok (derivOf (chuteField v E k g W t (pair s)))) w.time w.state dt = .ok r ∧ r.newValue = s := by
  have had : ∃ e, RK.adaptiveTableau m = .error e := by
    simp only [List.mem_cons, List.not_mem_nil, or_false] at hm
    rcases hm with rfl | rfl | rfl | rfl | rfl <;> exact ⟨_, rfl⟩
  obtain ⟨e, he⟩ := had
  unfold integrateStep3 at h
  rw [he] at h
  obtain ⟨r, h1, h⟩ := bind_ok h
  obtain ⟨rfl, -⟩ := Prod.mk.inj (Except.ok.inj h)
  refine ⟨r, ?_, rfl⟩
  have hom : Body.Hom arith3 arith3 id id id id := by
    have hid : ∀ {X : Type} (x : Except PyErr X), x.map id = x := fun x => by cases x <;> rfl
    constructor <;> intros <;> (try rw [hid]) <;> rfl
  have sim := hom.classicalStep (b := false) (f := v.chuteRhs E) (f' := fun t s => .ok (derivOf (chuteField v E k g W t (pair s)))) (fun t y => by
    unfold chuteField
    change Body.Sim false _ (.ok (derivOf (match v.chuteRhs E t y with | .ok d => pairD d | .error _ => _)))
    cases v.chuteRhs E t y with
    | error e => exact Or.inr ⟨rfl, e, rfl⟩
    | ok d => exact Or.inl rfl) m w.time w.state dt
  have := sim.ok (v := Body.Step.map id id r) (by rw [h1]; rfl)
  rw [show w.state = id w.state from rfl, this]
  cases r
  simp [Body.Step.map, Body.evMap]

/-- **C101.** Descent under a parachute of drag area `cd area`, mass `m`, in air of density `ρ` and wind `W`, with gravity within `δ` of `g` at the
altitudes of the flight: for all fixed-step methods there is a step size below which every completed run brings the velocity towards
falling at `√(g/k)`, `k = cd area ρ / 2m`, in the wind: exponentially, up to the variation of gravity. -/
theorem descent_settles_partial {P : Setup} (hP : P.Fixed) (hm : P.method ∈ ["Euler", "RK2Midpoint", "RK2Heun", "RK4", "RK4_3/8"]) (c : Chute ℝ)
    {ρ m g δ z₁ z₂ r t₀ k : ℝ} {W : V3 ℝ} (hmass : 0 < m) (hkd : k = c.cd * c.area * ρ / (2 * m)) (hk : 0 < k) (hg : 0 < g) (hδ : 0 ≤ δ) (quiet : Bool)
    (air : SteadyAir { P.env with rail := none } quiet ρ W) (lev : Level { P.env with rail := none } g δ z₁ z₂) :
    ∃ h₀, 0 < h₀ ∧ ∀ (v : Vessel) (hs : List ℝ) (v' : Vessel), v.Hangs c → v.quietChute = quiet → t₀ ≤ v.phase.time →
      (∀ u i, t₀ ≤ u → v.craft.inertia u = .ok i → i.mass = m) → (∀ h ∈ hs, 0 < h ∧ h ≤ h₀) → Falls P z₁ z₂ v hs v' →
      (v.phase.vel - (W + ⟨0, 0, -Real.sqrt (g / k)⟩)).length + 32 * δ / (k * Real.sqrt (g / k)) ≤ r →
      v'.phase.time = v.phase.time + hs.sum ∧
      (v'.phase.vel - (W + ⟨0, 0, -Real.sqrt (g / k)⟩)).length ≤
        Real.exp (-(k * Real.sqrt (g / k) / 4 * hs.sum)) * (v.phase.vel - (W + ⟨0, 0, -Real.sqrt (g / k)⟩)).length + 32 * δ / (k * Real.sqrt (g / k)) := by
  obtain ⟨q, hq, hs4, hβ1, hβ2, hstep⟩ := three_methods hm
  have hw : 0 < Real.sqrt (g / k) := Real.sqrt_pos.2 (div_pos hg hk)
  set ω := Real.sqrt (g / k) with hωd
  by_cases hr : 0 ≤ r
  swap
  · refine ⟨1, one_pos, fun v hs v' _ _ _ _ _ _ h => absurd ?_ hr⟩
    have := V3.length_nonneg (v.phase.vel - (W + ⟨0, 0, -ω⟩))
    have : 0 ≤ 32 * δ / (k * ω) := by positivity
    linarith
  set β := ∑ i ∈ Finset.range q.s, q.b i with hβ
  set L := 2 * k * (ω + (2 * r + 1)) with hL
  set κ := k * ω / 2 with hκ
  set M := k ^ 2 * (2 * ω + r) ^ 2 / 2 with hM
  have hκ0 : 0 < κ := by positivity
  have hL0 : 0 ≤ L := by positivity
  have hM0 : 0 ≤ M := by positivity
  have hs0 : (0 : ℝ) ≤ q.s := Nat.cast_nonneg _
  have hs4' : (q.s : ℝ) ≤ 4 := by exact_mod_cast hs4
  set X1 := (q.s : ℝ) * 1 * (2 * L) with hX1
  set X2 := (q.s : ℝ) * 1 * (2 * δ) with hX2
  set X3 := (q.s : ℝ) * 1 * (‖settled k g W‖ + 2 * r + 1) with hX3
  set X4 := β ^ 2 * M + 2 * (q.s * 1 * L) ^ 2 with hX4
  set X5 := k * ω / 4 with hX5
  have p1 : 0 ≤ X1 := by positivity
  have p2 : 0 ≤ X2 := by positivity
  have p3 : 0 ≤ X3 := by have := norm_nonneg (settled k g W); positivity
  have p4 : 0 ≤ X4 := by positivity
  have p5 : 0 ≤ X5 := by positivity
  have hmin : 0 < min 1 (β * κ / 2) := lt_min one_pos (by positivity)
  refine ⟨min 1 (β * κ / 2) / (X1 + X2 + X3 + X4 + X5 + 1), by positivity, ?_⟩
  have small : ∀ h, 0 < h → h ≤ min 1 (β * κ / 2) / (X1 + X2 + X3 + X4 + X5 + 1) → ∀ X, 0 ≤ X → X ≤ X1 + X2 + X3 + X4 + X5 + 1 →
      h * X ≤ min 1 (β * κ / 2) := by
    intro h h0 hh X hX hXs
    rw [le_div_iff₀ (by positivity)] at hh
    exact (mul_le_mul_of_nonneg_left hXs h0.le).trans hh
  intro v hs v' hv hqc ht mass hsteps run hstart
  set Δ := 32 * δ / (k * ω) with hΔ
  have hΔ0 : 0 ≤ Δ := by positivity
  have gen : ∀ A, 0 ≤ A → (v.phase.vel - settled k g W).length ≤ Δ + A → Δ + A ≤ r → v'.phase.time = v.phase.time + hs.sum ∧
      (v'.phase.vel - settled k g W).length ≤ Δ + Real.exp (-(k * ω / 4 * hs.sum)) * A := by
    clear hstart
    induction run with
    | stop v => intro A hA h1 h2; simpa using h1
    | @step v v' dt dts res hz e rest ih =>
      intro A hA h1 h2
      obtain ⟨w, s, kept, e1, e2, e3, e4, e5, e6, e7⟩ := hanging_step hv hP e
      obtain ⟨d0, dle⟩ := hsteps dt (by simp)
      have ht' : t₀ ≤ w.time := by rw [e1] at ht; exact ht
      have hp : w.state.pos.z ∈ Set.Icc z₁ z₂ := by rw [e1] at hz; exact hz
      have pulled := chute_pulled (r := r) (t := w.time) (p := w.state.pos) hv (E := { P.env with rail := none }) rfl hmass (by rw [← hkd]; exact hk) hg.le hδ hr
        (hqc ▸ air) lev (fun u i hu => mass u i (ht'.trans hu)) hp
      rw [← hkd] at pulled
      obtain ⟨res', f1, f2⟩ := field_step hm (k := k) (g := g) (W := W) e3
      obtain ⟨res'', f3, f4⟩ := hstep (chuteField v { P.env with rail := none } k g W) w.time w.state dt d0.ne'
      rw [f1] at f3
      obtain rfl := Except.ok.inj f3
      rw [f2] at f4
      have hx : ‖w.state.vel - settled k g W‖ ≤ r := by rw [e1] at h1; exact h1.trans h2
      have near := Settle.step_near pulled q zero_le_one hq (by linarith) d0.le
        ((small dt d0 dle X1 p1 (by linarith)).trans (min_le_left _ _)) ((small dt d0 dle X2 p2 (by linarith)).trans (min_le_left _ _))
        ((small dt d0 dle X3 p3 (by linarith)).trans (min_le_left _ _)) ((small dt d0 dle X4 p4 (by linarith)).trans (min_le_right _ _)) hx
      rw [show rk q (chuteField v { P.env with rail := none } k g W) w.time (w.state.pos, w.state.vel) dt = pair s from f4.symm] at near
      change ‖s.vel - settled k g W‖ ≤ (1 - dt * (β * κ / 2)) * ‖w.state.vel - settled k g W‖ + dt * (2 * (q.s * 1) * δ) at near
      have hx5 : dt * (k * ω / 4) ≤ 1 := (small dt d0 dle X5 p5 (by linarith)).trans (min_le_left _ _)
      have hone : ‖s.vel - settled k g W‖ ≤ Δ + Real.exp (-(k * ω / 4 * dt)) * A := by
        have hn := norm_nonneg (w.state.vel - settled k g W)
        have hb : ‖w.state.vel - settled k g W‖ ≤ Δ + A := by rw [e1] at h1; exact h1
        have a1 : dt * (k * ω / 4) ≤ dt * (β * κ / 2) := by
          apply mul_le_mul_of_nonneg_left _ d0.le
          have : 1 * κ ≤ β * κ := mul_le_mul_of_nonneg_right hβ1 hκ0.le
          rw [hκ] at this ⊢
          linarith
        have a2 : (1 - dt * (β * κ / 2)) * ‖w.state.vel - settled k g W‖ ≤ (1 - dt * (k * ω / 4)) * (Δ + A) :=
          (mul_le_mul_of_nonneg_right (by linarith) hn).trans (mul_le_mul_of_nonneg_left hb (by linarith))
        have a3 : dt * (2 * (q.s * 1) * δ) ≤ dt * (8 * δ) :=
          mul_le_mul_of_nonneg_left (mul_le_mul_of_nonneg_right (by linarith) hδ) d0.le
        have a4 : dt * (k * ω / 4) * Δ = dt * (8 * δ) := by
          rw [hΔ]
          field_simp
          ring
        have a5 : 1 - dt * (k * ω / 4) ≤ Real.exp (-(k * ω / 4 * dt)) := by
          have := Real.add_one_le_exp (-(k * ω / 4 * dt))
          linarith
        have a6 := mul_le_mul_of_nonneg_right a5 hA
        linarith [show (1 - dt * (k * ω / 4)) * (Δ + A) = Δ - dt * (k * ω / 4) * Δ + (1 - dt * (k * ω / 4)) * A by ring]
      have hexp : Real.exp (-(k * ω / 4 * dt)) ≤ 1 := Real.exp_le_one_iff.2 (neg_nonpos.2 (by positivity))
      have hA' : 0 ≤ Real.exp (-(k * ω / 4 * dt)) * A := mul_nonneg (Real.exp_pos _).le hA
      have hA'' : Real.exp (-(k * ω / 4 * dt)) * A ≤ A := by
        have := mul_le_mul_of_nonneg_right hexp hA
        linarith
      have htime : res.rocket.phase.time = v.phase.time + dt := by rw [e4, e1]; rfl
      obtain ⟨i1, i2⟩ := ih e5 (e7.trans hqc) (by rw [htime]; linarith) (by rw [e6]; exact mass) (fun h hh => hsteps h (by simp [hh]))
        _ hA' (by rw [e4]; exact hone) (by linarith)
      refine ⟨by rw [i1, htime, List.sum_cons]; ring, ?_⟩
      rw [List.sum_cons]
      refine i2.trans (le_of_eq ?_)
      rw [← mul_assoc, ← Real.exp_add]
      congr 3
      ring
  have hd := V3.length_nonneg (v.phase.vel - (W + ⟨0, 0, -ω⟩))
  obtain ⟨g1, g2⟩ := gen (v.phase.vel - (W + ⟨0, 0, -ω⟩)).length hd (by change _ ≤ _ at hstart; unfold settled; rw [← hωd]; linarith) (by linarith)
  refine ⟨g1, ?_⟩
  unfold settled at g2
  rw [← hωd] at g2
  linarith

end Mapleaf.Rocket
