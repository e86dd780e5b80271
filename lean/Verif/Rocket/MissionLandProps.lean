import Verif.Rocket.MissionProps

/-!
# C99: from the definition to the landing
-/

namespace Mapleaf.Rocket
open Mapleaf.Motion V3 ENV
open Mapleaf.Motion.Stepper (RBDeriv3)

theorem landing_at {x y : ℝ} {ps : List (V3 ℝ)} (h : ∀ p ∈ ps, p.x = x ∧ p.y = y) {l : V3 ℝ} (hl : Run.getLandingLocation ps = .ok l) :
    l.x = x ∧ l.y = y := by
  unfold Run.getLandingLocation at hl
  split at hl
  · rename_i a b rest hr
    have ha := h a (List.mem_reverse.1 (by rw [hr]; simp))
    have hb := h b (List.mem_reverse.1 (by rw [hr]; simp))
    unfold Run.landing at hl
    dsimp only at hl
    split at hl
    · split at hl
      · cases hl
      obtain rfl := Except.ok.inj hl
      simp [ha.1, ha.2, hb.1, hb.2]
    · obtain rfl := Except.ok.inj hl
      exact ha
  · cases hl

/-- **C99.** A whole simulation, from the text of the definition to the landing. A rocket described as symmetric about its axis is launched
straight up in calm air over flat ground. Then at every recorded moment of the flight of every body (the rocket, and every stage it drops)
that body is straight above the launch position and moves vertically, its axis vertical as long as it has an orientation; and it lands on the
launch position. This holds for every way in which stages separate and parachutes open, every integration method, step size control, end
condition and length of the run. Without cant and rolling moments (and without spin, or from a rail) no body ever turns. -/
theorem mission_lands {P : Setup} {v : Vessel} {s : RBState} (hv : readVessel P.src none (.six ⟨0, s, P.env.rail, none⟩) = .ok v)
    (he : EvenDefinition P.src) (hE : Calm P.env) (i : Inertia ℝ) (hi : v.craft.inertia 0 = .ok i) (pos vel w dir : V3 ℝ)
    (rotation : Option (V3 ℝ × ℝ)) (len : ℝ) (hr : ∀ p, rotation = some p → OnAxis p.1) (hd : OnAxis dir) (hvel : OnAxis vel) (hw : OnAxis w)
    (hrail : makeRail P.env.earth P.env.elevation P.env.lat P.env.lon len pos rotation dir = .ok P.env.rail)
    (h0 : P.env.initialState pos vel w rotation dir i.cg = .ok s) (fuel : Nat) (dt : ℝ) (cond : Run.EndCond ℝ)
    (slots : List (Run.Slot Vessel ℝ)) (h : mission P fuel v dt cond = .ok slots) :
    ∀ b ∈ slots,
      (∀ u ∈ b.flight, u.phase.pos.x = pos.x ∧ u.phase.pos.y = pos.y ∧ u.phase.vel.x = 0 ∧ u.phase.vel.y = 0 ∧
        ∀ w', u.phase = .six w' → (∀ a q, w'.state.ori.rotate ⟨0, 0, 1⟩ = .ok (a, q) → a = ⟨0, 0, 1⟩) ∧
          w'.state.angVel.x = 0 ∧ w'.state.angVel.y = 0 ∧
          (PlainDefinition P.src → (w = 0 ∨ 0 < len) → w'.state.angVel = 0 ∧ w'.state.ori = s.ori)) ∧
      ∀ l, Run.getLandingLocation (b.flight.map fun u => u.phase.pos) = .ok l → l.x = pos.x ∧ l.y = pos.y := by
  have hev := vessel_even hv he
  have hph := (vessel_stages hv).1
  have hstart := launch_vertical P.env hE pos vel w dir i.cg rotation len hr hd hvel hw (v.craft.cg_onAxis hev.craft 0 i hi) hrail s h0
  have hfine : v.Fine pos.x pos.y (Upright pos.x pos.y) Straight Craft.Symmetric :=
    ⟨hev.craft, hev.place, by rw [hph]; exact ⟨hstart.state, hstart.rail, hstart.kept⟩⟩
  have hdrop : DropsOf P.src Craft.Symmetric := fun j ph d hdv => by
    have := vessel_even hdv he
    exact ⟨this.craft, this.place, (vessel_stages hdv).1⟩
  have hall := fine_mission (course_vertical pos.x pos.y) hE hdrop fuel hfine h
  have hat : ∀ b ∈ slots, ∀ u ∈ b.flight, u.phase.pos.x = pos.x ∧ u.phase.pos.y = pos.y ∧ u.phase.vel.x = 0 ∧ u.phase.vel.y = 0 := by
    intro b hb u hu
    have hp := ((hall b hb).2 u hu).phase
    cases hup : u.phase with
    | six w' => rw [hup] at hp; exact ⟨hp.1.px, hp.1.py, hp.1.vel.1, hp.1.vel.2⟩
    | three w' => rw [hup] at hp; exact ⟨hp.1.px, hp.1.py, hp.1.vel.1, hp.1.vel.2⟩
  intro b hb
  refine ⟨fun u hu => ?_, fun l hl => landing_at (fun p hp => ?_) hl⟩
  · obtain ⟨a1, a2, a3, a4⟩ := hat b hb u hu
    refine ⟨a1, a2, a3, a4, fun w' hw' => ?_⟩
    have hp := ((hall b hb).2 u hu).phase
    rw [hw'] at hp
    refine ⟨fun a q e => (yaw_rotate ⟨hp.1.q1, hp.1.q2⟩ ⟨rfl, rfl⟩ e).1, hp.1.spin.1, hp.1.spin.2, fun hpl hlen => ?_⟩
    have hunit := launch_unit P.env hE pos vel w dir i.cg rotation len hrail s h0 hlen
    have hfine2 : v.Fine pos.x pos.y (Fixed pos.x pos.y s.ori) Sliding (fun c => c.Symmetric ∧ c.Rolless) :=
      ⟨⟨hev.craft, vessel_plain hv hpl⟩, hev.place, by rw [hph]; exact ⟨⟨hstart.state, hunit.2, rfl⟩, hstart.rail, by simp⟩⟩
    have hdrop2 : DropsOf P.src (fun c => c.Symmetric ∧ c.Rolless) := fun j ph d hdv => by
      have := vessel_even hdv he
      exact ⟨⟨this.craft, vessel_plain hdv hpl⟩, this.place, (vessel_stages hdv).1⟩
    have hp2 := ((fine_mission (course_still pos.x pos.y s.ori hunit.1) hE hdrop2 fuel hfine2 h b hb).2 u hu).phase
    rw [hw'] at hp2
    exact ⟨hp2.1.still, hp2.1.ori⟩
  · obtain ⟨u, hu, rfl⟩ := List.mem_map.1 hp
    obtain ⟨a1, a2, -⟩ := hat b hb u hu
    exact ⟨a1, a2⟩

/-! ## Separation -/

/-- **C99.** At separation the rocket keeps its position, velocity, orientation and clock; the stage that is dropped starts with the same
ones, and is the stage the definition numbers next. -/
theorem separation_state {P : Setup} {v v' : Vessel} {ds : List Vessel} (h : v.separate P = .ok (v', ds)) :
    v'.phase = v.phase ∧ v'.stages.length + 1 = v.stages.length ∧
    (P.dropPaths = false → ds = [] ∧ v'.dropIndex = v.dropIndex) ∧
    (P.dropPaths = true → v'.dropIndex = v.dropIndex + 1 ∧ ∃ d, ds = [d] ∧ readVessel P.src (some v.dropIndex) v.phase.copy = .ok d ∧
      d.phase.time = v.phase.time ∧ d.phase.pos = v.phase.pos ∧ d.phase.vel = v.phase.vel ∧ d.phase.rail = v.phase.rail ∧
      ∀ w, v.phase = .six w → d.phase = .six { w with kept := none }) := by
  unfold Vessel.separate at h
  obtain ⟨dropped, h1, h⟩ := bind_ok h
  split at h
  · cases h
  rename_i top rest hst
  obtain ⟨top', h3, h⟩ := bind_ok h
  obtain ⟨ss, h4, h⟩ := bind_ok h
  obtain ⟨fin, -, h⟩ := bind_ok h
  obtain ⟨rfl, rfl⟩ := Prod.mk.inj (Except.ok.inj h)
  refine ⟨rfl, ?_, fun hp => ?_, fun hp => ?_⟩
  · have hlen : ss.length = (top' :: rest).length := by
      unfold tailLive at h4
      split at h4
      · cases h4
      split at h4
      · obtain ⟨s', -, rfl⟩ := map_ok h4
        simp
      · obtain rfl := Except.ok.inj h4; rfl
    have := congrArg List.length hst
    have hne : v.stages ≠ [] := by intro h; rw [h] at hst; cases hst
    have hpos := List.length_pos_iff.2 hne
    simp only [List.length_dropLast, List.length_cons] at this hlen
    dsimp only
    omega
  · rw [if_neg (by simp [hp])] at h1
    obtain rfl := Except.ok.inj h1
    exact ⟨rfl, if_neg (by simp [hp])⟩
  · rw [if_pos hp] at h1
    obtain ⟨d, h2, rfl⟩ := map_ok h1
    have hph := (vessel_stages h2).1
    refine ⟨if_pos hp, d, rfl, h2, ?_⟩
    rw [hph]
    cases hv : v.phase with
    | six w => exact ⟨rfl, rfl, rfl, rfl, fun w' e => by cases e; rfl⟩
    | three w => exact ⟨rfl, rfl, rfl, rfl, fun w' e => by cases e⟩

theorem vessel_fresh {src : Source} {stage : Option Nat} {ph : Phase} {v : Vessel} (h : readVessel src stage ph = .ok v) :
    v.underChute = false := by
  unfold readVessel at h
  dsimp only at h
  obtain ⟨d, -, h⟩ := bind_ok h
  obtain ⟨flag, -, h⟩ := bind_ok h
  obtain ⟨turb, -, h⟩ := bind_ok h
  obtain ⟨rough, -, h⟩ := bind_ok h
  obtain ⟨quiet, -, h⟩ := bind_ok h
  obtain ⟨built, -, h⟩ := bind_ok h
  obtain ⟨deploys, -, h⟩ := bind_ok h
  obtain ⟨tailed, -, h⟩ := bind_ok h
  obtain ⟨staging, -, h⟩ := bind_ok h
  obtain ⟨ready, -, h⟩ := bind_ok h
  obtain ⟨stages, -, h⟩ := bind_ok h
  obtain ⟨fin, -, h⟩ := bind_ok h
  obtain rfl := Except.ok.inj h
  rfl

/-- **C99, violated part.** A stage dropped while the rocket hangs on a parachute cannot be simulated: it gets the state without orientation of
the rocket as the state of a body with orientation, and its first step fails (unless its own parachute opens before). -/
theorem drop_under_chute_violated {P : Setup} {v v' : Vessel} {ds : List Vessel} (h : v.separate P = .ok (v', ds)) {w : InFlight3}
    (hv : v.phase = .three w) : ∀ d ∈ ds, ∀ E method dt, d.advance E method dt = .error .attributeError := by
  intro d hd E method dt
  have h1 : readVessel P.src (some v.dropIndex) v.phase.copy = .ok d := by
    obtain ⟨-, -, h2, h3⟩ := separation_state h
    cases hp : P.dropPaths with
    | false => rw [(h2 hp).1] at hd; cases hd
    | true =>
      obtain ⟨-, d', rfl, e, -⟩ := h3 hp
      rw [List.mem_singleton] at hd
      rw [hd]; exact e
  have h2 := (vessel_stages h1).1
  have h3 := vessel_fresh h1
  unfold Vessel.advance
  rw [h2, h3, hv]
  rfl

/-! ## Under a parachute -/

/-- **C99.** With one recovery system, `k` of whose parachutes have opened, a body in the air accelerates by weight and the drag of the `k`-th
parachute in the wind over its mass. -/
theorem chute_acceleration {v : Vessel} {cs : List (Chute ℝ)} {k : Nat} {c : Chute ℝ} (h1 : v.chutes = [cs]) (h2 : v.current = [k + 1])
    (hc : cs[k]? = some c) {E : Env} (hr : E.rail = none) {t : ℝ} {s : RBState3} {d : RBDeriv3} (h : v.chuteRhs E t s = .ok d) :
    ∃ air i g, E.conditions v.quietChute s.pos (some t) = .ok air ∧ v.craft.inertia t = .ok i ∧ E.earth.gravity i.mass s.pos = .ok g ∧
      i.mass ≠ 0 ∧ d.vel = s.vel ∧
      d.acc = (1 / i.mass) • ((-(c.cd * c.area * ((s.vel - air.wind).length ^ 2 * air.density / 2))) • (s.vel - air.wind).normalize + g) := by
  unfold Vessel.chuteRhs at h
  obtain ⟨air, e1, h⟩ := bind_ok h
  obtain ⟨i, e2, h⟩ := bind_ok h
  obtain ⟨f, e3, h⟩ := bind_ok h
  obtain ⟨g, e4, h⟩ := bind_ok h
  obtain ⟨total, e5, h⟩ := bind_ok h
  obtain ⟨p, e6, h⟩ := bind_ok h
  obtain rfl := Except.ok.inj h
  rw [h1, h2] at e3
  rw [hr] at e5
  obtain rfl := Except.ok.inj e5
  unfold rigidBodyDerivative3 at e6
  split at e6
  · cases e6
  rename_i hm
  obtain rfl := Except.ok.inj e6
  refine ⟨air, i, g, e1, e2, e4, hm, rfl, ?_⟩
  change chuteForce cs ((k + 1 : ℕ) : Int) s.vel air.wind air.density = .ok f at e3
  have hneg : ∀ u : V3 ℝ, ((-1 : ℝ) • u).length = u.length ∧ ((-1 : ℝ) • u).normalize = (-1 : ℝ) • u.normalize := by
    intro u
    have hl : ((-1 : ℝ) • u).length = u.length := by
      unfold V3.length
      congr 1
      simp only [smul_x, smul_y, smul_z]
      ring
    refine ⟨hl, ?_⟩
    unfold V3.normalize
    rw [hl]
    split
    · apply V3.ext' <;> simp [neg_div]
    · apply V3.ext' <;> simp
  have hget : ∀ F : Chute ℝ → ℝ, pyGet (0 :: cs.map F) ((k + 1 : ℕ) : Int) = .ok (F c) := by
    intro F
    obtain ⟨hk, hck⟩ := List.getElem?_eq_some_iff.1 hc
    have hlt : ¬ (((k + 1 : ℕ) : Int) < 0) := by omega
    unfold pyGet
    dsimp only
    rw [if_neg hlt, if_neg hlt]
    simp [hk, hck]
  unfold chuteForce at e3
  rw [if_neg (by omega)] at e3
  dsimp only at e3
  rw [hget, hget] at e3
  dsimp only at e3
  obtain rfl := Except.ok.inj e3
  rw [(hneg _).1, (hneg _).2]
  simp only [FMS.getAt, FMS.add, FMS.make]
  congr 2
  rw [smul_smul]
  congr 1
  ring

/-- **C99, violated part.** With several recovery systems (one per stage, say) only the last one made is asked for its drag, but each of them
turns the rocket into a body without orientation: when another one opens first, the rocket falls freely, the open parachute without effect. -/
theorem other_chute_violated {v v' : Vessel} {j : Nat} {subs : List (Sub ℝ)} (h : v.deploy j = .ok (v', subs)) (h0 : v.current[j]? = some 0)
    (hj : j + 1 < v.current.length) (hl : v.current.getLast? = some 0) :
    v'.underChute = true ∧ (∃ w, v'.phase = .three w) ∧
    ∀ (E : Env) (t : ℝ) (s : RBState3) (d : RBDeriv3), E.rail = none → v'.chuteRhs E t s = .ok d →
      ∃ i g, v.craft.inertia t = .ok i ∧ E.earth.gravity i.mass s.pos = .ok g ∧ d.acc = (1 / i.mass) • g := by
  have key : v'.underChute = true ∧ (∃ w, v'.phase = .three w) ∧ v'.current = v.current.set j 1 := by
    unfold Vessel.deploy at h
    rw [h0] at h
    split at h
    · rename_i cs c _ hc
      obtain rfl := Option.some.inj hc
      have hph : ∃ w, v.phase.toThree = .three w := by cases v.phase <;> exact ⟨_, rfl⟩
      dsimp only at h
      rw [if_pos rfl] at h
      split at h
      · obtain ⟨rfl, -⟩ := Prod.mk.inj (Except.ok.inj h)
        split <;> exact ⟨rfl, hph, rfl⟩
      · obtain ⟨k, -, e⟩ := map_ok h
        obtain ⟨rfl, -⟩ := Prod.mk.inj e.symm
        split <;> exact ⟨rfl, hph, rfl⟩
    · cases h
  obtain ⟨k1, k2, k3⟩ := key
  refine ⟨k1, k2, fun E t s d hr hd => ?_⟩
  have hlast : v'.current.getLast? = some 0 := by
    rw [k3, List.getLast?_eq_getElem?, List.length_set, List.getElem?_set_ne (by omega), ← List.getLast?_eq_getElem?]
    exact hl
  unfold Vessel.chuteRhs at hd
  obtain ⟨air, e1, hd⟩ := bind_ok hd
  obtain ⟨i, e2, hd⟩ := bind_ok hd
  obtain ⟨f, e3, hd⟩ := bind_ok hd
  obtain ⟨g, e4, hd⟩ := bind_ok hd
  obtain ⟨total, e5, hd⟩ := bind_ok hd
  obtain ⟨p, e6, hd⟩ := bind_ok hd
  obtain rfl := Except.ok.inj hd
  rw [hr] at e5
  obtain rfl := Except.ok.inj e5
  unfold rigidBodyDerivative3 at e6
  split at e6
  · cases e6
  obtain rfl := Except.ok.inj e6
  rw [(deploy_ok h).1] at e2
  refine ⟨i, g, e2, e4, ?_⟩
  rw [hlast] at e3
  split at e3
  · rename_i hc
    obtain rfl := Option.some.inj hc
    obtain rfl := Except.ok.inj e3
    congr 1
    apply V3.ext' <;> simp [FMS.getAt, FMS.add, FMS.make]
  · cases e3

end Mapleaf.Rocket
