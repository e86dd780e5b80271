import Verif.Rocket.CarryMissionProps
import Verif.Rocket.CoastSample
import Verif.Rocket.MissionSample

/-!
# C110: the hypotheses can be met
-/

namespace Mapleaf.Rocket.Carry
open Mapleaf.Motion V3 ENV

/-- an environment with a wind of 5 m/s from the west -/
noncomputable def breeze (E : Env) : Env := { E with mean := fun h => (E.mean h).map (· + ⟨5, 0, 0⟩) }

theorem breeze_added {E : Env} (h : E.earth = flatEarth ∨ E.earth = noEarth) (ht : E.turb = none) : WindAdded ⟨5, 0, 0⟩ E (breeze E) :=
  ⟨h, rfl, rfl, rfl, fun _ => rfl, .inl ⟨ht, ht⟩⟩

/-- the breeze over the sample ground is 5 m/s from the west -/
example (h : ℝ) : (breeze Coast.sky).mean h = .ok ⟨5, 0, 0⟩ := by
  change Except.ok ((⟨0, 0, 0⟩ : V3 ℝ) + ⟨5, 0, 0⟩) = _
  simp only [Except.ok.injEq]
  apply V3.ext' <;> simp

/-- hypotheses of `carried_flight`: the stone of C107 in the breeze, which takes it half a metre in the tenth of a second it is followed -/
example : ∃ w w' : InFlight, fly Coast.sky "Euler" ⟨0, Coast.at' 1000 10, none, none⟩ [(Coast.stone, 1 / 10)] = .ok w ∧
    fly (breeze Coast.sky) "Euler" (carryFlight ⟨5, 0, 0⟩ ⟨0, 0, 0⟩ ⟨0, Coast.at' 1000 10, none, none⟩) [(Coast.stone, 1 / 10)] = .ok w' ∧
    w'.state.pos = w.state.pos + ⟨1 / 2, 0, 0⟩ ∧ w'.state.vel = w.state.vel + ⟨5, 0, 0⟩ := by
  obtain ⟨w, hw, -, -⟩ := Coast.stone_rises
  have hm : ∃ e, RK.adaptiveTableau "Euler" = .error e := ⟨_, rfl⟩
  obtain ⟨e, hm⟩ := hm
  have := carried_flight (W := ⟨5, 0, 0⟩) rfl (breeze_added (E := Coast.sky) (.inl rfl) rfl) "Euler" e hm [(Coast.stone, 1 / 10)]
    ⟨0, Coast.at' 1000 10, none, none⟩ rfl ⟨0, 0, 0⟩ rfl
  have ht : w.time = 0 + 1 / 10 := by
    rw [fly_cons] at hw
    obtain ⟨w1, h1, h2⟩ := bind_okay hw
    obtain rfl := Except.ok.inj h2
    exact timeStep_clock h1
  rw [hw] at this
  refine ⟨w, _, hw, this, ?_, rfl⟩
  change w.state.pos + _ = _
  rw [ht, if_neg (by decide)]
  apply V3.ext' <;> norm_num

/-- hypotheses of `carried_mission` and `carried_records`: the flight of C99 under its parachute, in the breeze -/
example : ∃ u u' : Vessel, mission Trip.setup 2 Trip.first (1 / 10) (.endTime (1 / 10)) =
      .ok [⟨u, 1 / 10 + 1 / 10 ^ 14 - 0, .endTime (1 / 10), [Trip.first, u]⟩] ∧
    mission { Trip.setup with env := breeze Trip.env } 2 (Trip.first.drift ⟨5, 0, 0⟩ ⟨0, 0, 0⟩ 1 0) (1 / 10) (.endTime (1 / 10)) =
      .ok [⟨u', 1 / 10 + 1 / 10 ^ 14 - 0, .endTime (1 / 10), [Trip.first.drift ⟨5, 0, 0⟩ ⟨0, 0, 0⟩ 1 0, u']⟩] ∧
    u.underChute = true ∧ 0 < u.phase.time ∧ u'.phase.pos.x = u.phase.pos.x + 5 * u.phase.time ∧ u'.phase.pos.z = u.phase.pos.z := by
  obtain ⟨u, h1, h2, h3, h4⟩ := Trip.mission_trip
  have hm : ∃ e, RK.adaptiveTableau "Euler" = .error e := ⟨_, rfl⟩
  obtain ⟨e, hm⟩ := hm
  have := carried_mission (W := ⟨5, 0, 0⟩) (a := ⟨0, 0, 0⟩) rfl rfl (P := Trip.setup) (breeze_added (E := Trip.env) (.inl rfl) rfl) hm
    (fun _ _ => rfl) 2 Trip.first rfl (1 / 10) (.endTime (1 / 10))
  rw [h4, if_neg (show ¬ Trip.setup.method = "RK2Midpoint" by decide)] at this
  refine ⟨u, u.drift ⟨5, 0, 0⟩ ⟨0, 0, 0⟩ 1 0, h4, this, h3, h1, ?_, ?_⟩
  · rw [show (u.drift ⟨5, 0, 0⟩ ⟨0, 0, 0⟩ 1 0).phase = u.phase.drift ⟨5, 0, 0⟩ ⟨0, 0, 0⟩ 1 0 from rfl, drift_pos]
    simp
  · exact drift_posZ rfl rfl _

/-- turbulence that does not depend on the mean wind is allowed -/
example : WindAdded ⟨5, 0, 0⟩ { Trip.env with turb := some fun _ _ _ => .ok ⟨1, 0, 0⟩ } (breeze { Trip.env with turb := some fun _ _ _ => .ok ⟨1, 0, 0⟩ }) :=
  ⟨.inl rfl, rfl, rfl, rfl, fun _ => rfl, .inr ⟨_, _, rfl, rfl, fun _ _ _ => rfl⟩⟩

end Mapleaf.Rocket.Carry
