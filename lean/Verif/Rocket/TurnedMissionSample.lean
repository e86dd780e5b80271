import Verif.Rocket.TurnedMissionProps
import Verif.Rocket.CarrySample

/-!
# C96: the hypotheses of the statements about whole missions can be met
-/

namespace Mapleaf.Rocket.Turned
open Mapleaf.Motion V3 ENV

/-- the winds of `E`, turned by `ψ` about the vertical -/
noncomputable def veer (ψ : ℝ) (E : Env) : Env := { E with mean := fun h => (E.mean h).map (turnZ ψ) }

theorem veer_turned (ψ : ℝ) {E : Env} (h : E.earth = flatEarth ∨ E.earth = noEarth) (ht : E.turb = none) : WindsTurned ψ E (veer ψ E) :=
  ⟨h, rfl, rfl, rfl, fun _ => rfl, .inl ⟨ht, ht⟩⟩

/-- the parachute flight of C99 in a breeze of 5 m/s from the west -/
noncomputable def windward : Setup := { Trip.setup with env := Carry.breeze Trip.env }

/-- hypotheses of `turned_mission` and `turned_records`: the parachute flight in the breeze from the west, and in a breeze from the south -/
example : ∃ u u' : Vessel, ∃ d : ℝ, mission windward 2 (Trip.first.drift ⟨5, 0, 0⟩ ⟨0, 0, 0⟩ 1 0) (1 / 10) (.endTime (1 / 10)) =
      .ok [⟨u, d, .endTime (1 / 10), [Trip.first.drift ⟨5, 0, 0⟩ ⟨0, 0, 0⟩ 1 0, u]⟩] ∧
    mission { windward with env := veer (Real.pi / 2) windward.env } 2
        ((Trip.first.drift ⟨5, 0, 0⟩ ⟨0, 0, 0⟩ 1 0).swing (yawQ (Real.pi / 2)) ⟨100, 0, 0⟩) (1 / 10) (.endTime (1 / 10)) =
      .ok [⟨u', d, .endTime (1 / 10), [(Trip.first.drift ⟨5, 0, 0⟩ ⟨0, 0, 0⟩ 1 0).swing (yawQ (Real.pi / 2)) ⟨100, 0, 0⟩, u']⟩] ∧
    u.underChute = true ∧ 0 < u.phase.time ∧ u'.phase.pos.y = u.phase.pos.x ∧ u'.phase.pos.x = 100 - u.phase.pos.y ∧
    u'.phase.pos.z = u.phase.pos.z := by
  obtain ⟨u₀, h1, h2, h3, h4⟩ := Trip.mission_trip
  have hm : ∃ e, RK.adaptiveTableau "Euler" = .error e := ⟨_, rfl⟩
  obtain ⟨e, hm⟩ := hm
  have hw := carried_mission (W := ⟨5, 0, 0⟩) (a := ⟨0, 0, 0⟩) rfl rfl (P := Trip.setup) (Carry.breeze_added (E := Trip.env) (.inl rfl) rfl) hm
    (fun _ _ => rfl) 2 Trip.first rfl (1 / 10) (.endTime (1 / 10))
  rw [h4, if_neg (show ¬ Trip.setup.method = "RK2Midpoint" by decide)] at hw
  have ht := turned_mission (P := windward) (acc := windward.accepted) (veer_turned (Real.pi / 2) (E := windward.env) (.inl rfl) rfl) 100 0
    (fun _ _ _ => rfl) 2 (Trip.first.drift ⟨5, 0, 0⟩ ⟨0, 0, 0⟩ 1 0) (fun l hl => by cases hl) (1 / 10) (.endTime (1 / 10))
  rw [show mission windward 2 (Trip.first.drift ⟨5, 0, 0⟩ ⟨0, 0, 0⟩ 1 0) (1 / 10) (.endTime (1 / 10)) = _ from hw] at ht
  refine ⟨u₀.drift ⟨5, 0, 0⟩ ⟨0, 0, 0⟩ 1 0, (u₀.drift ⟨5, 0, 0⟩ ⟨0, 0, 0⟩ 1 0).swing (yawQ (Real.pi / 2)) ⟨100, 0, 0⟩, _, hw, ht, h3, ?_, ?_, ?_, ?_⟩
  · exact lt_of_lt_of_eq h1 (drift_time u₀.phase).symm
  all_goals
    rw [show ((u₀.drift ⟨5, 0, 0⟩ ⟨0, 0, 0⟩ 1 0).swing (yawQ (Real.pi / 2)) ⟨100, 0, 0⟩).phase =
      (u₀.drift ⟨5, 0, 0⟩ ⟨0, 0, 0⟩ 1 0).phase.swing (yawQ (Real.pi / 2)) ⟨100, 0, 0⟩ from rfl, swing_pos, yawQ_rotF]
    simp [turnZ]
  ring

/-- a vertical rail, as the statements ask for -/
example (l : Rail) (h : Ascent.env.rail = some l) : l.rate = 0 ∧ OnAxis l.dir := by
  obtain rfl := Option.some.inj h
  exact ⟨rfl, rfl, rfl⟩

end Mapleaf.Rocket.Turned
