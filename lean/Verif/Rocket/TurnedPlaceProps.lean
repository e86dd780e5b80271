import Verif.Rocket.TurnedProps

/-!
# C96: turning and moving a launch, on each earth
-/

namespace Mapleaf.Rocket
open Mapleaf.Motion V3 ENV
open Mapleaf.Motion.Body (Sim)

/-! ## Turns about the vertical -/

/-- the turn by the angle `ψ` about the vertical -/
noncomputable def yawQ (ψ : ℝ) : Quat ℝ := ⟨Real.cos (ψ / 2), 0, 0, Real.sin (ψ / 2)⟩

theorem yawQ_nsq (ψ : ℝ) : (yawQ ψ).nsq = 1 := by
  have := Real.sin_sq_add_cos_sq (ψ / 2)
  simp only [yawQ, Quat.nsq]
  nlinarith

theorem yawQ_rotF (ψ : ℝ) (v : V3 ℝ) : (yawQ ψ).rotF v = turnZ ψ v := by
  have h := Real.sin_sq_add_cos_sq (ψ / 2)
  have hc : Real.cos ψ = Real.cos (ψ / 2) ^ 2 - Real.sin (ψ / 2) ^ 2 := by
    have := Real.cos_sq' (ψ / 2); have h2 := Real.cos_two_mul (ψ / 2); rw [mul_div_cancel₀ _ two_ne_zero] at h2; nlinarith
  have hs : Real.sin ψ = 2 * Real.sin (ψ / 2) * Real.cos (ψ / 2) := by
    have h2 := Real.sin_two_mul (ψ / 2); rw [mul_div_cancel₀ _ two_ne_zero] at h2; exact h2
  unfold Quat.rotF
  rw [yawQ_nsq]
  have h3 : Real.cos (ψ / 2) ^ 2 = 1 - Real.sin (ψ / 2) ^ 2 := by linarith
  apply V3.ext'
  · simp only [turnZ, yawQ, Quat.sandwich, Quat.mul, Quat.conj, smul_x, hc, hs]; ring
  · simp only [turnZ, yawQ, Quat.sandwich, Quat.mul, Quat.conj, smul_y, hc, hs]; ring
  · simp only [turnZ, yawQ, Quat.sandwich, Quat.mul, Quat.conj, smul_z]
    linear_combination v.z * h

theorem turnZ_turns (ψ : ℝ) (k : ℤ) (v : V3 ℝ) : turnZ (ψ + k * (2 * Real.pi)) v = turnZ ψ v := by
  unfold turnZ
  rw [Real.cos_add_int_mul_two_pi, Real.sin_add_int_mul_two_pi]

theorem turnZ_off (ψ : ℝ) (v : V3 ℝ) : (turnZ ψ v).x * (turnZ ψ v).x + (turnZ ψ v).y * (turnZ ψ v).y = v.x * v.x + v.y * v.y := by
  have h := Real.sin_sq_add_cos_sq ψ
  simp only [turnZ]
  linear_combination (v.x * v.x + v.y * v.y) * h

theorem turnZ_back (ψ : ℝ) (v : V3 ℝ) : turnZ (-ψ) (turnZ ψ v) = v := by
  have h := Real.sin_sq_add_cos_sq ψ
  apply V3.ext' <;> simp only [turnZ, Real.cos_neg, Real.sin_neg]
  · linear_combination v.x * h
  · linear_combination v.y * h

theorem turnZ_sum (ψ : ℝ) (a b : V3 ℝ) : turnZ ψ (a + b) = turnZ ψ a + turnZ ψ b := by
  apply V3.ext' <;> simp [turnZ] <;> ring

/-- turned states in coordinates -/
theorem turn_coords (ψ : ℝ) (a : V3 ℝ) (s : RBState) :
    (s.turn (yawQ ψ) a).pos = turnZ ψ s.pos + a ∧ (s.turn (yawQ ψ) a).vel = turnZ ψ s.vel ∧ (s.turn (yawQ ψ) a).angVel = s.angVel ∧
      ∀ v, (s.turn (yawQ ψ) a).ori.rotF v = turnZ ψ (s.ori.rotF v) := by
  refine ⟨?_, ?_, rfl, fun v => ?_⟩
  · show (yawQ ψ).rotF s.pos + a = _
    rw [yawQ_rotF]
  · show (yawQ ψ).rotF s.vel = _
    rw [yawQ_rotF]
  · show ((yawQ ψ).mul s.ori).rotF v = _
    rw [Quat.rotF_mul, yawQ_rotF]

/-! ## Flat earth -/

/-- the same flat earth (or none) and the same air, the winds turned by `ψ` -/
structure WindsTurned (ψ : ℝ) (E E' : Env) : Prop where
  flat : E.earth = flatEarth ∨ E.earth = noEarth
  earth : E'.earth = E.earth
  elevation : E'.elevation = E.elevation
  air : E'.air = E.air
  mean : ∀ h, E'.mean h = (E.mean h).map (turnZ ψ)
  turb : (E.turb = none ∧ E'.turb = none) ∨
    ∃ f f', E.turb = some f ∧ E'.turb = some f' ∧ ∀ h m t, f' h (turnZ ψ m) t = (f h m t).map (turnZ ψ)

theorem id_rotate (v : V3 ℝ) : (⟨1, 0, 0, 0⟩ : Quat ℝ).rotate v = .ok (v, ⟨1, 0, 0, 0⟩) := by
  have hn : (⟨1, 0, 0, 0⟩ : Quat ℝ).norm = 1 := by simp [Quat.norm]
  unfold Quat.rotate Quat.normalize
  simp only [hn, if_true]
  congr 2
  apply V3.ext' <;> simp [Quat.sandwich, Quat.mul, Quat.conj]

theorem wind_turn {ψ : ℝ} {E E' : Env} (h : WindsTurned ψ E E') (agl : ℝ) (time : Option ℝ) :
    E'.getWind agl time = (E.getWind agl time).map fun x => (turnZ ψ x.1, turnZ ψ x.2) := by
  unfold Env.getWind
  rw [h.mean]
  cases E.mean agl with
  | error e => rfl
  | ok m =>
    dsimp only [Except.map]
    rcases h.turb with ⟨h1, h2⟩ | ⟨f, f', h1, h2, h3⟩
    · rw [h1, h2]
      dsimp only [Except.map]
      congr 2
      apply V3.ext' <;> simp [turnZ]
    · rw [h1, h2]
      dsimp only
      rw [h3]
      cases f agl m time <;> rfl

theorem flat_air {E : Env} (h : E.earth = flatEarth ∨ E.earth = noEarth) (pos : V3 ℝ) (time : Option ℝ) :
    E.conditions false pos time = (E.getWind (pos.z - E.elevation) time).bind fun w => (E.air pos.z time).map fun a =>
      ⟨pos.z, a.1, a.2.1, a.2.2.1, a.2.2.2, w.1 + w.2, w.1, w.2⟩ := by
  have h1 : E.earth.altitude pos = .ok pos.z := by rcases h with h | h <;> rw [h] <;> rfl
  have h2 : E.earth.enu pos = .ok ⟨1, 0, 0, 0⟩ := by rcases h with h | h <;> rw [h] <;> rfl
  have h3 : E.earth.rate = 0 := by rcases h with h | h <;> rw [h] <;> rfl
  unfold Env.conditions Env.airProperties
  rw [h1, h2, h3]
  dsimp only
  cases E.getWind (pos.z - E.elevation) time with
  | error e => rfl
  | ok w =>
    have e : ∀ d : ℝ, w.1 + ⟨0 * d, 0, 0⟩ = w.1 := by intro d; apply V3.ext' <;> simp
    dsimp only [Except.bind]
    rw [e, id_rotate]
    dsimp only
    rw [id_rotate]
    dsimp only
    cases E.air pos.z time <;> rfl

theorem flat_moved {ψ : ℝ} {E E' : Env} (h : WindsTurned ψ E E') (x y : ℝ) : Moved true E E' (yawQ ψ) ⟨x, y, 0⟩ where
  unit := yawQ_nsq ψ
  air pos time := by
    have hz : ((yawQ ψ).rotF pos + ⟨x, y, 0⟩).z = pos.z := by rw [yawQ_rotF]; simp [turnZ]
    rw [flat_air h.flat, flat_air (h.earth ▸ h.flat), wind_turn h, h.elevation, h.air, hz]
    refine Or.inl ?_
    cases E.getWind (pos.z - E.elevation) time with
    | error e => rfl
    | ok w =>
      dsimp only [Except.bind, Except.map]
      cases E.air pos.z time with
      | error e => rfl
      | ok a => simp only [turnAir, yawQ_rotF, turnZ_sum]
  gravity m pos := by
    have hz : ((yawQ ψ).rotF pos + ⟨x, y, 0⟩).z = pos.z := by rw [yawQ_rotF]; simp [turnZ]
    rw [h.earth]
    rcases h.flat with e | e <;> rw [e]
    · change flatGravity m _ = (flatGravity m pos).map _
      unfold flatGravity
      rw [hz]
      split
      · rfl
      · simp only [Except.map, Except.ok.injEq, yawQ_rotF]
        apply V3.ext' <;> simp [turnZ]
    · change Except.ok noGravity = .ok ((yawQ ψ).rotF noGravity)
      rw [show noGravity = (0 : V3 ℝ) from rfl, ENV.rotF_zero]

/-- **C96.** On flat ground (or without an earth), with the winds turned by `ψ` about the vertical and the rocket started turned by `ψ` and
moved by `x`, `y` along the ground, the whole flight is turned and moved: time, state, rail and kept derivative after any number of steps by any
method, whatever the rocket is made of; and if one flight ends with an exception so does the other, with the same. Launch rails: vertical. -/
theorem turned_flight {ψ : ℝ} {E E' : Env} (h : WindsTurned ψ E E') (x y : ℝ) (method : String) (steps : List (Craft × ℝ)) (w : InFlight)
    (hr : ∀ l, w.rail = some l → l.rate = 0 ∧ OnAxis l.dir) :
    fly E' method (turnFlight (yawQ ψ) ⟨x, y, 0⟩ w) steps = (fly E method w steps).map (turnFlight (yawQ ψ) ⟨x, y, 0⟩) := by
  refine (fly_turn (flat_moved h x y) method steps w ?_).strict.symm
  intro l hl
  refine ⟨(hr l hl).1, ?_⟩
  rw [yawQ_rotF]
  apply V3.ext' <;> simp [turnZ, (hr l hl).2.1, (hr l hl).2.2]

/-- a flight moved along the ground by `x`, `y` -/
noncomputable def shiftFlight (x y : ℝ) (w : InFlight) : InFlight :=
  { w with
    state := { w.state with pos := w.state.pos + ⟨x, y, 0⟩ }
    rail := w.rail.map fun l => { l with pos := l.pos + ⟨x, y, 0⟩ } }

theorem shift_is_turn (x y : ℝ) (w : InFlight) : turnFlight (yawQ 0) ⟨x, y, 0⟩ w = shiftFlight x y w := by
  have hz : ∀ v, (yawQ 0).rotF v = v := by intro v; rw [yawQ_rotF, turnZ_zero]
  have h1 : (yawQ 0).mul w.state.ori = w.state.ori := by
    apply Quat.ext4 <;> simp [yawQ, Quat.mul]
  unfold turnFlight shiftFlight RBState.turn
  rw [hz, hz, h1]
  have h2 : turnRail (yawQ 0) ⟨x, y, 0⟩ = fun l => { l with pos := l.pos + ⟨x, y, 0⟩ } := by
    funext l; simp only [turnRail, hz]
  have h3 : RBDeriv.turn (yawQ 0) = id := by funext d; simp only [RBDeriv.turn, hz]; rfl
  rw [h2, h3]
  cases w.kept <;> rfl

/-- **C96.** On flat ground (or without an earth) a flight started `x`, `y` further along the ground is the same flight, `x`, `y` further along:
any rocket, any launch rail, any wind. -/
theorem shifted_flight {E : Env} (h : E.earth = flatEarth ∨ E.earth = noEarth) (x y : ℝ) (method : String) (steps : List (Craft × ℝ))
    (w : InFlight) (hr : ∀ l, w.rail = some l → l.rate = 0) :
    fly E method (shiftFlight x y w) steps = (fly E method w steps).map (shiftFlight x y) := by
  have h0 : turnZ 0 = id := by funext v; exact turnZ_zero v
  have hw : WindsTurned 0 E E := by
    refine ⟨h, rfl, rfl, rfl, fun z => by rw [h0, map_same], ?_⟩
    cases e : E.turb with
    | none => exact Or.inl ⟨rfl, rfl⟩
    | some f => exact Or.inr ⟨f, f, rfl, rfl, fun z m t => by rw [h0, map_same]; rfl⟩
  have := (fly_turn (flat_moved hw x y) method steps w (fun l hl => ⟨hr l hl, by rw [yawQ_rotF, turnZ_zero]⟩)).strict.symm
  rw [shift_is_turn, show turnFlight (yawQ 0) ⟨x, y, 0⟩ = shiftFlight x y from funext (shift_is_turn x y)] at this
  exact this

/-! ## Round earths -/

/-- a position on the earth's axis -/
def Polar (v : V3 ℝ) : Prop := v.x = 0 ∧ v.y = 0

open Classical in
/-- the same surroundings, except that asking for the local directions on the earth's axis is an error: what a flight does there is left open -/
noncomputable def offAxis (E : Env) : Env :=
  { E with earth := { E.earth with enu := fun v => if Polar v then .error .runtimeError else E.earth.enu v } }

/-- the two turning earths -/
def RoundOrWGS (e : Earth) : Prop := e = roundEarth ∨ ∃ fuel, e = wgs84 fuel

theorem turnZ_length (ψ : ℝ) (v : V3 ℝ) : (turnZ ψ v).length = v.length := by
  rw [← yawQ_rotF, ENV.rotF_length (ENV.unit_ne (yawQ_nsq ψ))]

theorem altitude_turn {e : Earth} (he : RoundOrWGS e) (ψ : ℝ) (v : V3 ℝ) : e.altitude (turnZ ψ v) = e.altitude v := by
  rcases he with rfl | ⟨fuel, rfl⟩
  · change Except.ok (Sphere.altitude _) = .ok (Sphere.altitude _)
    unfold Sphere.altitude Sphere.cartesianToGeodetic
    dsimp only
    rw [turnZ_off]
    rfl
  · change WGS.altitude fuel _ = WGS.altitude fuel _
    unfold WGS.altitude WGS.cartesianToGeodetic
    dsimp only
    rw [turnZ_off, show (turnZ ψ v).z = v.z from rfl]
    cases WGS.newtonLoop (√(v.x * v.x + v.y * v.y)) v.z fuel (1 / (1 - WGS.e2)) with
    | error e => rfl
    | ok k =>
      dsimp only
      by_cases hk : k = 0
      · rw [if_pos hk, if_pos hk]
      · rw [if_neg hk, if_neg hk]

/-- the longitude of a turned position -/
theorem lon_turn (ψ : ℝ) {v : V3 ℝ} (hv : ¬ Polar v) : ∃ k : ℤ, Quat.atan2 (turnZ ψ v).y (turnZ ψ v).x = Quat.atan2 v.y v.x + (ψ + k * (2 * Real.pi)) := by
  have hpos : 0 < v.x * v.x + v.y * v.y := by
    by_cases h : v.x = 0
    · have hy : v.y ≠ 0 := fun hy => hv ⟨h, hy⟩
      nlinarith [mul_self_pos.2 hy, mul_self_nonneg v.x]
    · nlinarith [mul_self_pos.2 h, mul_self_nonneg v.y]
  have c1 := atan2_cos v.y v.x
  have s1 := atan2_sin v.y v.x
  obtain ⟨k, hk⟩ := atan2_polar_mod (√(v.x * v.x + v.y * v.y)) (Quat.atan2 v.y v.x + ψ) (Real.sqrt_pos.2 hpos)
  refine ⟨k, ?_⟩
  rw [← add_assoc, mul_comm (k : ℝ)]
  rw [Real.cos_add, Real.sin_add] at hk
  rw [← hk]
  congr 1
  · simp only [turnZ]; linear_combination Real.sin ψ * (-c1) + Real.cos ψ * (-s1)
  · simp only [turnZ]; linear_combination Real.cos ψ * (-c1) - Real.sin ψ * (-s1)

theorem axisZ (θ : ℝ) : Quat.axisAngle ⟨0, 0, 1⟩ θ = yawQ θ := by
  unfold Quat.axisAngle yawQ
  rw [zAxis_unit]
  simp

theorem yawQ_add (a b : ℝ) : yawQ (a + b) = (yawQ a).mul (yawQ b) := by
  apply Quat.ext4 <;> simp only [yawQ, Quat.mul, add_div, Real.cos_add, Real.sin_add] <;> ring

theorem enuOf_lon (lat lon θ : ℝ) : Sphere.enuOf lat (degrees (lon + θ)) = (yawQ θ).mul (Sphere.enuOf lat (degrees lon)) := by
  unfold Sphere.enuOf
  rw [axisZ, axisZ, ← Quat.mul_assoc', ← yawQ_add]
  congr 2
  have e : ∀ z, radians (degrees z + 90) = z + Real.pi / 2 := by
    intro z
    rw [show radians (degrees z + 90) = radians (degrees z) + Real.pi / 2 by unfold radians; ring, radians_degrees]
  rw [e, e]
  ring

/-- the local directions, off the axis -/
theorem enu_turn {e : Earth} (he : RoundOrWGS e) (ψ : ℝ) {v : V3 ℝ} (hv : ¬ Polar v) :
    ∃ k : ℤ, e.enu (turnZ ψ v) = (e.enu v).map (yawQ (ψ + k * (2 * Real.pi))).mul := by
  obtain ⟨k, hk⟩ := lon_turn ψ hv
  refine ⟨k, ?_⟩
  rcases he with rfl | ⟨fuel, rfl⟩
  · change Except.ok (Sphere.enuRotation _) = .ok _
    unfold Sphere.enuRotation Sphere.cartesianToGeodetic
    dsimp only
    rw [turnZ_off, hk, mul_zero, sub_zero, sub_zero, enuOf_lon]
    rfl
  · change WGS.enuRotation fuel _ = (WGS.enuRotation fuel _).map _
    unfold WGS.enuRotation WGS.cartesianToGeodetic
    dsimp only
    rw [turnZ_off, hk, mul_zero, sub_zero, sub_zero, show (turnZ ψ v).z = v.z from rfl]
    cases WGS.newtonLoop (√(v.x * v.x + v.y * v.y)) v.z fuel (1 / (1 - WGS.e2)) with
    | error e => rfl
    | ok k' =>
      dsimp only
      by_cases hk' : k' = 0
      · rw [if_pos hk', if_pos hk']; rfl
      · rw [if_neg hk', if_neg hk']
        dsimp only [Except.map]
        rw [enuOf_lon]

theorem round_gravity_turn {e : Earth} (he : RoundOrWGS e) (ψ m : ℝ) (v : V3 ℝ) :
    e.gravity m (turnZ ψ v) = (e.gravity m v).map (turnZ ψ) := by
  rcases he with rfl | ⟨fuel, rfl⟩
  · change Sphere.gravity m _ = (Sphere.gravity m v).map _
    unfold Sphere.gravity
    rw [turnZ_length, show turnZ ψ v = (yawQ ψ).rotF v from (yawQ_rotF ψ v).symm, Quat.normalize_rotF (yawQ_nsq ψ)]
    split
    · rfl
    · simp only [Except.map, Except.ok.injEq, yawQ_rotF]
      apply V3.ext' <;> simp [turnZ] <;> ring
  · change WGS.gravity m _ = (WGS.gravity m v).map _
    unfold WGS.gravity
    dsimp only
    rw [turnZ_length, show (turnZ ψ v).z = v.z from rfl]
    split
    · rfl
    · simp only [Except.map, Except.ok.injEq]
      apply V3.ext' <;> simp only [turnZ] <;> ring

/-- turning the earth about its axis -/
theorem round_moved {E E' : Env} (he : RoundOrWGS E.earth) (h1 : E'.earth = E.earth) (h2 : E'.elevation = E.elevation)
    (h3 : E'.mean = E.mean) (h4 : E'.turb = E.turb) (h5 : E'.air = E.air) {r : Quat ℝ} {ψ : ℝ} (hr : r.nsq = 1) (hψ : ∀ v, r.rotF v = turnZ ψ v) :
    Moved false (offAxis E) E' r 0 where
  unit := hr
  air pos time := by
    have h0 : r.rotF pos + 0 = turnZ ψ pos := by rw [hψ]; apply V3.ext' <;> simp
    rw [h0]
    have ha : (offAxis E).earth.altitude = E.earth.altitude := rfl
    have hrate : (offAxis E).earth.rate = E.earth.rate := rfl
    have hg : ∀ agl, (offAxis E).getWind agl time = E.getWind agl time := fun _ => rfl
    have hg' : ∀ agl, E'.getWind agl time = E.getWind agl time := by
      intro agl; unfold Env.getWind; rw [h3, h4]
    by_cases hp : Polar pos
    · -- the guarded surroundings raise
      refine Or.inr ⟨rfl, ?_⟩
      have hen : (offAxis E).earth.enu pos = .error .runtimeError := if_pos hp
      unfold Env.conditions Env.airProperties
      rw [ha, hen]
      cases E.earth.altitude pos with
      | error e => exact ⟨e, rfl⟩
      | ok alt =>
        dsimp only
        cases (offAxis E).getWind (alt - (offAxis E).elevation) time with
        | error e => exact ⟨e, rfl⟩
        | ok w => exact ⟨_, rfl⟩
    · obtain ⟨k, hk⟩ := enu_turn he ψ hp
      have hen : (offAxis E).earth.enu pos = E.earth.enu pos := if_neg hp
      refine Or.inl ?_
      unfold Env.conditions Env.airProperties
      rw [ha, hen, hrate, h1, altitude_turn he, hk, h2, h5, show (offAxis E).elevation = E.elevation from rfl,
        show (offAxis E).air = E.air from rfl]
      have hd : √((turnZ ψ pos).x ^ 2 + (turnZ ψ pos).y ^ 2) = √(pos.x ^ 2 + pos.y ^ 2) := by
        rw [pow_two, pow_two, turnZ_off, pow_two, pow_two]
      rw [hd]
      cases E.earth.altitude pos with
      | error e => rfl
      | ok alt =>
        dsimp only
        rw [hg, hg']
        cases E.getWind (alt - E.elevation) time with
        | error e => rfl
        | ok w =>
          dsimp only
          cases E.earth.enu pos with
          | error e => rfl
          | ok q =>
            dsimp only [Except.map]
            rw [Quat.rotate_left (yawQ_nsq _)]
            cases q.rotate (w.1 + ⟨E.earth.rate * √(pos.x ^ 2 + pos.y ^ 2), 0, 0⟩) with
            | error e => rfl
            | ok z =>
              dsimp only [Except.map]
              rw [Quat.rotate_left (yawQ_nsq _)]
              cases z.2.rotate w.2 with
              | error e => rfl
              | ok z' =>
                dsimp only [Except.map]
                cases E.air alt time with
                | error e => rfl
                | ok a => simp only [turnAir, hψ, yawQ_rotF, turnZ_turns, turnZ_sum, Bool.false_eq_true, if_false]
  gravity m pos := by
    have h0 : r.rotF pos + 0 = turnZ ψ pos := by rw [hψ]; apply V3.ext' <;> simp
    rw [h0, h1, round_gravity_turn he, show r.rotF = turnZ ψ from funext hψ]
    rfl

end Mapleaf.Rocket
