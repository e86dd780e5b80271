import Verif.Rocket.TurnedPlaceProps
import Verif.Rocket.LaunchModel

/-!
# C96: launches from elsewhere
-/

namespace Mapleaf.Rocket
open Mapleaf.Motion V3 ENV
open Mapleaf.Motion.Body (Sim)

/-! ## Flat earth -/

/-- **C96.** On flat ground (or without an earth), moving the launch by `x`, `y` along the ground moves the whole flight by `x`, `y`: any
rocket, any wind, any direction of launch, with or without a launch rail, any integration method; exceptions are the same too. -/
theorem launch_moved {E : Env} (h : E.earth = flatEarth ∨ E.earth = noEarth) (l : Launch) (x y : ℝ) (method : String) (steps : List (Craft × ℝ)) :
    launchFlight E { l with pos := l.pos + ⟨x, y, 0⟩ } method steps = (launchFlight E l method steps).map (shiftFlight x y) := by
  have hg : ∀ (s : RBState) a b, E.earth.toGlobal s a b = .ok s := by
    intro s a b
    rcases h with e | e <;> rw [e] <;> rfl
  have hrate : E.earth.rate = 0 := by rcases h with e | e <;> rw [e] <;> rfl
  have hrail : makeRail E.earth E.elevation E.lat E.lon l.railLength (l.pos + ⟨x, y, 0⟩) l.rotation l.dir =
      (makeRail E.earth E.elevation E.lat E.lon l.railLength l.pos l.rotation l.dir).map
        (Option.map fun r : Rail => { r with pos := r.pos + ⟨x, y, 0⟩ }) := by
    unfold makeRail
    split
    · cases railOrientation l.rotation l.dir with
      | error e => rfl
      | ok q =>
        dsimp only
        rw [hg, hg]
        dsimp only
        cases q.rotate ⟨0, 0, 1⟩ with
        | error e => rfl
        | ok d =>
          simp only [Except.map, Option.map, Rail.make, Except.ok.injEq, Option.some.injEq, Rail.mk.injEq, and_true]
          apply V3.ext' <;> simp <;> ring
    · rfl
  have hstate : ∀ rail rail' : Option Rail, rail'.isSome = rail.isSome →
      Env.initialState { E with rail := rail' } (l.pos + ⟨x, y, 0⟩) l.vel l.angVel l.rotation l.dir l.cg =
      (Env.initialState { E with rail := rail } l.pos l.vel l.angVel l.rotation l.dir l.cg).map
        fun s => { s with pos := s.pos + ⟨x, y, 0⟩ } := by
    intro rail rail' hsome
    unfold Env.initialState
    cases initialOrientation l.rotation l.dir with
    | error e => rfl
    | ok q =>
      dsimp only
      unfold Env.initialToGlobal
      dsimp only
      rw [hg, hg, hsome]
      cases rail.isSome <;> simp only [if_true, Bool.false_eq_true, if_false] <;>
      · unfold moveToCG
        dsimp only
        cases q.rotate l.cg with
        | error e => rfl
        | ok c =>
          simp only [Except.map, Except.ok.injEq, RBState.mk.injEq, and_true]
          apply V3.ext' <;> simp <;> ring
  unfold launchFlight
  dsimp only
  rw [hrail]
  cases hr : makeRail E.earth E.elevation E.lat E.lon l.railLength l.pos l.rotation l.dir with
  | error e => rfl
  | ok rail =>
    change ((Env.initialState _ _ _ _ _ _ _).bind _) = Except.map _ ((Env.initialState _ _ _ _ _ _ _).bind _)
    rw [hstate rail _ (by cases rail <;> rfl)]
    cases Env.initialState { E with rail := rail } l.pos l.vel l.angVel l.rotation l.dir l.cg with
    | error e => rfl
    | ok s =>
      refine shifted_flight h x y method steps ⟨0, s, rail, none⟩ ?_
      intro r hr'
      dsimp only at hr'
      rw [hr'] at hr
      unfold makeRail at hr
      repeat' split at hr
      all_goals first
        | cases hr; done
        | (obtain hr := Option.some.inj (Except.ok.inj hr)
           rw [← hr]
           exact hrate)

/-! ## Round earths -/

/-- the turn about the earth's axis that carries a place to the place `d` degrees further east -/
theorem geodetic_turn (lat lon d h : ℝ) :
    Sphere.geodeticToCartesian lat (lon + d) h 0 = turnZ (radians d) (Sphere.geodeticToCartesian lat lon h 0) ∧
    WGS.geodeticToCartesian lat (lon + d) h 0 = turnZ (radians d) (WGS.geodeticToCartesian lat lon h 0) := by
  have e : radians (lon + d) = radians lon + radians d := by unfold radians; ring
  constructor
  · unfold Sphere.geodeticToCartesian turnZ
    simp only [mul_zero, add_zero, e, Real.cos_add, Real.sin_add]
    apply V3.ext' <;> dsimp only <;> ring
  · unfold WGS.geodeticToCartesian turnZ
    simp only [mul_zero, add_zero, e, Real.cos_add, Real.sin_add]
    apply V3.ext' <;> dsimp only <;> ring

theorem not_polar_of {v : V3 ℝ} {p lam : ℝ} (hp : 0 < p) (hx : v.x = p * Real.cos lam) (hy : v.y = p * Real.sin lam) : ¬ Polar v := by
  rintro ⟨h1, h2⟩
  have h := Real.sin_sq_add_cos_sq lam
  have c : Real.cos lam = 0 := by
    rcases mul_eq_zero.1 (hx.symm.trans h1) with h | h
    · exact absurd h hp.ne'
    · exact h
  have s : Real.sin lam = 0 := by
    rcases mul_eq_zero.1 (hy.symm.trans h2) with h | h
    · exact absurd h hp.ne'
    · exact h
  rw [c, s] at h
  norm_num at h

theorem geodetic_off {lat lon h : ℝ} (h1 : -90 < lat) (h2 : lat < 90) (hh : -6000000 < h) :
    ¬ Polar (Sphere.geodeticToCartesian lat lon h 0) ∧ ¬ Polar (WGS.geodeticToCartesian lat lon h 0) := by
  obtain ⟨h3, h4⟩ := lat_range_strict h1 h2
  have hc : 0 < Real.cos (radians lat) := Real.cos_pos_of_mem_Ioo ⟨h3, h4⟩
  constructor
  · refine not_polar_of (p := (Sphere.radius + h) * Real.cos (radians lat)) (lam := radians lon + Sphere.rotationRate * 0) ?_ rfl rfl
    refine mul_pos ?_ hc
    unfold Sphere.radius; norm_num; linarith
  · refine not_polar_of (p := (WGS.a / √(1 - WGS.e2 * Real.sin (radians lat) ^ 2) + h) * Real.cos (radians lat))
      (lam := radians lon + Sphere.rotationRate * 0) ?_ rfl rfl
    refine mul_pos ?_ hc
    have hs : √(1 - WGS.e2 * Real.sin (radians lat) ^ 2) ≤ 1 := by
      rw [Real.sqrt_le_one]
      have : 0 ≤ WGS.e2 := by unfold WGS.e2 WGS.f; norm_num
      nlinarith [mul_nonneg this (sq_nonneg (Real.sin (radians lat)))]
    have hp : 0 < √(1 - WGS.e2 * Real.sin (radians lat) ^ 2) := by
      apply Real.sqrt_pos.2
      have h5 : WGS.e2 ≤ 1 / 2 := by unfold WGS.e2 WGS.f; norm_num
      have h6 : 0 ≤ WGS.e2 := by unfold WGS.e2 WGS.f; norm_num
      have h7 := Real.sin_sq_le_one (radians lat)
      nlinarith [mul_le_mul h5 h7 (sq_nonneg _) (by norm_num : (0:ℝ) ≤ 1 / 2)]
    have ha : WGS.a ≤ WGS.a / √(1 - WGS.e2 * Real.sin (radians lat) ^ 2) := by
      rw [le_div_iff₀ hp]
      have : 0 ≤ WGS.a := by unfold WGS.a; norm_num
      nlinarith
    have : (6378137 : ℝ) ≤ WGS.a / √(1 - WGS.e2 * Real.sin (radians lat) ^ 2) := ha
    linarith

theorem cross_turn (c ψ : ℝ) (v : V3 ℝ) : cross ⟨0, 0, c⟩ (turnZ ψ v) = turnZ ψ (cross ⟨0, 0, c⟩ v) := by
  apply V3.ext' <;> simp [turnZ, cross] <;> ring

/-- the rest of `convertIntoGlobalFrame`, for a position and a local frame that are turned -/
theorem global_turn {r : Quat ℝ} {ψ : ℝ} (hr : r.nsq = 1) (hψ : ∀ v, r.rotF v = turnZ ψ v) (s : RBState) (pos : V3 ℝ) (tower : Quat ℝ) (c : ℝ) :
    (match (r.mul tower).rotate s.vel with
      | .error e => Except.error e
      | .ok (v, tower') =>
        match (tower'.mul s.ori).conj.rotate ⟨0, 0, c⟩ with
        | .error e => .error e
        | .ok (w, _) => .ok (⟨turnZ ψ pos, v + cross ⟨0, 0, c⟩ (turnZ ψ pos), tower'.mul s.ori, s.angVel + w⟩ : RBState)) =
    (match tower.rotate s.vel with
      | .error e => Except.error e
      | .ok (v, tower') =>
        match (tower'.mul s.ori).conj.rotate ⟨0, 0, c⟩ with
        | .error e => .error e
        | .ok (w, _) => .ok (⟨pos, v + cross ⟨0, 0, c⟩ pos, tower'.mul s.ori, s.angVel + w⟩ : RBState)).map (RBState.turn r 0) := by
  rw [Quat.rotate_left hr]
  cases tower.rotate s.vel with
  | error e => rfl
  | ok x =>
    obtain ⟨v, tw⟩ := x
    dsimp only [Except.map]
    have hz : r.rotF ⟨0, 0, c⟩ = ⟨0, 0, c⟩ := by rw [hψ]; apply V3.ext' <;> simp [turnZ]
    have := Quat.rotate_back hr (tw.mul s.ori) ⟨0, 0, c⟩
    rw [hz, ← Quat.mul_assoc'] at this
    generalize ((r.mul tw).mul s.ori).conj.rotate ⟨0, 0, c⟩ = a at this ⊢
    generalize (tw.mul s.ori).conj.rotate ⟨0, 0, c⟩ = b at this ⊢
    cases a with
    | error e =>
      cases b with
      | error e' => simpa [Except.map] using this
      | ok b => simp [Except.map] at this
    | ok a =>
      cases b with
      | error e' => simp [Except.map] at this
      | ok b =>
        simp only [Except.map, Except.ok.injEq] at this
        simp only [this, RBState.turn, hψ, Except.ok.injEq, cross_turn, turnZ_sum, Quat.mul_assoc', RBState.mk.injEq, and_true]
        apply V3.ext' <;> simp

theorem toGlobal_lon {e : Earth} (he : RoundOrWGS e) (s : RBState) (lat lon d : ℝ) (h1 : -90 < lat) (h2 : lat < 90) (hh : -6000000 < s.pos.z) :
    ∃ k : ℤ, e.toGlobal s lat (lon + d) = (e.toGlobal s lat lon).map (RBState.turn (yawQ (radians d + k * (2 * Real.pi))) 0) := by
  obtain ⟨g1, g2⟩ := geodetic_turn lat lon d s.pos.z
  obtain ⟨o1, o2⟩ := geodetic_off (lon := lon) h1 h2 hh
  have hψ : ∀ (k : ℤ) (v : V3 ℝ), (yawQ (radians d + k * (2 * Real.pi))).rotF v = turnZ (radians d) v := by
    intro k v; rw [yawQ_rotF, turnZ_turns]
  rcases he with rfl | ⟨fuel, rfl⟩
  · obtain ⟨k, hk⟩ := enu_turn (e := roundEarth) (Or.inl rfl) (radians d) o1
    refine ⟨k, ?_⟩
    have hk' := Except.ok.inj hk
    change Sphere.toGlobal s lat (lon + d) = (Sphere.toGlobal s lat lon).map _
    unfold Sphere.toGlobal
    dsimp only
    rw [g1, hk']
    exact global_turn (yawQ_nsq _) (hψ k) s _ _ _
  · obtain ⟨k, hk⟩ := enu_turn (e := wgs84 fuel) (Or.inr ⟨fuel, rfl⟩) (radians d) o2
    refine ⟨k, ?_⟩
    change WGS.enuRotation fuel _ = (WGS.enuRotation fuel _).map _ at hk
    change WGS.toGlobal fuel s lat (lon + d) = (WGS.toGlobal fuel s lat lon).map _
    unfold WGS.toGlobal
    dsimp only
    rw [g2, hk]
    cases WGS.enuRotation fuel (WGS.geodeticToCartesian lat lon s.pos.z 0) with
    | error e => rfl
    | ok q => exact global_turn (yawQ_nsq _) (hψ k) s _ _ _

theorem moveToCG_turn {r : Quat ℝ} (hr : r.nsq = 1) (s : RBState) (cg : V3 ℝ) :
    moveToCG (s.turn r 0) cg = (moveToCG s cg).map (RBState.turn r 0) := by
  unfold moveToCG
  rw [show (s.turn r 0).ori = r.mul s.ori from rfl, Quat.rotate_left hr]
  cases s.ori.rotate cg with
  | error e => rfl
  | ok c =>
    simp only [Except.map, RBState.turn, Except.ok.injEq, RBState.mk.injEq, and_true, ENV.rotF_add]
    apply V3.ext' <;> simp

/-- **C96.** On the round earth and on the WGS84 ellipsoid a launch (without rail) `d` degrees further east is the same flight, turned by `d`
degrees about the earth's axis: any rocket, any wind given by altitude, any integration method; provided the launch is not at a pole and the
flight is one that never asks for the local directions on the earth's axis itself. -/
theorem launch_east {E : Env} (he : RoundOrWGS E.earth) (l : Launch) (d : ℝ) (method : String) (steps : List (Craft × ℝ)) (h0 : l.railLength ≤ 0)
    (h1 : -90 < E.lat) (h2 : E.lat < 90) (h3 : -6000000 < l.pos.z + E.elevation) (w : InFlight)
    (hw : launchFlight (offAxis E) l method steps = .ok w) :
    launchFlight E l method steps = .ok w ∧
    ∃ w', launchFlight { E with lon := E.lon + d } l method steps = .ok w' ∧ w'.time = w.time ∧
      w'.state.pos = turnZ (radians d) w.state.pos ∧ w'.state.vel = turnZ (radians d) w.state.vel ∧ w'.state.angVel = w.state.angVel ∧
      ∀ v, w'.state.ori.rotF v = turnZ (radians d) (w.state.ori.rotF v) := by
  have hno : ∀ (e : Earth) el lat lon, makeRail e el lat lon l.railLength l.pos l.rotation l.dir = .ok none := by
    intro e el lat lon
    unfold makeRail
    rw [if_neg (not_lt.2 h0)]
  unfold launchFlight at hw ⊢
  rw [hno] at hw ⊢
  rw [hno]
  change Except.bind (Env.initialState _ _ _ _ _ _ _) _ = _ at hw
  change Except.bind (Env.initialState _ _ _ _ _ _ _) _ = _ ∧ ∃ w', Except.bind (Env.initialState _ _ _ _ _ _ _) _ = _ ∧ _
  -- the initial states
  obtain ⟨s, hs, hw⟩ := bind_okay hw
  have hs1 : Env.initialState { E with rail := none } l.pos l.vel l.angVel l.rotation l.dir l.cg = .ok s := hs
  have hs2 : ∃ k : ℤ, Env.initialState { { E with lon := E.lon + d } with rail := none } l.pos l.vel l.angVel l.rotation l.dir l.cg =
      .ok (s.turn (yawQ (radians d + k * (2 * Real.pi))) 0) := by
    unfold Env.initialState at hs1 ⊢
    cases hq : initialOrientation l.rotation l.dir with
    | error e => rw [hq] at hs1; cases hs1
    | ok q =>
      rw [hq] at hs1
      dsimp only at hs1 ⊢
      unfold Env.initialToGlobal at hs1 ⊢
      dsimp only at hs1 ⊢
      rw [if_neg (by simp)] at hs1 ⊢
      obtain ⟨k, hk⟩ := toGlobal_lon he ⟨l.pos + ⟨0, 0, E.elevation⟩, l.vel, q, l.angVel⟩ E.lat E.lon d h1 h2 (by simpa using h3)
      refine ⟨k, ?_⟩
      rw [hk]
      generalize E.earth.toGlobal ⟨l.pos + ⟨0, 0, E.elevation⟩, l.vel, q, l.angVel⟩ E.lat E.lon = g at hs1 ⊢
      cases g with
      | error e => cases hs1
      | ok g =>
        dsimp only [Except.map] at hs1 ⊢
        rw [moveToCG_turn (yawQ_nsq _), hs1]
        rfl
  obtain ⟨k, hs2⟩ := hs2
  have hfl : ∀ (E' : Env) (r : Quat ℝ) (ψ : ℝ), r.nsq = 1 → (∀ v, r.rotF v = turnZ ψ v) → E'.earth = E.earth → E'.elevation = E.elevation →
      E'.mean = E.mean → E'.turb = E.turb → E'.air = E.air → fly E' method (turnFlight r 0 ⟨0, s, none, none⟩) steps = .ok (turnFlight r 0 w) := by
    intro E' r ψ g1 g2 g3 g4 g5 g6 g7
    refine (fly_turn (round_moved he g3 g4 g5 g6 g7 g1 g2) method steps ⟨0, s, none, none⟩ (by simp)).ok ?_
    rw [hw]
    rfl
  constructor
  · have h := hfl E ⟨1, 0, 0, 0⟩ 0 (by simp [Quat.nsq]) (fun v => by rw [ENV.rotF_id, turnZ_zero]) rfl rfl rfl rfl rfl
    have hid : ∀ w : InFlight, w.rail = none → turnFlight ⟨1, 0, 0, 0⟩ 0 w = w := by
      intro w hr
      have e1 : w.state.turn ⟨1, 0, 0, 0⟩ 0 = w.state := by
        obtain ⟨t, ⟨p, v, o, a⟩, rl, kp⟩ := w
        dsimp only
        unfold RBState.turn
        simp only [ENV.rotF_id, RBState.mk.injEq, and_true, true_and]
        refine ⟨by apply V3.ext' <;> simp, by apply Quat.ext4 <;> simp [Quat.mul]⟩
      have e2 : RBDeriv.turn ⟨1, 0, 0, 0⟩ = id := by funext x; simp only [RBDeriv.turn, ENV.rotF_id]; rfl
      unfold turnFlight
      rw [e1, e2, hr]
      cases w
      simp_all
    have hwr : w.rail = none := by
      have key : ∀ (st : List (Craft × ℝ)) (u : InFlight), u.rail = none → fly (offAxis E) method u st = .ok w → w.rail = none := by
        intro st
        induction st with
        | nil => intro u hu h; rw [fly] at h; obtain rfl := Except.ok.inj h; exact hu
        | cons x st ih =>
          intro u hu h
          obtain ⟨c, dt⟩ := x
          rw [fly_cons] at h
          obtain ⟨u', hu', h⟩ := bind_okay h
          exact ih u' ((timeStep_rail hu').elim id (fun e => e.trans hu)) h
      exact key steps _ rfl hw
    rw [hid _ rfl, hid _ hwr] at h
    rw [hs1]
    exact h
  · have h := hfl { E with lon := E.lon + d } (yawQ (radians d + k * (2 * Real.pi))) (radians d) (yawQ_nsq _)
      (fun v => by rw [yawQ_rotF, turnZ_turns]) rfl rfl rfl rfl rfl
    refine ⟨turnFlight (yawQ (radians d + k * (2 * Real.pi))) 0 w, ?_, rfl, ?_⟩
    · rw [hs2]; exact h
    · obtain ⟨c1, c2, c3, c4⟩ := turn_coords (radians d + k * (2 * Real.pi)) 0 w.state
      refine ⟨?_, c2.trans (turnZ_turns _ _ _), c3, fun v => (c4 v).trans (turnZ_turns _ _ _)⟩
      refine c1.trans ?_
      rw [turnZ_turns]
      apply V3.ext' <;> simp

end Mapleaf.Rocket
