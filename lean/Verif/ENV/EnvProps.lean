import Verif.ENV.EnvModel
import Verif.ENV.EarthProps
import Verif.ENV.RailProps
import Verif.ENV.WgsProps

/-!
# C66: the air a rocket meets; C67: the rocket's initial state
-/

namespace Mapleaf.ENV
open Mapleaf.Motion V3

/-! ## Rotations -/

theorem rotF_add (q : Quat ℝ) (a b : V3 ℝ) : q.rotF (a + b) = q.rotF a + q.rotF b := by
  unfold Quat.rotF
  rw [← smul_add]
  congr 1
  apply V3.ext' <;> simp [Quat.sandwich, Quat.mul, Quat.conj] <;> ring

theorem rotF_smul (q : Quat ℝ) (k : ℝ) (a : V3 ℝ) : q.rotF (k • a) = k • q.rotF a := by
  unfold Quat.rotF
  rw [smul_comm]
  congr 1
  apply V3.ext' <;> simp [Quat.sandwich, Quat.mul, Quat.conj] <;> ring

theorem rotF_zero (q : Quat ℝ) : q.rotF 0 = 0 := by
  have := rotF_smul q 0 0
  simpa using this

theorem rotF_dot {q : Quat ℝ} (h : q ≠ Quat.zeroQ) (a b : V3 ℝ) : dot (q.rotF a) (q.rotF b) = dot a b :=
  (Quat.rotate_isometry q a b _ _ _ _ 0 (Quat.rotate_eq_rotF q a h) (Quat.rotate_eq_rotF q b h)).1

theorem rotF_length {q : Quat ℝ} (h : q ≠ Quat.zeroQ) (a : V3 ℝ) : (q.rotF a).length = a.length :=
  (Quat.rotate_isometry q a a _ _ _ _ 0 (Quat.rotate_eq_rotF q a h) (Quat.rotate_eq_rotF q a h)).2.1

theorem conj_ne {q : Quat ℝ} (h : q ≠ Quat.zeroQ) : q.conj ≠ Quat.zeroQ := by
  rw [Ne, ← Quat.nsq_zero_iff] at h ⊢
  intro h'; apply h; rw [← h']; simp [Quat.nsq, Quat.conj]

theorem rotF_conj {q : Quat ℝ} (h : q ≠ Quat.zeroQ) (v : V3 ℝ) : q.conj.rotF (q.rotF v) = v := by
  have hp := Quat.nsq_pos_of_ne h
  rw [← Quat.rotF_mul]
  have hm : q.conj.mul q = ⟨q.nsq, 0, 0, 0⟩ := by apply Quat.ext4 <;> simp [Quat.mul, Quat.conj, Quat.nsq] <;> ring
  rw [hm]
  unfold Quat.rotF
  generalize q.nsq = N at hp
  apply V3.ext' <;> simp [Quat.sandwich, Quat.mul, Quat.conj, Quat.nsq] <;> field_simp

theorem rotF_id (v : V3 ℝ) : (⟨1, 0, 0, 0⟩ : Quat ℝ).rotF v = v := by
  apply V3.ext' <;> simp [Quat.rotF, Quat.nsq, Quat.sandwich, Quat.mul, Quat.conj]

theorem id_ne : (⟨1, 0, 0, 0⟩ : Quat ℝ) ≠ Quat.zeroQ := by
  intro h; have := congrArg Quat.q0 h; simp [Quat.zeroQ] at this

theorem scale_unit {q : Quat ℝ} (h : q.nsq = 1) : q.scale (1 / q.norm) = q := by
  rw [Quat.norm_def', h, Real.sqrt_one]; apply Quat.ext4 <;> simp [Quat.scale]

theorem unit_ne {q : Quat ℝ} (h : q.nsq = 1) : q ≠ Quat.zeroQ := by
  rw [Ne, ← Quat.nsq_zero_iff, h]; norm_num

/-! ## Earth models -/

/-- **C66.** The earth models by name: no definition or "Flat", "Round", "WGS84" and "None"; every other name is refused. -/
theorem earthModelFactory_spec (fuel : Nat) :
    earthModelFactory fuel none = .ok flatEarth ∧ earthModelFactory fuel (some "Flat".toList) = .ok flatEarth ∧
    earthModelFactory fuel (some "Round".toList) = .ok roundEarth ∧
    earthModelFactory fuel (some "WGS84".toList) = .ok (wgs84 fuel) ∧
    earthModelFactory fuel (some "None".toList) = .ok noEarth ∧
    ∀ n : Str, n ∉ ["Flat".toList, "Round".toList, "WGS84".toList, "None".toList] →
      earthModelFactory fuel (some n) = .error .runtimeError := by
  refine ⟨rfl, ?_, ?_, ?_, ?_, ?_⟩ <;> unfold earthModelFactory <;> dsimp only
  · rw [if_pos rfl]
  · rw [if_neg (by decide), if_pos rfl]
  · rw [if_neg (by decide), if_neg (by decide), if_pos rfl]
  · rw [if_neg (by decide), if_neg (by decide), if_neg (by decide), if_pos rfl]
  · intro n hn
    simp only [List.mem_cons, List.not_mem_nil, or_false, not_or] at hn
    rw [if_neg hn.1, if_neg hn.2.1, if_neg hn.2.2.1, if_neg hn.2.2.2]

/-- The earth models that turn. -/
def Turning (e : Earth) : Prop := e = roundEarth ∨ ∃ fuel, e = wgs84 fuel

/-- The local frame of a turning earth is a rotation whose first axis points east: perpendicular to the axis of the earth and
to the position, with the position's distance from the axis as the factor. -/
theorem turning_enu {e : Earth} (he : Turning e) {pos : V3 ℝ} {q : Quat ℝ} (h : e.enu pos = .ok q) :
    q.nsq = 1 ∧ e.rate = 7.292115e-5 ∧ Real.sqrt (pos.x ^ 2 + pos.y ^ 2) • q.rotF ⟨1, 0, 0⟩ = ⟨-pos.y, pos.x, 0⟩ := by
  have key : ∀ lat, Real.sqrt (pos.x ^ 2 + pos.y ^ 2) •
      (Sphere.enuOf lat (degrees (Quat.atan2 pos.y pos.x - Sphere.rotationRate * 0))).rotF ⟨1, 0, 0⟩ = ⟨-pos.y, pos.x, 0⟩ := by
    intro lat
    rw [Sphere.enuOf_rotF, radians_degrees, mul_zero, sub_zero]
    have c := atan2_cos pos.y pos.x
    have s := atan2_sin pos.y pos.x
    rw [← pow_two, ← pow_two] at c s
    apply V3.ext' <;> simp <;> linarith
  rcases he with rfl | ⟨fuel, rfl⟩
  · change Except.ok _ = _ at h
    cases h
    refine ⟨Sphere.enuOf_nsq _ _, rfl, ?_⟩
    exact key _
  · change WGS.enuRotation fuel pos = _ at h
    unfold WGS.enuRotation at h
    split at h
    · cases h
    · rename_i g hg
      cases h
      refine ⟨Sphere.enuOf_nsq _ _, rfl, ?_⟩
      unfold WGS.cartesianToGeodetic at hg
      dsimp only at hg
      split at hg
      · cases hg
      · split at hg
        · cases hg
        · cases hg
          exact key _

/-! ## C66: air -/

/-- **C66.** What the air properties are. The altitude is the earth model's altitude above sea level; the wind models are
asked for the altitude above the launch site, the atmosphere for the altitude above sea level. The mean wind gets the speed of
the turning earth added to its east component; both winds are turned from the local frame into the global one and added up. -/
theorem air_spec (E : Env) (pos : V3 ℝ) (time : Option ℝ) (c : Conditions) :
    E.airProperties pos time = .ok c ↔
      ∃ m t q T p ρ μ, E.earth.altitude pos = .ok c.alt ∧ E.mean (c.alt - E.elevation) = .ok m ∧
        E.turb.elim (t = 0) (fun f => f (c.alt - E.elevation) m time = .ok t) ∧
        E.earth.enu pos = .ok q ∧ q ≠ Quat.zeroQ ∧ E.air c.alt time = .ok (T, p, ρ, μ) ∧
        c.meanWind = q.rotF (m + ⟨E.earth.rate * Real.sqrt (pos.x ^ 2 + pos.y ^ 2), 0, 0⟩) ∧ c.turbWind = q.rotF t ∧
        c.wind = c.meanWind + c.turbWind ∧ c.temp = T ∧ c.pressure = p ∧ c.density = ρ ∧ c.viscosity = μ := by
  have hw : ∀ agl m t, E.getWind agl time = .ok (m, t) ↔
      E.mean agl = .ok m ∧ E.turb.elim (t = 0) (fun f => f agl m time = .ok t) := by
    intro agl m t
    unfold Env.getWind
    cases hm : E.mean agl with
    | error e => simp
    | ok m' =>
      cases ht : E.turb with
      | none =>
        simp only [Option.elim, Except.ok.injEq, Prod.mk.injEq]
        constructor
        · rintro ⟨rfl, rfl⟩; exact ⟨rfl, rfl⟩
        · rintro ⟨rfl, rfl⟩; exact ⟨rfl, rfl⟩
      | some f =>
        simp only [Option.elim]
        cases hf : f agl m' time with
        | error e =>
          simp only [reduceCtorEq, Except.ok.injEq, false_iff, not_and]
          rintro rfl; rw [hf]; simp
        | ok t' =>
          simp only [Except.ok.injEq, Prod.mk.injEq]
          constructor
          · rintro ⟨rfl, rfl⟩; exact ⟨rfl, hf⟩
          · rintro ⟨rfl, h⟩; rw [hf] at h; exact ⟨rfl, by simpa using h⟩
  constructor
  · intro h
    unfold Env.airProperties at h
    split at h
    · cases h
    rename_i asl ha
    split at h
    · cases h
    rename_i m t hmt
    obtain ⟨h1, h2⟩ := (hw _ _ _).1 hmt
    dsimp only at h
    split at h
    · cases h
    rename_i q hq
    split at h
    · cases h
    rename_i mG q' hr
    obtain ⟨hne, e1, e2⟩ := Quat.rotate_ok hr
    split at h
    · cases h
    rename_i tG q'' hr'
    obtain ⟨hne', e3, e4⟩ := Quat.rotate_ok hr'
    split at h
    · cases h
    rename_i a hair
    cases h
    refine ⟨m, t, q, a.1, a.2.1, a.2.2.1, a.2.2.2, ha, h1, h2, hq, hne, hair, e1, ?_, rfl, rfl, rfl, rfl, rfl⟩
    rw [e3, e2, Quat.rotF_scale q t hne]
    have := Quat.norm_pos_of_ne hne
    simpa using this.ne'
  · rintro ⟨m, t, q, T, p, ρ, μ, ha, h1, h2, hq, hne, hair, e1, e2, e3, rfl, rfl, rfl, rfl⟩
    unfold Env.airProperties
    rw [ha]
    dsimp only
    rw [(hw _ _ _).2 ⟨h1, h2⟩]
    dsimp only
    rw [hq]
    dsimp only
    rw [Quat.rotate_eq_rotF _ _ hne]
    dsimp only
    have hk : 1 / q.norm ≠ 0 := by have := Quat.norm_pos_of_ne hne; simpa using this.ne'
    rw [Quat.rotate_eq_rotF _ _ (Quat.scale_ne hne hk), Quat.rotF_scale q t hne hk]
    dsimp only
    rw [hair]
    dsimp only
    rw [← e1, ← e2, ← e3]

/-- **C66.** Still air turns with the earth: without wind and turbulence the air at a position moves with the velocity `ω × r`
of the turning earth (spherical and WGS84 models). -/
theorem still_air (E : Env) (he : Turning E.earth) (hm : ∀ z, E.mean z = .ok 0)
    (ht : ∀ f, E.turb = some f → ∀ z m t, f z m t = .ok 0) (pos : V3 ℝ) (time : Option ℝ) (c : Conditions)
    (h : E.airProperties pos time = .ok c) : c.wind = cross ⟨0, 0, 7.292115e-5⟩ pos := by
  obtain ⟨m, t, q, T, p, ρ, μ, -, h1, h2, hq, hne, -, e1, e2, e3, -⟩ := (air_spec E pos time c).1 h
  rw [hm] at h1
  cases h1
  have ht0 : t = 0 := by
    cases htu : E.turb with
    | none => rw [htu] at h2; exact h2
    | some f => rw [htu] at h2; simp only [Option.elim] at h2; rw [ht f htu] at h2; cases h2; rfl
  obtain ⟨-, hr, hE⟩ := turning_enu he hq
  rw [e3, e1, e2, ht0, rotF_zero, add_zero, zero_add, hr]
  have : (⟨7.292115e-5 * Real.sqrt (pos.x ^ 2 + pos.y ^ 2), 0, 0⟩ : V3 ℝ)
      = (7.292115e-5 : ℝ) • (Real.sqrt (pos.x ^ 2 + pos.y ^ 2) • (⟨1, 0, 0⟩ : V3 ℝ)) := by
    apply V3.ext' <;> simp [mul_comm]
  rw [this, rotF_smul, rotF_smul, hE]
  apply V3.ext' <;> simp [cross, mul_comm]

/-- A windless environment on a turning earth. -/
noncomputable def calm (e : Earth) : Env := ⟨e, 1000, 45, 10, fun _ => .ok 0, none, fun _ _ => .ok (280, 90000, 1.1, 2e-5), none⟩

theorem calm_ok (e : Earth) (pos : V3 ℝ) (alt : ℝ) (q : Quat ℝ) (h1 : e.altitude pos = .ok alt) (h2 : e.enu pos = .ok q)
    (hn : q.nsq = 1) : ∃ c, (calm e).airProperties pos none = .ok c :=
  let m := q.rotF (0 + ⟨e.rate * Real.sqrt (pos.x ^ 2 + pos.y ^ 2), 0, 0⟩)
  ⟨⟨alt, 280, 90000, 1.1, 2e-5, m + q.rotF 0, m, q.rotF 0⟩, (air_spec _ _ _ _).2
    ⟨0, 0, q, 280, 90000, 1.1, 2e-5, h1, rfl, rfl, h2, unit_ne hn, rfl, rfl, rfl, rfl, rfl, rfl, rfl, rfl⟩⟩

/-- Such air exists at every position over a round earth, and above every point at or above the ellipsoid. -/
theorem calm_air (pos : V3 ℝ) : (∃ c, (calm roundEarth).airProperties pos none = .ok c) ∧
    ∀ lat lon h, -90 ≤ lat → lat ≤ 90 → 0 ≤ h →
      ∃ c, (calm (wgs84 4)).airProperties (WGS.geodeticToCartesian lat lon h 0) none = .ok c := by
  constructor
  · exact calm_ok _ _ _ _ rfl rfl (Sphere.enuOf_nsq _ _)
  · intro lat lon h h1 h2 h3
    obtain ⟨g, hg, -⟩ := WGS.wgs_roundtrip 0 lat lon h 0 h1 h2 (by linarith)
    refine calm_ok _ _ g.2.2 (Sphere.enuOf g.1 g.2.1) ?_ ?_ (Sphere.enuOf_nsq _ _)
    · show WGS.altitude 4 _ = _
      unfold WGS.altitude; rw [hg]
    · show WGS.enuRotation 4 _ = _
      unfold WGS.enuRotation; rw [hg]

example : ∃ c, (calm roundEarth).airProperties ⟨6371007.1809, 0, 0⟩ none = .ok c ∧ c.wind.y = 7.292115e-5 * 6371007.1809 := by
  obtain ⟨⟨c, hc⟩, -⟩ := calm_air ⟨6371007.1809, 0, 0⟩
  refine ⟨c, hc, ?_⟩
  rw [still_air _ (Or.inl rfl) (fun _ => rfl) (by intro f hf; cases hf) _ _ _ hc]
  simp [cross]

/-- **C66.** Wind is measured relative to the turning earth: the velocity of the air is `ω × r` plus the model's wind and
turbulence turned into the local frame. So the speed of the wind relative to the ground is the model's, and its components
along the local axes are the model's. -/
theorem wind_local (E : Env) (he : Turning E.earth) (pos : V3 ℝ) (time : Option ℝ) (c : Conditions)
    (h : E.airProperties pos time = .ok c) :
    ∃ m t q, E.earth.enu pos = .ok q ∧ E.mean (c.alt - E.elevation) = .ok m ∧
      E.turb.elim (t = 0) (fun f => f (c.alt - E.elevation) m time = .ok t) ∧
      c.wind - cross ⟨0, 0, 7.292115e-5⟩ pos = q.rotF (m + t) ∧
      (c.wind - cross ⟨0, 0, 7.292115e-5⟩ pos).length = (m + t).length ∧ c.turbWind.length = t.length ∧
      (∀ axis, dot (c.wind - cross ⟨0, 0, 7.292115e-5⟩ pos) (q.rotF axis) = dot (m + t) axis) ∧
      c.wind = c.meanWind + c.turbWind := by
  obtain ⟨m, t, q, T, p, ρ, μ, -, h1, h2, hq, hne, -, e1, e2, e3, -⟩ := (air_spec E pos time c).1 h
  obtain ⟨-, hr, hE⟩ := turning_enu he hq
  have key : c.wind - cross ⟨0, 0, 7.292115e-5⟩ pos = q.rotF (m + t) := by
    have : (⟨7.292115e-5 * Real.sqrt (pos.x ^ 2 + pos.y ^ 2), 0, 0⟩ : V3 ℝ)
        = (7.292115e-5 : ℝ) • (Real.sqrt (pos.x ^ 2 + pos.y ^ 2) • (⟨1, 0, 0⟩ : V3 ℝ)) := by
      apply V3.ext' <;> simp [mul_comm]
    rw [e3, e1, e2, hr, this, rotF_add, rotF_add, rotF_smul, rotF_smul, hE]
    apply V3.ext' <;> simp [cross] <;> ring
  refine ⟨m, t, q, hq, h1, h2, key, ?_, ?_, ?_, e3⟩
  · rw [key, rotF_length hne]
  · rw [e2, rotF_length hne]
  · intro axis; rw [key, rotF_dot hne]

/-- **C66.** Without an earth, or over a flat one, the altitude is the height and the winds are the models' answers. -/
theorem wind_flat (E : Env) (he : E.earth = noEarth ∨ E.earth = flatEarth) (pos : V3 ℝ) (time : Option ℝ) (c : Conditions)
    (h : E.airProperties pos time = .ok c) :
    c.alt = pos.z ∧ E.mean (pos.z - E.elevation) = .ok c.meanWind ∧
      E.turb.elim (c.turbWind = 0) (fun f => f (pos.z - E.elevation) c.meanWind time = .ok c.turbWind) ∧
      c.wind = c.meanWind + c.turbWind := by
  obtain ⟨m, t, q, T, p, ρ, μ, ha, h1, h2, hq, hne, -, e1, e2, e3, -⟩ := (air_spec E pos time c).1 h
  have hz : c.alt = pos.z ∧ q = ⟨1, 0, 0, 0⟩ ∧ E.earth.rate = 0 := by
    rcases he with he | he <;> rw [he] at ha hq ⊢ <;> exact ⟨(Except.ok.inj ha).symm, (Except.ok.inj hq).symm, rfl⟩
  obtain ⟨hz, rfl, hr⟩ := hz
  rw [rotF_id] at e1 e2
  rw [hr, zero_mul] at e1
  have : c.meanWind = m := by rw [e1]; apply V3.ext' <;> simp
  rw [hz] at h1 h2
  exact ⟨hz, by rw [this]; exact h1, by rw [this, e2]; exact h2, e3⟩

/-- **C66.** Under a parachute with turbulence switched off only the mean wind is left; everything else is as reported by the
environment. -/
theorem under_chute (E : Env) (pos : V3 ℝ) (time : Option ℝ) (c : Conditions) :
    (E.conditions false pos time = E.airProperties pos time) ∧
    (E.conditions true pos time = .ok c ↔ ∃ c0, E.airProperties pos time = .ok c0 ∧ c.wind = c0.meanWind ∧
      c.meanWind = c0.meanWind ∧ c.turbWind = 0 ∧ c.alt = c0.alt ∧ c.temp = c0.temp ∧ c.pressure = c0.pressure ∧
      c.density = c0.density ∧ c.viscosity = c0.viscosity) := by
  unfold Env.conditions
  cases h : E.airProperties pos time with
  | error e => simp
  | ok c0 =>
    refine ⟨rfl, ?_⟩
    simp only [if_true, Except.ok.injEq]
    constructor
    · rintro rfl; exact ⟨c0, rfl, rfl, rfl, rfl, rfl, rfl, rfl, rfl, rfl⟩
    · rintro ⟨_, rfl, h1, h2, h3, h4, h5, h6, h7, h8⟩
      cases c
      simp only at h1 h2 h3 h4 h5 h6 h7 h8
      subst h1 h2 h3 h4 h5 h6 h7 h8
      rfl

/-- **C66.** Gravity acts at the centre of gravity, without moment, and seen from outside it is the earth model's force. -/
theorem gravityForce_spec (E : Env) (mass : ℝ) (cg : V3 ℝ) (s : RBState) (ho : s.ori ≠ Quat.zeroQ) (f : FMS ℝ) :
    E.gravityForce mass cg s = .ok f ↔
      E.earth.gravity mass s.pos = .ok (s.ori.rotF f.force) ∧ f.loc = cg ∧ f.moment = 0 := by
  unfold Env.gravityForce
  cases hg : E.earth.gravity mass s.pos with
  | error e => simp
  | ok g =>
    simp only
    rw [Quat.rotate_eq_rotF _ _ (conj_ne ho)]
    simp only [Except.ok.injEq]
    have hcc : s.ori.conj.conj = s.ori := by apply Quat.ext4 <;> simp [Quat.conj]
    constructor
    · rintro rfl
      refine ⟨?_, rfl, rfl⟩
      have := rotF_conj (conj_ne ho) g
      rw [hcc] at this
      exact this.symm
    · rintro ⟨rfl, rfl, h⟩
      rw [rotF_conj ho]
      cases f; simp only at h; subst h; rfl

/-! ## Conversion into the global frame -/

/-- The earth models a definition can select. -/
def Known (e : Earth) : Prop := e = noEarth ∨ e = flatEarth ∨ Turning e

/-- **C67.** A state relative to the launch site, converted into the global frame of a turning earth: the velocity is turned
with the local frame at the new position and gets the velocity of the ground added, the orientation is turned with the local
frame, and the earth's angular velocity, seen from the vehicle, is added to the angular velocity. -/
theorem toGlobal_turning {e : Earth} (he : Turning e) {s g : RBState} {lat lon : ℝ} (h : e.toGlobal s lat lon = .ok g) :
    ∃ q, e.enu g.pos = .ok q ∧ q.nsq = 1 ∧ g.vel = q.rotF s.vel + cross ⟨0, 0, 7.292115e-5⟩ g.pos ∧ g.ori = q.mul s.ori ∧
      g.angVel = s.angVel + g.ori.conj.rotF ⟨0, 0, 7.292115e-5⟩ ∧ s.ori ≠ Quat.zeroQ ∧
      (e = roundEarth → g.pos = Sphere.geodeticToCartesian lat lon s.pos.z 0) ∧
      (∀ fuel, e = wgs84 fuel → g.pos = WGS.geodeticToCartesian lat lon s.pos.z 0) := by
  have hori : ∀ {q o : Quat ℝ}, (q.mul o).conj ≠ Quat.zeroQ → o ≠ Quat.zeroQ := by
    rintro q o h rfl
    apply h
    apply Quat.ext4 <;> simp [Quat.conj, Quat.mul, Quat.zeroQ]
  have hround : ∀ fuel, wgs84 fuel ≠ roundEarth := by
    intro fuel hc
    have := congrArg (fun e => e.gravity 0 ⟨0, 0, 0⟩) hc
    have hg := congrArg (fun e => e.gravity 1 ⟨0, 0, 1⟩) hc
    change WGS.gravity 1 ⟨0, 0, 1⟩ = Sphere.gravity 1 ⟨0, 0, 1⟩ at hg
    have hl : (⟨0, 0, 1⟩ : V3 ℝ).length = 1 := by simp [V3.length]
    unfold WGS.gravity Sphere.gravity at hg
    rw [hl, Sphere.zaxis_normalize] at hg
    norm_num at hg
    have := congrArg V3.z hg
    simp [WGS.a, Sphere.GM] at this
    norm_num at this
  rcases he with rfl | ⟨fuel, rfl⟩
  · change Sphere.toGlobal s lat lon = _ at h
    unfold Sphere.toGlobal at h
    dsimp only at h
    have hn := Sphere.enuOf_nsq
    split at h
    · cases h
    rename_i v t' hr
    obtain ⟨hne, e1, e2⟩ := Quat.rotate_ok hr
    split at h
    · cases h
    rename_i w q' hr'
    obtain ⟨hne', e3, -⟩ := Quat.rotate_ok hr'
    cases h
    have hu : (Sphere.enuRotation (Sphere.geodeticToCartesian lat lon s.pos.z 0)).nsq = 1 := hn _ _
    rw [scale_unit hu] at e2
    subst e1 e2 e3
    exact ⟨_, rfl, hu, rfl, rfl, rfl, hori hne', fun _ => rfl, fun f hf => absurd hf.symm (hround f)⟩
  · change WGS.toGlobal fuel s lat lon = _ at h
    unfold WGS.toGlobal at h
    dsimp only at h
    split at h
    · cases h
    rename_i tower ht
    split at h
    · cases h
    rename_i v t' hr
    obtain ⟨hne, e1, e2⟩ := Quat.rotate_ok hr
    split at h
    · cases h
    rename_i w q' hr'
    obtain ⟨hne', e3, -⟩ := Quat.rotate_ok hr'
    cases h
    have hu : tower.nsq = 1 := (turning_enu (e := wgs84 fuel) (Or.inr ⟨fuel, rfl⟩) ht).1
    rw [scale_unit hu] at e2
    subst e1 e2 e3
    exact ⟨_, ht, hu, rfl, rfl, rfl, hori hne', fun hf => absurd hf (hround fuel), fun _ _ => rfl⟩

/-- **C67.** The 3-DoF conversion gives the position and velocity of the 6-DoF one. -/
theorem toGlobal3_spec (s : RBState3) (lat lon : ℝ) :
    ∃ g, Sphere.toGlobal3 s lat lon = .ok g ∧ g.pos = Sphere.geodeticToCartesian lat lon s.pos.z 0 ∧
      ∀ o w g6, Sphere.toGlobal ⟨s.pos, s.vel, o, w⟩ lat lon = .ok g6 → g6.pos = g.pos ∧ g6.vel = g.vel := by
  have hn : (Sphere.enuRotation (Sphere.geodeticToCartesian lat lon s.pos.z 0)) ≠ Quat.zeroQ := unit_ne (Sphere.enuOf_nsq _ _)
  unfold Sphere.toGlobal3
  dsimp only
  rw [Quat.rotate_eq_rotF _ _ hn]
  refine ⟨_, rfl, rfl, ?_⟩
  intro o w g6 h
  have h' : roundEarth.toGlobal ⟨s.pos, s.vel, o, w⟩ lat lon = .ok g6 := h
  obtain ⟨q, hq, -, hv, -, -, -, hp, -⟩ := toGlobal_turning (Or.inl rfl) h'
  have hp := hp rfl
  dsimp only at hp
  change Except.ok (Sphere.enuRotation g6.pos) = _ at hq
  have hq := Except.ok.inj hq
  rw [hp] at hq
  exact ⟨hp, by rw [hv, ← hq, hp]; rfl⟩

/-- Position and orientation of a converted state depend on position and orientation only. -/
theorem toGlobal_congr {e : Earth} (he : Known e) {s s' g g' : RBState} {lat lon : ℝ} (h : e.toGlobal s lat lon = .ok g)
    (h' : e.toGlobal s' lat lon = .ok g') (hp : s'.pos = s.pos) (ho : s'.ori = s.ori) : g'.pos = g.pos ∧ g'.ori = g.ori := by
  rcases he with rfl | rfl | he
  · cases h; cases h'; exact ⟨hp, ho⟩
  · cases h; cases h'; exact ⟨hp, ho⟩
  · obtain ⟨q, hq, -, -, o, -, -, p, pw⟩ := toGlobal_turning he h
    obtain ⟨q', hq', -, -, o', -, -, p', pw'⟩ := toGlobal_turning he h'
    have hpp : g'.pos = g.pos := by
      rcases he with he | ⟨fuel, he⟩
      · rw [p he, p' he, hp]
      · rw [pw fuel he, pw' fuel he, hp]
    rw [hpp, hq] at hq'
    cases hq'
    exact ⟨hpp, by rw [o, o', ho]⟩

/-- **C66.** A rocket at rest on the launch site meets no wind in still air: its velocity in the global frame is the velocity
of the air there (turning earths). -/
theorem pad_airspeed (E : Env) (he : Turning E.earth) (hm : ∀ z, E.mean z = .ok 0)
    (ht : ∀ f, E.turb = some f → ∀ z m t, f z m t = .ok 0) (s g : RBState) (hv : s.vel = 0)
    (hg : E.initialToGlobal s = .ok g) (time : Option ℝ) (c : Conditions) (h : E.airProperties g.pos time = .ok c) :
    c.wind = g.vel := by
  obtain ⟨q, -, -, hv', -⟩ := toGlobal_turning he hg
  rw [still_air E he hm ht g.pos time c h, hv']
  have : ∀ b : Bool, (if b = true then ({ s with pos := s.pos + ⟨0, 0, E.elevation⟩, angVel := ⟨0, 0, 0⟩ } : RBState)
      else { s with pos := s.pos + ⟨0, 0, E.elevation⟩ }).vel = 0 := by
    intro b; cases b <;> exact hv
  rw [this, rotF_zero, zero_add]

/-! ## C67: initial orientation, rail and position -/

theorem zAxis_ne : (⟨0, 0, 1⟩ : V3 ℝ) ≠ 0 := by intro h; have := congrArg V3.z h; simp at this

theorem zAxis_angle (d : V3 ℝ) (hd : d.length = 1) :
    V3.angle ⟨0, 0, 1⟩ d = .ok (if |d.z - 1| < 1e-8 then 0 else Real.arccos d.z) := by
  have hl : (⟨0, 0, 1⟩ : V3 ℝ).length = 1 := by simp [V3.length]
  unfold V3.angle
  rw [hl, hd]
  have : dot (⟨0, 0, 1⟩ : V3 ℝ) d / (1 * 1) = d.z := by simp [dot]
  simp only [this]
  norm_num
  split <;> rfl

/-- **C67.** The initial orientation. An explicit axis and angle (in degrees) is used as it is. Otherwise the rocket's
longitudinal axis is turned from the vertical exactly into the initial direction (of any length), by a unit quaternion
without roll (its axis is horizontal), unless the direction is within a cosine of 1e-8 of the vertical, when the rocket is
vertical. A zero direction is refused. -/
theorem initialOrientation_spec (dir : V3 ℝ) :
    (∀ axis deg, initialOrientation (some (axis, deg)) dir = .ok (Quat.axisAngle axis (radians deg))) ∧
    (dir = 0 → initialOrientation none dir = .error .zeroDivision) ∧
    (dir ≠ 0 → 1e-8 ≤ |dir.normalize.z - 1| → dir.normalize ≠ ⟨0, 0, -1⟩ →
      ∃ q, initialOrientation none dir = .ok q ∧ q.nsq = 1 ∧ q.q3 = 0 ∧ q.rotF ⟨0, 0, 1⟩ = dir.normalize) ∧
    (dir ≠ 0 → |dir.normalize.z - 1| < 1e-8 → initialOrientation none dir = .ok ⟨1, 0, 0, 0⟩) := by
  refine ⟨fun _ _ => rfl, ?_, ?_, ?_⟩
  · rintro rfl
    unfold initialOrientation
    dsimp only
    rw [(V3.normalize_spec 0).2.1 rfl]
    rw [(V3.angle_spec ⟨0, 0, 1⟩ 0).1.2 (Or.inr rfl)]
  · intro h0 hz hdown
    have hd := (V3.normalize_spec dir).1 h0
    generalize hde : dir.normalize = d at hz hdown hd
    unfold initialOrientation
    dsimp only
    rw [hde, zAxis_angle d hd, if_neg (not_lt.2 hz)]
    have hd2 := V3.length_sq d
    rw [hd, one_mul] at hd2
    simp only [dot] at hd2
    have hperp : 0 < d.x * d.x + d.y * d.y := by
      rcases lt_or_ge 0 (d.x * d.x + d.y * d.y) with h | h
      · exact h
      · exfalso
        have hx : d.x = 0 := by nlinarith [mul_self_nonneg d.x, mul_self_nonneg d.y]
        have hy : d.y = 0 := by nlinarith [mul_self_nonneg d.x, mul_self_nonneg d.y]
        have hzz : (d.z - 1) * (d.z + 1) = 0 := by rw [hx, hy] at hd2; linarith
        rcases mul_eq_zero.1 hzz with h1 | h1
        · rw [h1] at hz; norm_num at hz
        · apply hdown; apply V3.ext' <;> simp [hx, hy]; linarith
    set c : V3 ℝ := cross ⟨0, 0, 1⟩ d with hc
    have hcx : c = ⟨-d.y, d.x, 0⟩ := by rw [hc]; apply V3.ext' <;> simp [cross]
    have hc0 : c ≠ 0 := by
      intro h
      rw [hcx] at h
      have h1 := congrArg V3.x h
      have h2 := congrArg V3.y h
      simp at h1 h2
      rw [h1, h2] at hperp
      norm_num at hperp
    have hn := Quat.axisAngle_nsq c (Real.arccos d.z) hc0
    obtain ⟨-, ⟨r, hr⟩, -⟩ := Quat.axisAngle_rotates c (Real.arccos d.z) hc0 ⟨0, 0, 1⟩
    have hL := (V3.normalize_spec c).2.2
    have hlen : c.length = Real.sqrt (1 - d.z ^ 2) := by
      rw [hcx]; unfold V3.length; congr 1; simp; nlinarith
    have hlpos : 0 < c.length := by
      rw [hlen]; apply Real.sqrt_pos.2; nlinarith
    refine ⟨_, rfl, hn, ?_, ?_⟩
    · have := congrArg V3.z hL
      rw [hcx] at this
      simp at this
      rw [← hcx] at this
      unfold Quat.axisAngle
      simp only
      rcases this with h | h
      · rw [h, mul_zero]
      · exact absurd h hlpos.ne'
    · rw [← (Quat.rotate_ok hr).2.1]
      unfold Quat.rodrigues
      have hz1 : -1 ≤ d.z := by nlinarith
      have hz2 : d.z ≤ 1 := by nlinarith
      rw [Real.cos_arccos hz1 hz2, Real.sin_arccos, ← hlen]
      have hnx := congrArg V3.x hL
      have hny := congrArg V3.y hL
      have hnz := congrArg V3.z hL
      generalize c.normalize = n at hnx hny hnz
      rw [hcx] at hnx hny hnz
      simp at hnx hny hnz
      rw [← hcx] at hnx hny hnz
      have hnz : n.z = 0 := by
        rcases hnz with h | h
        · exact h
        · exact absurd h hlpos.ne'
      apply V3.ext' <;> simp [cross, dot, hnz] <;> linarith
  · intro h0 hz
    have hd := (V3.normalize_spec dir).1 h0
    unfold initialOrientation
    dsimp only
    rw [zAxis_angle _ hd, if_pos hz]
    unfold Quat.axisAngle
    simp

/-- A direction taken for vertical deviates from the vertical by less than 1.5e-4 (as a difference of unit vectors). -/
theorem vertical_close (d : V3 ℝ) (hd : d.length = 1) (h : |d.z - 1| < 1e-8) : (d - ⟨0, 0, 1⟩).length < 1.5e-4 := by
  have hd2 := V3.length_sq d
  rw [hd, one_mul] at hd2
  simp only [dot] at hd2
  have h' := (abs_lt.1 h).1
  unfold V3.length
  rw [Real.sqrt_lt' (by norm_num)]
  simp
  nlinarith

/-- **C67 violated.** A rocket that is to point straight down cannot be placed: its orientation is the zero quaternion, and
the definition is refused by a division by zero without a message. -/
theorem straight_down_violated (E : Env) (pos vel w cg : V3 ℝ) (he : Known E.earth) :
    initialOrientation none ⟨0, 0, -1⟩ = .ok ⟨0, 0, 0, 0⟩ ∧
    (∀ s, E.initialState pos vel w none ⟨0, 0, -1⟩ cg ≠ .ok s) ∧
    ((∀ fuel, E.earth ≠ wgs84 fuel) → E.initialState pos vel w none ⟨0, 0, -1⟩ cg = .error .zeroDivision) := by
  have hn : (⟨0, 0, -1⟩ : V3 ℝ).normalize = ⟨0, 0, -1⟩ := by
    symm
    apply V3.normalize_unique
    · intro h; have := congrArg V3.z h; simp at this
    · have : (⟨0, 0, -1⟩ : V3 ℝ).length = 1 := by simp [V3.length]
      rw [this, one_smul]
  have hq : initialOrientation none ⟨0, 0, -1⟩ = .ok ⟨0, 0, 0, 0⟩ := by
    unfold initialOrientation
    dsimp only
    rw [hn, zAxis_angle _ (by simp [V3.length])]
    have hc : (cross ⟨0, 0, 1⟩ ⟨0, 0, -1⟩ : V3 ℝ) = 0 := by apply V3.ext' <;> simp [cross]
    rw [hc]
    unfold Quat.axisAngle
    rw [(V3.normalize_spec 0).2.1 rfl]
    norm_num
  have hz : (⟨0, 0, 0, 0⟩ : Quat ℝ) = Quat.zeroQ := rfl
  have hmove : ∀ s : RBState, s.ori = ⟨0, 0, 0, 0⟩ → moveToCG s cg = .error .zeroDivision := by
    intro s hs
    unfold moveToCG
    rw [hs, (Quat.rotate_spec _ cg).1.2 hz]
  have hgood : ∀ g, E.initialToGlobal ⟨pos, vel, ⟨0, 0, 0, 0⟩, w⟩ = .ok g → g.ori = ⟨0, 0, 0, 0⟩ := by
    intro g hg
    unfold Env.initialToGlobal at hg
    dsimp only at hg
    rcases he with h | h | h
    · rw [h] at hg
      change Except.ok _ = _ at hg
      cases hg; split <;> rfl
    · rw [h] at hg
      change Except.ok _ = _ at hg
      cases hg; split <;> rfl
    · obtain ⟨_, _, _, _, _, _, hne, _⟩ := toGlobal_turning h hg
      exfalso; apply hne; split <;> rfl
  have hR : ∀ (q : Quat ℝ) (v : V3 ℝ) e, q.rotate v = .error e → e = .zeroDivision := by
    intro q v e h
    by_cases h0 : q = Quat.zeroQ
    · rw [(Quat.rotate_spec q v).1.2 h0] at h; cases h; rfl
    · rw [Quat.rotate_eq_rotF q v h0] at h; cases h
  refine ⟨hq, ?_, ?_⟩
  · intro s
    unfold Env.initialState
    rw [hq]
    dsimp only
    split
    · simp
    · rename_i g hg
      rw [hmove g (hgood g hg)]; simp
  · intro hw
    unfold Env.initialState
    rw [hq]
    dsimp only
    split
    · rename_i e hg
      congr 1
      unfold Env.initialToGlobal at hg
      dsimp only at hg
      rcases he with h | h | h | ⟨fuel, h⟩
      · rw [h] at hg; cases hg
      · rw [h] at hg; cases hg
      · rw [h] at hg
        change Sphere.toGlobal _ _ _ = _ at hg
        unfold Sphere.toGlobal at hg
        dsimp only at hg
        split at hg
        · rename_i h'; cases hg; exact hR _ _ _ h'
        · split at hg
          · rename_i h'; cases hg; exact hR _ _ _ h'
          · cases hg
      · exact absurd h (hw fuel)
    · rename_i g hg
      exact hmove g (hgood g hg)

/-- **C67.** The initial position of the definition is that of the rocket's tip: the body's position is the converted one
plus the centre of gravity turned into the global frame; nothing else changes. -/
theorem moveToCG_spec (s g : RBState) (cg : V3 ℝ) :
    moveToCG s cg = .ok g ↔ s.ori ≠ Quat.zeroQ ∧ g.pos = s.pos + s.ori.rotF cg ∧ g.vel = s.vel ∧ g.angVel = s.angVel ∧
      g.ori = s.ori.scale (1 / s.ori.norm) := by
  constructor
  · intro h
    unfold moveToCG at h
    split at h
    · cases h
    rename_i c o hr
    obtain ⟨hne, e1, e2⟩ := Quat.rotate_ok hr
    cases h
    exact ⟨hne, by rw [e1], rfl, rfl, e2⟩
  · rintro ⟨hne, h1, h2, h3, h4⟩
    unfold moveToCG
    rw [Quat.rotate_eq_rotF _ _ hne]
    dsimp only
    cases g
    simp only at h1 h2 h3 h4
    subst h1 h2 h3 h4
    rfl

/-- **C67.** The rail is aligned with the rocket, whichever way the orientation was given: if the environment's rail was made
from the same definition, the rail's direction is the rocket's longitudinal axis and the rocket's tip is at the rail's foot. -/
theorem rail_aligned (E : Env) (he : Known E.earth) (pos vel w dir cg : V3 ℝ) (rotation : Option (V3 ℝ × ℝ)) (len : ℝ)
    (r : Rail) (s : RBState) (hr : makeRail E.earth E.elevation E.lat E.lon len pos rotation dir = .ok (some r))
    (hs : E.initialState pos vel w rotation dir cg = .ok s) :
    r.dir = s.ori.rotF ⟨0, 0, 1⟩ ∧ r.length = len ∧ 0 < len ∧ r.rate = E.earth.rate ∧ s.pos = r.pos + s.ori.rotF cg := by
  have hro : railOrientation rotation dir = initialOrientation rotation dir := by
    unfold railOrientation initialOrientation; cases rotation <;> rfl
  unfold makeRail at hr
  split at hr
  swap
  · cases hr
  rename_i hlen
  rw [hro] at hr
  unfold Env.initialState at hs
  split at hs
  · cases hs
  rename_i q hq
  rw [hq] at hr
  dsimp only at hr
  split at hs
  · cases hs
  rename_i g hg
  split at hr
  · cases hr
  rename_i g' hg'
  split at hr
  · cases hr
  rename_i d o hd
  cases hr
  obtain ⟨hne, hp, -, -, ho⟩ := (moveToCG_spec g s cg).1 hs
  obtain ⟨hne', hd, -⟩ := Quat.rotate_ok hd
  unfold Env.initialToGlobal at hg
  dsimp only at hg
  obtain ⟨e1, e2⟩ := toGlobal_congr he hg hg' (by split <;> rfl) (by split <;> rfl)
  have hk : 1 / g.ori.norm ≠ 0 := by have := Quat.norm_pos_of_ne hne; simpa using this.ne'
  refine ⟨?_, rfl, hlen, rfl, ?_⟩
  · show d.normalize = _
    rw [ho, Quat.rotF_scale _ _ hne hk, hd, e2]
    symm
    apply V3.normalize_unique
    · intro h
      have := rotF_length hne ⟨0, 0, 1⟩
      rw [h, (V3.length_zero_iff 0).2 rfl] at this
      simp [V3.length] at this
    · rw [rotF_length hne]
      have : (⟨0, 0, 1⟩ : V3 ℝ).length = 1 := by simp [V3.length]
      rw [this, one_smul]
  · show s.pos = g'.pos + _
    rw [hp, ho, Quat.rotF_scale _ _ hne hk, e1]

/-- **C67 violated.** The rail holds the wrong point of the rocket: its foot is where the rocket's tip is put, but the state's
position is the centre of gravity, which is below the tip. So for every rocket launched from a rail the first application of
the rail moves the centre of gravity to the tip's place: the whole rocket jumps up the rail by the distance between them. -/
theorem rail_jump_violated (E : Env) (he : Known E.earth) (pos vel w dir cg : V3 ℝ) (rotation : Option (V3 ℝ × ℝ)) (len : ℝ)
    (r : Rail) (s : RBState) (hr : makeRail E.earth E.elevation E.lat E.lon len pos rotation dir = .ok (some r))
    (hs : E.initialState pos vel w rotation dir cg = .ok s) (hcg : cg.z ≤ 0) :
    ∃ v, r.constrain ⟨s.pos, s.vel⟩ 0 = .ok (true, ⟨s.pos - s.ori.rotF cg, v⟩) := by
  obtain ⟨h1, h2, h3, h4, h5⟩ := rail_aligned E he pos vel w dir cg rotation len r s hr hs
  obtain ⟨-, -, c3, c4⟩ := r.constrain_spec ⟨s.pos, s.vel⟩ 0
  have hne : s.ori ≠ Quat.zeroQ := by
    unfold Env.initialState at hs
    split at hs
    · cases hs
    split at hs
    · cases hs
    rename_i g hg
    obtain ⟨hne, -, -, -, ho⟩ := (moveToCG_spec g s cg).1 hs
    rw [ho]
    apply Quat.scale_ne hne
    have := Quat.norm_pos_of_ne hne
    simpa using this.ne'
  have hal : r.along 0 s.pos = cg.z := by
    unfold Rail.along
    rw [mul_zero, turnZ_zero, turnZ_zero, h1, h5]
    rw [show r.pos + s.ori.rotF cg - r.pos = s.ori.rotF cg by abel, rotF_dot hne]
    simp [dot]
  have hfoot : turnZ (r.rate * 0) r.pos = s.pos - s.ori.rotF cg := by
    rw [mul_zero, turnZ_zero, h5]; abel
  rw [hfoot] at c3 c4
  have hlt : r.along 0 s.pos < r.length := by rw [hal, h2]; linarith
  have hle : r.along 0 s.pos ≤ 0 := by rw [hal]; exact hcg
  rcases lt_or_ge (dot s.vel (turnZ (r.rate * 0) r.dir)) 0 with h | h
  · exact ⟨_, c3 hlt hle h⟩
  · exact ⟨_, c4 hlt hle h⟩

/-- A tilted rocket on a rail over flat ground exists. -/
example : ∃ r s, makeRail flatEarth 1000 45 10 5 ⟨0, 0, 2⟩ none ⟨3, 0, 4⟩ = .ok (some r) ∧
    (calm flatEarth).initialState ⟨0, 0, 2⟩ 0 0 none ⟨3, 0, 4⟩ ⟨0, 0, -1⟩ = .ok s := by
  have hn : (⟨3, 0, 4⟩ : V3 ℝ).normalize = ⟨3 / 5, 0, 4 / 5⟩ := by
    symm
    apply V3.normalize_unique
    · intro h; have := congrArg V3.z h; simp at this
    · have : (⟨3, 0, 4⟩ : V3 ℝ).length = 5 := by
        unfold V3.length
        rw [show (3 * 3 + 0 * 0 + 4 * 4 : ℝ) = 5 ^ 2 by norm_num]
        exact Real.sqrt_sq (by norm_num)
      rw [this]; apply V3.ext' <;> simp <;> norm_num
  obtain ⟨q, hq, hu, -, -⟩ := (initialOrientation_spec ⟨3, 0, 4⟩).2.2.1
    (by intro h; have := congrArg V3.z h; simp at this)
    (by rw [hn]; norm_num [abs_of_neg]) (by rw [hn]; intro h; have := congrArg V3.x h; norm_num at this)
  have hne := unit_ne hu
  have hro : railOrientation none ⟨3, 0, 4⟩ = initialOrientation none ⟨3, 0, 4⟩ := rfl
  have h1 : ∃ r, makeRail flatEarth 1000 45 10 5 ⟨0, 0, 2⟩ none ⟨3, 0, 4⟩ = .ok (some r) := by
    unfold makeRail
    rw [if_pos (by norm_num), hro, hq]
    dsimp only [flatEarth, noEarth]
    rw [Quat.rotate_eq_rotF _ _ hne]
    exact ⟨_, rfl⟩
  have h2 : ∃ s, (calm flatEarth).initialState ⟨0, 0, 2⟩ 0 0 none ⟨3, 0, 4⟩ ⟨0, 0, -1⟩ = .ok s := by
    unfold Env.initialState Env.initialToGlobal moveToCG
    rw [hq]
    dsimp only [calm, flatEarth, noEarth, Option.isSome]
    simp only [Bool.false_eq_true, if_false]
    rw [Quat.rotate_eq_rotF _ _ hne]
    exact ⟨_, rfl⟩
  obtain ⟨r, hr⟩ := h1
  obtain ⟨s, hs⟩ := h2
  exact ⟨r, s, hr, hs⟩

/-! ## Back into the local frame -/

/-- **C67 (partial: the angular velocity is wrong, see `toENU_rate_violated`).** Converting an initial state into the global
frame and back into the local frame: the orientation is the original one, the velocity is the original one plus the ground's
speed towards the east (so the climb rate is the original one) and, for a round earth, the altitude is the original height
plus the site's elevation. -/
theorem toENU_initial_partial (E : Env) (he : Turning E.earth) (s g u : RBState) (hg : E.initialToGlobal s = .ok g)
    (hu : E.toENU g = .ok u) :
    u.ori = s.ori ∧ u.vel = s.vel + ⟨7.292115e-5 * Real.sqrt (g.pos.x ^ 2 + g.pos.y ^ 2), 0, 0⟩ ∧ u.vel.z = s.vel.z ∧
      u.pos.x = 0 ∧ u.pos.y = 0 ∧ E.earth.altitude g.pos = .ok u.pos.z ∧
      (E.earth = roundEarth → -90 ≤ E.lat → E.lat ≤ 90 → -Sphere.radius < s.pos.z + E.elevation →
        u.pos.z = s.pos.z + E.elevation) := by
  unfold Env.initialToGlobal at hg
  dsimp only at hg
  obtain ⟨q, hq, hn, hv, ho, -, -, hp, -⟩ := toGlobal_turning he hg
  have hs1 : ∀ b : Bool, (if b = true then ({ s with pos := s.pos + ⟨0, 0, E.elevation⟩, angVel := ⟨0, 0, 0⟩ } : RBState)
      else { s with pos := s.pos + ⟨0, 0, E.elevation⟩ }).vel = s.vel := by intro b; cases b <;> rfl
  have hs2 : ∀ b : Bool, (if b = true then ({ s with pos := s.pos + ⟨0, 0, E.elevation⟩, angVel := ⟨0, 0, 0⟩ } : RBState)
      else { s with pos := s.pos + ⟨0, 0, E.elevation⟩ }).ori = s.ori := by intro b; cases b <;> rfl
  have hs3 : ∀ b : Bool, (if b = true then ({ s with pos := s.pos + ⟨0, 0, E.elevation⟩, angVel := ⟨0, 0, 0⟩ } : RBState)
      else { s with pos := s.pos + ⟨0, 0, E.elevation⟩ }).pos.z = s.pos.z + E.elevation := by intro b; cases b <;> simp
  rw [hs1] at hv
  rw [hs2] at ho
  rw [hs3] at hp
  have hne := unit_ne hn
  unfold Env.toENU at hu
  split at hu
  · cases hu
  rename_i alt halt
  rw [hq] at hu
  dsimp only at hu
  split at hu
  · cases hu
  rename_i v c hr
  obtain ⟨-, e1, e2⟩ := Quat.rotate_ok hr
  split at hu
  · cases hu
  cases hu
  have hcn : q.conj.nsq = 1 := by rw [← hn]; simp [Quat.nsq, Quat.conj]
  rw [scale_unit hcn] at e2
  have hvel : v = s.vel + ⟨7.292115e-5 * Real.sqrt (g.pos.x ^ 2 + g.pos.y ^ 2), 0, 0⟩ := by
    obtain ⟨-, -, hE⟩ := turning_enu he hq
    have hx : cross ⟨0, 0, 7.292115e-5⟩ g.pos
        = q.rotF ⟨7.292115e-5 * Real.sqrt (g.pos.x ^ 2 + g.pos.y ^ 2), 0, 0⟩ := by
      rw [show (⟨7.292115e-5 * Real.sqrt (g.pos.x ^ 2 + g.pos.y ^ 2), 0, 0⟩ : V3 ℝ)
        = (7.292115e-5 : ℝ) • (Real.sqrt (g.pos.x ^ 2 + g.pos.y ^ 2) • (⟨1, 0, 0⟩ : V3 ℝ)) by
          apply V3.ext' <;> simp [mul_comm], rotF_smul, rotF_smul, hE]
      apply V3.ext' <;> simp [cross, mul_comm]
    rw [e1, hv, hx, ← rotF_add, rotF_conj hne]
  refine ⟨?_, hvel, ?_, rfl, rfl, halt, ?_⟩
  · rw [e2, ho]
    have : ∀ o : Quat ℝ, q.conj.mul (q.mul o) = o.scale q.nsq := by
      intro o; apply Quat.ext4 <;> simp [Quat.mul, Quat.conj, Quat.scale, Quat.nsq] <;> ring
    rw [this, hn]
    apply Quat.ext4 <;> simp [Quat.scale]
  · show v.z = _
    rw [hvel]; simp
  · intro hround h1 h2 h3
    rw [hround] at halt
    change Except.ok (Sphere.altitude g.pos) = _ at halt
    have halt := Except.ok.inj halt
    show alt = _
    rw [← halt, hp hround]
    exact (Sphere.sphere_geodetic_roundtrip E.lat E.lon (s.pos.z + E.elevation) 0 h1 h2 h3).2.1

/-- **C67.** Without an earth or over a flat one the local frame is the global one: the conversions only add the elevation and
forget the horizontal position. -/
theorem toENU_flat (E : Env) (he : E.earth = noEarth ∨ E.earth = flatEarth) (s : RBState) :
    E.toENU s = .ok ⟨⟨0, 0, s.pos.z⟩, s.vel, s.ori, s.angVel⟩ ∧
    (E.rail = none → E.initialToGlobal s = .ok { s with pos := ⟨s.pos.x, s.pos.y, s.pos.z + E.elevation⟩ }) := by
  have hc : (⟨1, 0, 0, 0⟩ : Quat ℝ).conj = ⟨1, 0, 0, 0⟩ := by apply Quat.ext4 <;> simp [Quat.conj]
  have hsc : (⟨1, 0, 0, 0⟩ : Quat ℝ).scale (1 / (⟨1, 0, 0, 0⟩ : Quat ℝ).norm) = ⟨1, 0, 0, 0⟩ :=
    scale_unit (by simp [Quat.nsq])
  have hm : (⟨1, 0, 0, 0⟩ : Quat ℝ).mul s.ori = s.ori := by apply Quat.ext4 <;> simp [Quat.mul]
  have h1 : E.earth.altitude s.pos = .ok s.pos.z := by rcases he with h | h <;> rw [h] <;> rfl
  have h2 : E.earth.enu s.pos = .ok ⟨1, 0, 0, 0⟩ := by rcases he with h | h <;> rw [h] <;> rfl
  constructor
  · unfold Env.toENU
    rw [h1, h2]
    dsimp only
    rw [hc, Quat.rotate_eq_rotF _ _ id_ne, hsc]
    dsimp only
    rw [Quat.rotate_eq_rotF _ _ id_ne, rotF_id, rotF_id, hm]
  · intro hr
    unfold Env.initialToGlobal
    rw [hr]
    have : ∀ t : RBState, E.earth.toGlobal t E.lat E.lon = .ok t := by intro t; rcases he with h | h <;> rw [h] <;> rfl
    rw [this]
    simp only [Option.isSome_none, Bool.false_eq_true, if_false, Except.ok.injEq]
    congr 1
    apply V3.ext' <;> simp

/-- **C67.** On a launch rail the angular velocity of the definition is not used. -/
theorem initial_rail_rate (E : Env) (r : Rail) (hr : E.rail = some r) (s : RBState) (w : V3 ℝ) :
    E.initialToGlobal { s with angVel := w } = E.initialToGlobal { s with angVel := 0 } := by
  unfold Env.initialToGlobal; rw [hr]; rfl

/-- **C67 violated.** A vehicle's angular velocity is given in its own frame, but the conversion into the local frame turns it
as if it were in the global frame: on the equator a rotation about the vehicle's x axis is reported about its z axis. -/
theorem toENU_rate_violated (E : Env) (he : E.earth = roundEarth) (v : V3 ℝ) (o : Quat ℝ) :
    ∃ u, E.toENU ⟨⟨6371007.1809, 0, 0⟩, v, o, ⟨1, 0, 0⟩⟩ = .ok u ∧ u.angVel = ⟨0, 0, 1⟩ := by
  set p : V3 ℝ := ⟨6371007.1809, 0, 0⟩ with hp
  have hn : (Sphere.enuRotation p).nsq = 1 := Sphere.enuOf_nsq _ _
  have hne := unit_ne hn
  have hcn : (Sphere.enuRotation p).conj.nsq = 1 := by rw [← hn]; simp [Quat.nsq, Quat.conj]
  have hx : (Sphere.enuRotation p).rotF ⟨0, 0, 1⟩ = ⟨1, 0, 0⟩ := by
    obtain ⟨-, -, ⟨q, hq⟩⟩ := Sphere.enu_axes p (Or.inl (by rw [hp]; norm_num))
    rw [← (Quat.rotate_ok hq).2.1]
    have hl : p.length = 6371007.1809 := by
      rw [hp]; unfold V3.length
      rw [show (6371007.1809 * 6371007.1809 + 0 * 0 + 0 * 0 : ℝ) = 6371007.1809 ^ 2 by norm_num]
      exact Real.sqrt_sq (by norm_num)
    rw [hl]
    apply V3.ext' <;> simp [hp]
    norm_num
  unfold Env.toENU
  rw [he]
  have ha : roundEarth.altitude p = .ok (Sphere.altitude p) := rfl
  have hb : roundEarth.enu p = .ok (Sphere.enuRotation p) := rfl
  dsimp only
  rw [ha, hb]
  dsimp only
  rw [Quat.rotate_eq_rotF _ _ (unit_ne hcn), scale_unit hcn]
  dsimp only
  rw [Quat.rotate_eq_rotF _ _ (unit_ne hcn)]
  refine ⟨_, rfl, ?_⟩
  show (Sphere.enuRotation p).conj.rotF ⟨1, 0, 0⟩ = _
  rw [← hx, rotF_conj hne]

end Mapleaf.ENV
