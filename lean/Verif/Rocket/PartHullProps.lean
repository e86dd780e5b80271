import Verif.Rocket.PartAeroProps

/-!
# C84: the whole hull: straight flight, total normal force, energy, centre of pressure
-/

namespace Mapleaf.Rocket
open Mapleaf.Motion V3

theorem aoa_range (v : V3 ℝ) (a : ℝ) (h : Aero.totalAOAOf v = .ok a) : 0 ≤ a ∧ a ≤ Real.pi := by
  unfold Aero.totalAOAOf at h
  by_cases h0 : v.length = 0
  · rw [if_pos h0] at h
    obtain rfl := Except.ok.inj h
    exact ⟨le_rfl, Real.pi_pos.le⟩
  · rw [if_neg h0] at h
    have hv : v ≠ 0 := fun h1 => h0 ((V3.length_zero_iff v).2 h1)
    have hz : (⟨0, 0, -1⟩ : V3 ℝ) ≠ 0 := by
      intro h1
      have := congrArg V3.z h1
      simp at this
    obtain ⟨θ, h1, h2, h3, -⟩ := (V3.angle_spec v ⟨0, 0, -1⟩).2 hv hz
    obtain rfl := Except.ok.inj (h.symm.trans h1)
    exact ⟨h2, h3⟩

theorem aoa_axial (z : ℝ) (hz : z ≤ 0) : Aero.totalAOAOf ⟨0, 0, z⟩ = .ok 0 := by
  have hl : (⟨0, 0, z⟩ : V3 ℝ).length = -z := by
    have : (⟨0, 0, z⟩ : V3 ℝ).length = Real.sqrt (0 * 0 + 0 * 0 + z * z) := by
      unfold V3.length; congr 1
    rw [this, show (0 : ℝ) * 0 + 0 * 0 + z * z = (-z) * (-z) by ring, Real.sqrt_mul_self (by linarith)]
  have hl1 : (⟨0, 0, -1⟩ : V3 ℝ).length = 1 := by
    have : (⟨0, 0, -1⟩ : V3 ℝ).length = Real.sqrt (0 * 0 + 0 * 0 + (-1) * (-1)) := by
      unfold V3.length; congr 1
    rw [this]; norm_num
  unfold Aero.totalAOAOf
  split
  · rfl
  · rename_i h
    unfold V3.angle
    rw [hl, hl1, mul_one]
    rw [hl] at h
    rw [if_neg h]
    have : dot (⟨0, 0, z⟩ : V3 ℝ) ⟨0, 0, -1⟩ / -z = 1 := by
      simp only [dot]
      rw [div_eq_one_iff_eq h]; ring
    simp only [this]
    rw [if_pos (by norm_num), Real.arccos_one]

/-! ## Cone pressure drag is a drag -/

/-- a cubic on an interval with values at the ends, rising at the left and falling at the right end, is positive inside -/
theorem cubic_hump (t : Fin 4 → ℝ) (h0 : 0 < (cubicPoly t).eval 1) (h1 : 0 < (cubicPoly t).eval 1.3)
    (d0 : 0 ≤ (Polynomial.derivative (cubicPoly t)).eval 1) (d1 : (Polynomial.derivative (cubicPoly t)).eval 1.3 ≤ 0) (m : ℝ)
    (hm : 1 ≤ m) (hm' : m ≤ 1.3) : 0 < (cubicPoly t).eval m := by
  simp only [cubicPoly, Polynomial.derivative_add, Polynomial.derivative_mul, Polynomial.derivative_C, Polynomial.derivative_X,
    Polynomial.derivative_X_pow, Polynomial.eval_add, Polynomial.eval_mul, Polynomial.eval_C, Polynomial.eval_X, Polynomial.eval_pow,
    Polynomial.eval_zero, Polynomial.eval_one, Polynomial.eval_natCast] at *
  set u := (m - 1) / 0.3 with hu
  have hu0 : 0 ≤ u := by rw [hu]; apply div_nonneg <;> linarith
  have hu1 : 0 ≤ 1 - u := by
    have : u ≤ 1 := by rw [hu, div_le_one (by norm_num)]; linarith
    linarith
  have hm2 : m = 1 + 0.3 * u := by rw [hu]; ring
  clear_value u
  subst hm2
  norm_num at h0 h1 d0 d1 ⊢
  set b0 := t 0 + t 1 + t 2 + t 3 with hb0
  set b3 := t 0 + t 1 * (13 / 10) + t 2 * (169 / 100) + t 3 * (2197 / 1000) with hb3
  have hb1 : 0 ≤ t 1 + t 2 * 2 + t 3 * 3 := by linarith
  have hb2 : t 1 + t 2 * (2 * (13 / 10)) + t 3 * (3 * (169 / 100)) ≤ 0 := by linarith
  have key : t 0 + t 1 * (1 + 3 / 10 * u) + t 2 * (1 + 3 / 10 * u) ^ 2 + t 3 * (1 + 3 / 10 * u) ^ 3 =
      b0 * ((1 - u) ^ 3 + 3 * u * (1 - u) ^ 2) + b3 * (u ^ 3 + 3 * u ^ 2 * (1 - u)) +
      3 / 10 * (t 1 + t 2 * 2 + t 3 * 3) * (u * (1 - u) ^ 2) -
      3 / 10 * (t 1 + t 2 * (2 * (13 / 10)) + t 3 * (3 * (169 / 100))) * (u ^ 2 * (1 - u)) := by
    rw [hb0, hb3]; ring
  rw [key]
  have e1 : 0 ≤ (t 1 + t 2 * 2 + t 3 * 3) * (u * (1 - u) ^ 2) := by positivity
  have e2 : 0 ≤ -(t 1 + t 2 * (2 * (13 / 10)) + t 3 * (3 * (169 / 100))) * (u ^ 2 * (1 - u)) :=
    mul_nonneg (by linarith) (by positivity)
  have e3 : 0 < b0 * ((1 - u) ^ 3 + 3 * u * (1 - u) ^ 2) + b3 * (u ^ 3 + 3 * u ^ 2 * (1 - u)) := by
    have s1 : (1 - u) ^ 3 + 3 * u * (1 - u) ^ 2 + (u ^ 3 + 3 * u ^ 2 * (1 - u)) = 1 := by ring
    have p1 : 0 ≤ (1 - u) ^ 3 + 3 * u * (1 - u) ^ 2 := by positivity
    have p2 : 0 ≤ u ^ 3 + 3 * u ^ 2 * (1 - u) := by positivity
    have hmin : 0 < min b0 b3 := lt_min h0 h1
    have q1 := mul_le_mul_of_nonneg_right (min_le_left b0 b3) p1
    have q2 := mul_le_mul_of_nonneg_right (min_le_right b0 b3) p2
    nlinarith
  nlinarith

/-- **C84.** The pressure drag coefficient of nose cones and widening transitions is never negative. -/
theorem conePressure_nonneg (angle mach c : ℝ) (h0 : 0 < angle) (h1 : angle ≤ Real.pi / 2) (hm : 0 ≤ mach)
    (h : conePressureCd angle mach = .ok c) : 0 ≤ c ∧ (0 < mach → 0 < c) := by
  have hsin : 0 < Real.sin angle := Real.sin_pos_of_pos_of_lt_pi h0 (by linarith [Real.pi_pos])
  have hsin1 := Real.sin_le_one angle
  have hh : ∀ m : ℝ, 1 < m → hoerner angle m = .ok (2.1 * Real.sin angle ^ 2 + 0.5 * Real.sin angle / Real.sqrt (m ^ 2 - 1)) := by
    intro m hm
    unfold hoerner
    rw [if_neg (by nlinarith), if_neg (Real.sqrt_pos.2 (by nlinarith)).ne']
  unfold conePressureCd at h
  cases hs : subsonicCoeffs angle with
  | error e => rw [hs] at h; cases h
  | ok s =>
  cases ht : transonicCoeffs angle with
  | error e => rw [hs, ht] at h; cases h
  | ok t =>
  rw [hs, ht] at h
  dsimp only at h
  unfold subsonicCoeffs at hs
  rw [if_neg hsin.ne'] at hs
  obtain rfl := Except.ok.inj hs
  split at h
  · obtain rfl := Except.ok.inj h
    exact ⟨mul_nonneg hsin.le (Real.rpow_nonneg hm _), fun h => mul_pos hsin (Real.rpow_pos_of_pos h _)⟩
  rename_i hlt
  have pos : 0 < c := by
    split at h
    · rename_i hmm
      obtain rfl := Except.ok.inj h
      unfold transonicCoeffs at ht
      rw [hh 1.3 (by norm_num), hh 1.301 (by norm_num)] at ht
      simp only [bind, Except.bind] at ht
      obtain ⟨-, c1, c2, c3, c4⟩ := ((cubicCoefficients_spec ..).2 t).1 ht
      have hp : 0 < (cubicPoly t).eval mach := by
        refine cubic_hump t ?_ ?_ ?_ ?_ mach hmm.1.le hmm.2.le
        · rw [c1]; exact hsin
        · rw [c2]
          have : 0 < Real.sqrt ((1.3 : ℝ) ^ 2 - 1) := Real.sqrt_pos.2 (by norm_num)
          positivity
        · rw [c3]; unfold sonicSlope
          have : 0 ≤ 1 - 0.5 * Real.sin angle := by linarith
          positivity
        · rw [c4]
          apply div_nonpos_of_nonpos_of_nonneg _ (by norm_num)
          have ha : 0 < Real.sqrt ((1.3 : ℝ) ^ 2 - 1) := Real.sqrt_pos.2 (by norm_num)
          have hb : Real.sqrt ((1.3 : ℝ) ^ 2 - 1) ≤ Real.sqrt ((1.301 : ℝ) ^ 2 - 1) := Real.sqrt_le_sqrt (by norm_num)
          have := div_le_div_of_nonneg_left (by positivity : 0 ≤ 0.5 * Real.sin angle) ha hb
          linarith
      simpa [cubicPoly] using hp
    · rename_i hmm
      by_cases hm1 : 1 < mach
      · rw [hh mach hm1] at h
        obtain rfl := Except.ok.inj h
        have : 0 < Real.sqrt (mach ^ 2 - 1) := Real.sqrt_pos.2 (by nlinarith)
        positivity
      · have : mach = 1 := by linarith
        subst this
        unfold hoerner at h
        norm_num at h
        cases h
  exact ⟨pos.le, fun _ => pos⟩

/-! ## The hull -/

/-- the force of one of the components below the nose cone: a transition, or a boat tail at some time -/
def BelowForce (roughness : ℝ) (s : Ship) (f : Flow) (t : Trans) (F : FMS ℝ) : Prop :=
  transForce t roughness s f = .ok F ∨ ∃ shutOff time, boatTailForce t roughness s f shutOff time = .ok F

/-- every component below the nose begins with the diameter the one above it ends with; `d` is the diameter above -/
def Fits (d : ℝ) : List Trans → Prop
  | [] => True
  | t :: ts => t.startDiameter = d ∧ Fits t.endDiameter ts

/-- the diameter at the lower end -/
def lastDiameter (d : ℝ) : List Trans → ℝ
  | [] => d
  | t :: ts => lastDiameter t.endDiameter ts

theorem below_lateral (roughness : ℝ) (s : Ship) (f : Flow) (t : Trans) (F : FMS ℝ) (a : ℝ) (ha : Aero.totalAOAOf f.v = .ok a)
    (h : BelowForce roughness s f t F) :
    F.force.x = 2 * Real.sin a * (t.endDiameter ^ 2 * Real.pi / 4 - t.startDiameter ^ 2 * Real.pi / 4) * f.q * (Aero.normalOf f.v).x ∧
    F.force.y = 2 * Real.sin a * (t.endDiameter ^ 2 * Real.pi / 4 - t.startDiameter ^ 2 * Real.pi / 4) * f.q * (Aero.normalOf f.v).y ∧
    F.moment.x = 0 ∧ F.moment.y = 0 := by
  rcases h with h | ⟨so, ti, h⟩
  · obtain ⟨w, vol, cp, a', fr, p, -, e1, h0, -, -, rfl⟩ := (transForce_iff ..).1 h
    obtain rfl := Except.ok.inj (ha.symm.trans e1)
    refine ⟨?_, ?_, rfl, rfl⟩ <;> simp only [assembled] <;> field_simp
  · obtain ⟨w, vol, cp, a', fr, p, -, e1, h0, -, -, base, -, -, rfl⟩ := (boatTailForce_iff ..).1 h
    obtain rfl := Except.ok.inj (ha.symm.trans e1)
    refine ⟨?_, ?_, rfl, rfl⟩ <;> simp only [assembled] <;> field_simp

/-- **C84.** The normal force of a closed hull depends on its lower end only: however the diameters vary in between, nose cone and
transitions together push with `2 sin(AOA) q A_end` along the lateral air velocity. -/
theorem hull_normal (n : Nose) (roughness : ℝ) (s : Ship) (f : Flow) (a : ℝ) (ha : Aero.totalAOAOf f.v = .ok a) (F0 : FMS ℝ)
    (h0 : noseForce n roughness s f = .ok F0) (ts : List Trans) (Fs : List (FMS ℝ)) (hF : List.Forall₂ (BelowForce roughness s f) ts Fs)
    (hfit : Fits n.baseDiameter ts) :
    (F0.force + (Fs.map FMS.force).sum).x =
      2 * Real.sin a * ((lastDiameter n.baseDiameter ts) ^ 2 * Real.pi / 4) * f.q * (Aero.normalOf f.v).x ∧
    (F0.force + (Fs.map FMS.force).sum).y =
      2 * Real.sin a * ((lastDiameter n.baseDiameter ts) ^ 2 * Real.pi / 4) * f.q * (Aero.normalOf f.v).y := by
  obtain ⟨w, cp, a', fr, p, -, e1, hA, -, -, -, rfl⟩ := (noseForce_iff ..).1 h0
  obtain rfl := Except.ok.inj (ha.symm.trans e1)
  have key : ∀ (ts : List Trans) (Fs : List (FMS ℝ)) (d : ℝ), List.Forall₂ (BelowForce roughness s f) ts Fs → Fits d ts →
      (Fs.map FMS.force).sum.x = 2 * Real.sin a * ((lastDiameter d ts) ^ 2 * Real.pi / 4 - d ^ 2 * Real.pi / 4) * f.q * (Aero.normalOf f.v).x ∧
      (Fs.map FMS.force).sum.y = 2 * Real.sin a * ((lastDiameter d ts) ^ 2 * Real.pi / 4 - d ^ 2 * Real.pi / 4) * f.q * (Aero.normalOf f.v).y := by
    intro ts
    induction ts with
    | nil =>
      intro Fs d h _
      cases h
      simp [lastDiameter]
    | cons t ts ih =>
      intro Fs d h hf
      cases h with
      | cons h1 h2 =>
        rename_i F Fs
        obtain ⟨i1, i2⟩ := ih Fs t.endDiameter h2 hf.2
        obtain ⟨j1, j2, -, -⟩ := below_lateral roughness s f t F a ha h1
        rw [hf.1] at j1 j2
        simp only [List.map_cons, List.sum_cons, add_x, add_y, i1, i2, j1, j2, lastDiameter]
        constructor <;> ring
  obtain ⟨k1, k2⟩ := key ts Fs n.baseDiameter hF hfit
  simp only [add_x, add_y, k1, k2]
  constructor
  · simp only [assembled]; field_simp; ring
  · simp only [assembled]; field_simp; ring

/-- **C84.** Flying straight, a component only brakes: no lateral force, no moment but roll damping, which vanishes without roll. -/
theorem straight_flight (n : Nose) (roughness : ℝ) (s : Ship) (f : Flow) (z : ℝ) (hv : f.v = ⟨0, 0, z⟩) (hz : z ≤ 0) (t : Trans) (F : FMS ℝ)
    (h : noseForce n roughness s f = .ok F ∨ BelowForce roughness s f t F) :
    F.force.x = 0 ∧ F.force.y = 0 ∧ F.moment.x = 0 ∧ F.moment.y = 0 ∧ (f.omega.z = 0 → F.moment.z = 0) := by
  have ha : Aero.totalAOAOf f.v = .ok 0 := by rw [hv]; exact aoa_axial z hz
  rcases h with h | h | ⟨so, ti, h⟩
  · obtain ⟨w, cp, a', fr, p, -, e1, h0, -, -, -, rfl⟩ := (noseForce_iff ..).1 h
    obtain rfl := Except.ok.inj (ha.symm.trans e1)
    refine ⟨?_, ?_, rfl, rfl, fun hw => ?_⟩
    · simp [assembled]
    · simp [assembled]
    · simp [assembled, rollMoment, hw]
  · obtain ⟨w, vol, cp, a', fr, p, -, e1, h0, -, -, rfl⟩ := (transForce_iff ..).1 h
    obtain rfl := Except.ok.inj (ha.symm.trans e1)
    refine ⟨?_, ?_, rfl, rfl, fun hw => ?_⟩
    · simp [assembled]
    · simp [assembled]
    · simp [assembled, rollMoment, hw]
  · obtain ⟨w, vol, cp, a', fr, p, -, e1, h0, -, -, base, -, -, rfl⟩ := (boatTailForce_iff ..).1 h
    obtain rfl := Except.ok.inj (ha.symm.trans e1)
    refine ⟨?_, ?_, rfl, rfl, fun hw => ?_⟩
    · simp [assembled]
    · simp [assembled]
    · simp [assembled, rollMoment, hw]

/-! ## Energy -/

/-- ordinary flight data: positive reference area and fineness ratio, density, Mach number and roughness not negative -/
structure Ordinary (s : Ship) (f : Flow) (roughness : ℝ) : Prop where
  aref : 0 < s.aref
  fineness : ∀ fr, s.fineness = some fr → 0 < fr
  rho : 0 ≤ f.rho
  mach : 0 ≤ f.mach
  rough : 0 ≤ roughness

theorem frictionCd_nonneg (s : Ship) (f : Flow) (len roughness wetted fr : ℝ) (h : Ordinary s f roughness) (hl : 0 < len)
    (hw : 0 ≤ wetted) (hf : 0 < fr) : 0 ≤ frictionCd s f len roughness wetted fr := by
  have := friction_nonneg (f.unitRe * len) len f.mach roughness s.turbulent hl h.rough h.mach
  have h1 := h.aref
  unfold frictionCd
  positivity

theorem rollMoment_opposes (s : Ship) (f : Flow) (len wetted cd : ℝ) (hc : 0 ≤ cd) (hr : 0 ≤ f.rho) (hA : 0 < s.aref) :
    f.omega.z * rollMoment s f len wetted cd ≤ 0 := by
  unfold rollMoment
  have h1 : 0 ≤ cd * f.rho * s.aref / 2 * (wetted / len / (2 * Real.pi)) ^ 2 *
      Real.sqrt (f.v.length ^ 2 + (wetted / len / (2 * Real.pi) * f.omega.z) ^ 2) := by positivity
  have h2 := mul_nonneg h1 (mul_self_nonneg f.omega.z)
  linarith

theorem assembled_brakes (f : Flow) (aref a cd cn : ℝ) (cp : V3 ℝ) (roll : ℝ) (hc : 0 ≤ cd) (hA : 0 < aref) (hr : 0 ≤ f.rho) :
    (assembled f aref a cd cn cp roll).force.z ≤ 0 := by
  have h1 := (dragToAxial_range a).1
  have h2 : 0 ≤ f.q := by unfold Flow.q; positivity
  simp only [assembled]
  have : 0 ≤ dragToAxial a * cd * aref * f.q := by positivity
  linarith

theorem nose_wetted_nonneg (n : Nose) (w : ℝ) (hD : 0 < n.baseDiameter) (hL : 1 / 2 ≤ n.aspectRatio) (h : n.wetted = .ok w) : 0 ≤ w := by
  have hlen : n.baseDiameter / 2 ≤ n.length := by unfold Nose.length; nlinarith
  cases hs : n.shape with
  | tangentOgive =>
    obtain ⟨w', h1, h2, -⟩ := n.ogive_wetted hs hD hlen
    obtain rfl := Except.ok.inj (h.symm.trans h1)
    refine le_trans (mul_nonneg Real.pi_pos.le ?_) h2
    unfold sectionArea
    obtain ⟨-, s0, -, smono, -⟩ := n.ogive_shape hs hD hlen
    apply intervalIntegral.integral_nonneg (by linarith)
    intro x hx
    rcases eq_or_lt_of_le hx.1 with h0 | h0
    · rw [← h0, s0]; norm_num
    · have := smono 0 x le_rfl h0 hx.2
      linarith
  | cone =>
    unfold Nose.wetted at h
    rw [hs] at h
    obtain rfl := Except.ok.inj h
    positivity
  | halfSeries => unfold Nose.wetted at h; rw [hs] at h; cases h
  | other => unfold Nose.wetted at h; rw [hs] at h; cases h

theorem trans_wetted_nonneg (t : Trans) (w vol : ℝ) (cp : V3 ℝ) (hs : 0 ≤ t.startDiameter) (he : 0 ≤ t.endDiameter) (hl : 0 ≤ t.length)
    (h : t.geometry = .ok (w, vol, cp)) : 0 ≤ w ∧ (t.length = 0 → w = 0) := by
  rcases eq_or_lt_of_le hl with h0 | h0
  · unfold Trans.geometry at h
    rw [if_pos h0.symm] at h
    cases h
    exact ⟨le_rfl, fun _ => rfl⟩
  · refine ⟨?_, fun h' => absurd h' h0.ne'⟩
    rw [((t.geometry_wetted h0 hs he).2 w vol cp h).1]
    unfold lateralArea
    apply intervalIntegral.integral_nonneg h0.le
    intro x hx
    have hr : 0 ≤ t.coneRadius x := by
      have h1 : 0 ≤ x / t.length := div_nonneg hx.1 h0.le
      have h2 : x / t.length ≤ 1 := by rw [div_le_one h0]; exact hx.2
      have : t.coneRadius x = (x / t.length * t.endDiameter + (1 - x / t.length) * t.startDiameter) / 2 := by
        unfold Trans.coneRadius; ring
      rw [this]
      have h3 : 0 ≤ 1 - x / t.length := by linarith
      positivity
    positivity

/-- **C84.** A nose cone brakes and damps roll. -/
theorem nose_brakes (n : Nose) (roughness : ℝ) (s : Ship) (f : Flow) (F : FMS ℝ) (ho : Ordinary s f roughness)
    (hD : 0 < n.baseDiameter) (hL : 1 / 2 ≤ n.aspectRatio) (h : noseForce n roughness s f = .ok F) :
    F.force.z ≤ 0 ∧ f.omega.z * F.moment.z ≤ 0 := by
  obtain ⟨w, cp, a, fr, p, hb, ha, hA, hfr, -, hp, rfl⟩ := (noseForce_iff ..).1 h
  obtain ⟨_, _, -, -, hw, -, -⟩ := (build_ok_iff ..).1 hb
  have hw := nose_wetted_nonneg n w hD hL hw
  have hlen : 0 < n.baseDiameter * n.aspectRatio := by positivity
  have hc := frictionCd_nonneg s f _ roughness w fr ho hlen hw (ho.fineness fr hfr)
  have hA := ho.aref
  have hpos : 0 < n.baseDiameter / 2 / (n.baseDiameter * n.aspectRatio) := by positivity
  have hat : 0 < Real.arctan (n.baseDiameter / 2 / (n.baseDiameter * n.aspectRatio)) := by
    rw [← Real.arctan_zero]; exact Real.arctan_strictMono hpos
  have hp0 := (conePressure_nonneg _ f.mach p (abs_pos.2 hat.ne') (by
    rw [abs_of_pos hat]; exact (Real.arctan_lt_pi_div_two _).le) ho.mach hp).1
  refine ⟨assembled_brakes f s.aref a _ _ cp _ ?_ hA ho.rho, rollMoment_opposes s f _ w _ hc ho.rho hA⟩
  have : 0 ≤ p * (n.baseDiameter ^ 2 * Real.pi / 4) / s.aref := by positivity
  linarith

/-- **C84.** So do transitions and boat tails. -/
theorem below_brakes (t : Trans) (roughness : ℝ) (s : Ship) (f : Flow) (F : FMS ℝ) (ho : Ordinary s f roughness)
    (hs : 0 ≤ t.startDiameter) (he : 0 ≤ t.endDiameter) (hl : 0 ≤ t.length) (h : BelowForce roughness s f t F) :
    F.force.z ≤ 0 ∧ f.omega.z * F.moment.z ≤ 0 := by
  have hA := ho.aref
  have hfc : ∀ w vol cp fr, t.geometry = .ok (w, vol, cp) → (w ≠ 0 → t.length ≠ 0 ∧ s.fineness = some fr ∧ fr ≠ 0) →
      0 ≤ frictionCd s f t.length roughness w fr := by
    intro w vol cp fr hg hw
    obtain ⟨w0, -⟩ := trans_wetted_nonneg t w vol cp hs he hl hg
    by_cases hw0 : w = 0
    · rw [hw0, frictionCd_zero]
    · obtain ⟨a1, a2, -⟩ := hw hw0
      exact frictionCd_nonneg s f t.length roughness w fr ho (lt_of_le_of_ne hl (Ne.symm a1)) w0 (ho.fineness fr a2)
  have hbase := (baseDrag_range f.mach ho.mach).1
  rcases h with h | ⟨so, ti, h⟩
  · obtain ⟨w, vol, cp, a, fr, p, hg, -, -, hp, hw, rfl⟩ := (transForce_iff ..).1 h
    have hc := hfc w vol cp fr hg hw
    refine ⟨assembled_brakes f s.aref a _ _ cp _ ?_ hA ho.rho, rollMoment_opposes s f _ w _ hc ho.rho hA⟩
    have hp0 : 0 ≤ p := by
      unfold Trans.pressureCd at hp
      split at hp
      · cases hk : t.cdFactor with
        | none => rw [hk] at hp; cases hp
        | some k =>
          rw [hk] at hp
          obtain rfl := Except.ok.inj hp
          exact mul_nonneg hbase.le ((t.drag_defined.1 k hk).1)
      · rename_i hne
        cases hk : t.halfAngle with
        | none => rw [hk] at hp; cases hp
        | some b =>
          rw [hk] at hp
          have hb : 0 < b ∧ b ≤ Real.pi / 2 := by
            unfold Trans.halfAngle at hk
            split at hk
            · cases hk
            · rename_i hlt
              split at hk
              · obtain rfl := Option.some.inj hk
                exact ⟨by positivity, le_rfl⟩
              · rename_i hl0
                obtain rfl := Option.some.inj hk
                refine ⟨?_, (Real.arctan_lt_pi_div_two _).le⟩
                rw [← Real.arctan_zero]
                apply Real.arctan_strictMono
                have : 0 < t.length := lt_of_le_of_ne hl (Ne.symm hl0)
                have : 0 < |t.startDiameter - t.endDiameter| := abs_pos.2 (by linarith [not_le.1 hlt])
                positivity
          exact (conePressure_nonneg b f.mach p hb.1 hb.2 ho.mach hp).1
    have : 0 ≤ p * (|t.startDiameter ^ 2 * Real.pi / 4 - t.endDiameter ^ 2 * Real.pi / 4| / s.aref) := by positivity
    linarith
  · obtain ⟨w, vol, cp, a, fr, k, hg, -, -, hk, hw, base, b1, b2, rfl⟩ := (boatTailForce_iff ..).1 h
    have hc := hfc w vol cp fr hg hw
    refine ⟨assembled_brakes f s.aref a _ _ cp _ ?_ hA ho.rho, rollMoment_opposes s f _ w _ hc ho.rho hA⟩
    have hk0 := (t.drag_defined.1 k hk).1
    have hb0 : 0 ≤ base := by
      by_cases hx : ∀ off, so = some off → off < ti
      · rw [b1 hx]; positivity
      · push Not at hx
        rw [b2 hx]
    have : 0 ≤ baseDragCd f.mach * (k * |t.startDiameter ^ 2 * Real.pi / 4 - t.endDiameter ^ 2 * Real.pi / 4| + base) / s.aref := by
      positivity
    linarith

/-- **C84.** The air takes energy from a closed hull that flies nose first, and damps its roll: narrowing components alone push with the
lateral wind, but less than the components above them push against it. -/
theorem hull_dissipates (n : Nose) (roughness : ℝ) (s : Ship) (f : Flow) (F0 : FMS ℝ)
    (h0 : noseForce n roughness s f = .ok F0) (ts : List Trans) (Fs : List (FMS ℝ)) (hF : List.Forall₂ (BelowForce roughness s f) ts Fs)
    (hfit : Fits n.baseDiameter ts) (ho : Ordinary s f roughness) (hD : 0 < n.baseDiameter)
    (hL : 1 / 2 ≤ n.aspectRatio)
    (hts : ∀ t ∈ ts, 0 ≤ t.startDiameter ∧ 0 ≤ t.endDiameter ∧ 0 ≤ t.length) (hz : f.v.z ≤ 0) :
    dot (F0.force + (Fs.map FMS.force).sum) (-f.v) ≤ 0 ∧ f.omega.z * (F0.moment + (Fs.map FMS.moment).sum).z ≤ 0 := by
  obtain ⟨a, ha⟩ := aoa_ok f.v
  obtain ⟨hx, hy⟩ := hull_normal n roughness s f a ha F0 h0 ts Fs hF hfit
  obtain ⟨b1, b2⟩ := nose_brakes n roughness s f F0 ho hD hL h0
  have hall : ∀ (ts : List Trans) (Fs : List (FMS ℝ)), List.Forall₂ (BelowForce roughness s f) ts Fs →
      (∀ t ∈ ts, 0 ≤ t.startDiameter ∧ 0 ≤ t.endDiameter ∧ 0 ≤ t.length) →
      (Fs.map FMS.force).sum.z ≤ 0 ∧ f.omega.z * (Fs.map FMS.moment).sum.z ≤ 0 := by
    intro ts Fs h
    induction h with
    | nil => intro _; simp
    | cons h1 h2 ih =>
      rename_i t F ts Fs
      intro hts
      obtain ⟨i1, i2⟩ := ih (fun t ht => hts t (List.mem_cons_of_mem _ ht))
      obtain ⟨t1, t2, t3⟩ := hts t List.mem_cons_self
      obtain ⟨j1, j2⟩ := below_brakes t roughness s f F ho t1 t2 t3 h1
      simp only [List.map_cons, List.sum_cons, add_z]
      constructor
      · linarith
      · rw [mul_add]; linarith
  obtain ⟨k1, k2⟩ := hall ts Fs hF hts
  constructor
  · have hzz : (F0.force + (Fs.map FMS.force).sum).z ≤ 0 := by rw [add_z]; linarith
    obtain ⟨hnz, -, -, -, hdot⟩ := normal_spec f.v
    have hsin : 0 ≤ Real.sin a := Real.sin_nonneg_of_nonneg_of_le_pi (aoa_range f.v a ha).1 (aoa_range f.v a ha).2
    have hq : 0 ≤ f.q := by
      unfold Flow.q
      have := ho.rho
      positivity
    unfold dot at hdot ⊢
    rw [hnz, mul_zero, add_zero] at hdot
    rw [hx, hy]
    simp only [neg_x, neg_y, neg_z]
    have e1 : 0 ≤ 2 * Real.sin a * ((lastDiameter n.baseDiameter ts) ^ 2 * Real.pi / 4) * f.q * Real.sqrt (f.v.x ^ 2 + f.v.y ^ 2) := by
      positivity
    rw [← hdot] at e1
    have e2 : 0 ≤ (-(F0.force + (Fs.map FMS.force).sum).z) * (-f.v.z) := mul_nonneg (by linarith) (by linarith)
    linarith
  · rw [add_z, mul_add]; linarith

/-! ## Centre of pressure of a set of components -/

/-- **C84.** The centre of pressure the simulation reports is the mean of the components' centres of pressure, weighted with their normal
forces, wherever moments are taken: for components on the axis pushing along a common lateral direction, with rolling moments only. -/
theorem cp_weighted (nx ny c : ℝ) (hn : nx ^ 2 + ny ^ 2 = 1) (parts : List (ℝ × ℝ × ℝ × ℝ)) (hsum : (parts.map fun p => p.1).sum ≠ 0) :
    cpz ((parts.map fun p => (⟨⟨p.1 * nx, p.1 * ny, p.2.1⟩, ⟨0, 0, p.2.2.1⟩, ⟨0, 0, p.2.2.2⟩⟩ : FMS ℝ)).foldl FMS.add
      (FMS.make 0 (some ⟨0, 0, c⟩) none)) = (parts.map fun p => p.1 * p.2.2.1).sum / (parts.map fun p => p.1).sum := by
  set G : ℝ × ℝ × ℝ × ℝ → FMS ℝ := fun p => ⟨⟨p.1 * nx, p.1 * ny, p.2.1⟩, ⟨0, 0, p.2.2.1⟩, ⟨0, 0, p.2.2.2⟩⟩ with hG
  set T := (parts.map G).foldl FMS.add (FMS.make 0 (some ⟨0, 0, c⟩) none) with hT
  obtain ⟨e1, e2, e3⟩ := foldl_fms (parts.map G) (FMS.make 0 (some ⟨0, 0, c⟩) none)
  rw [← hT] at e1 e2 e3
  set N := (parts.map fun p => p.1).sum with hN
  have hl : T.loc = ⟨0, 0, c⟩ := e1
  have fx : T.force.x = N * nx := by
    rw [e2, add_x, Inertia.sum_x, List.map_map, List.map_map, hN, ← List.sum_map_mul_right]
    simp [FMS.make, hG, Function.comp_def]
  have fy : T.force.y = N * ny := by
    rw [e2, add_y, Inertia.sum_y, List.map_map, List.map_map, hN, ← List.sum_map_mul_right]
    simp [FMS.make, hG, Function.comp_def]
  have lin : ∀ (l : List (ℝ × ℝ × ℝ × ℝ)) (k : ℝ), (l.map fun p => k * ((p.2.2.1 - c) * p.1)).sum =
      k * ((l.map fun p => p.1 * p.2.2.1).sum - c * (l.map fun p => p.1).sum) := by
    intro l k
    induction l with
    | nil => simp
    | cons a l ih => simp only [List.map_cons, List.sum_cons, ih]; ring
  have ml : (FMS.make (0 : V3 ℝ) (some ⟨0, 0, c⟩) none).loc = ⟨0, 0, c⟩ := rfl
  have mx : T.moment.x = -ny * ((parts.map fun p => p.1 * p.2.2.1).sum - c * N) := by
    rw [e3, add_x, Inertia.sum_x, List.map_map, List.map_map, ml, hN, ← lin]
    have : (parts.map (((fun x : V3 ℝ => x.x) ∘ (fun f : FMS ℝ => f.momentAbout ⟨0, 0, c⟩)) ∘ G)) =
        parts.map fun p => -ny * ((p.2.2.1 - c) * p.1) := by
      apply List.map_congr_left; intro p _; simp [hG, FMS.momentAbout, cross]; ring
    rw [this]; simp [FMS.make]
  have my : T.moment.y = nx * ((parts.map fun p => p.1 * p.2.2.1).sum - c * N) := by
    rw [e3, add_y, Inertia.sum_y, List.map_map, List.map_map, ml, hN, ← lin]
    have : (parts.map (((fun x : V3 ℝ => x.y) ∘ (fun f : FMS ℝ => f.momentAbout ⟨0, 0, c⟩)) ∘ G)) =
        parts.map fun p => nx * ((p.2.2.1 - c) * p.1) := by
      apply List.map_congr_left; intro p _; simp [hG, FMS.momentAbout, cross]; ring
    rw [this]; simp [FMS.make]
  have hne : ¬ (T.force.x = 0 ∧ T.force.y = 0) := by
    rintro ⟨h1, h2⟩
    rw [fx] at h1
    rw [fy] at h2
    have a1 := (mul_eq_zero.1 h1).resolve_left hsum
    have a2 := (mul_eq_zero.1 h2).resolve_left hsum
    rw [a1, a2] at hn
    norm_num at hn
  symm
  apply ((cpz_spec T).2 hne).2
  have hz : ((parts.map fun p => p.1 * p.2.2.1).sum / N) * N = (parts.map fun p => p.1 * p.2.2.1).sum := div_mul_cancel₀ _ hsum
  simp only [FMS.getAt, dot, cross, add_x, add_y, add_z, sub_x, sub_y, sub_z, hl, mx, my, fx, fy]
  set M := (parts.map fun p => p.1 * p.2.2.1).sum / N
  rw [← hz]
  have : nx * nx + ny * ny = 1 := by nlinarith
  linear_combination (-(c - M) * N * N + (c - M) * N * N) * this

/-! ## Witnesses and violations -/

/-- **C84** violated: a transition between equal diameters cannot be flown: with a length it cannot be built, without one it fails in
flight. A boat tail that widens fails in flight. -/
theorem straight_transition_violated (t : Trans) (roughness : ℝ) (s : Ship) (f : Flow) (shutOff : Option ℝ) (time : ℝ) (hA : s.aref ≠ 0) :
    (t.startDiameter = t.endDiameter → t.length ≠ 0 → transForce t roughness s f = .error .zeroDivision) ∧
    (t.startDiameter = t.endDiameter → t.length = 0 → transForce t roughness s f = .error .attributeError) ∧
    (t.startDiameter < t.endDiameter → ∀ F, boatTailForce t roughness s f shutOff time ≠ .ok F) := by
  refine ⟨?_, ?_, ?_⟩
  · intro h hl
    have : t.geometry = .error .zeroDivision := by
      unfold Trans.geometry
      rw [if_neg hl]
      dsimp only
      rw [if_pos]
      rw [h, max_self, min_self, sub_self, zero_div]
    unfold transForce
    rw [this]
    rfl
  · intro h hl
    have hg : t.geometry = .ok (0, 0, t.position) := by
      unfold Trans.geometry
      rw [if_pos hl]
    obtain ⟨a, ha⟩ := aoa_ok f.v
    have hc := (barrowmanCN_ok_iff a s.aref t.topArea t.bottomArea _).2 ⟨hA, rfl⟩
    have hp := (Trans.drag_defined t).2.2 f.mach h
    unfold transForce
    rw [hg, ha]
    simp only [bind, Except.bind]
    rw [hc]
    dsimp only
    rw [hp]
  · intro h F hF
    obtain ⟨w, vol, cp, a', fr, k, -, -, -, hk, -⟩ := (boatTailForce_iff ..).1 hF
    unfold Trans.cdFactor at hk
    dsimp only at hk
    rw [if_neg (not_le.2 h)] at hk
    cases hk

/-- **C84** violated: a nose cone (and with it every rocket that has one) cannot be evaluated at exactly Mach 1. -/
theorem sonic_nose_violated (n : Nose) (roughness : ℝ) (s : Ship) (f : Flow) (hD : n.baseDiameter ≠ 0) (hL : n.aspectRatio ≠ 0)
    (hm : f.mach = 1) (F : FMS ℝ) : noseForce n roughness s f ≠ .ok F := by
  intro h
  obtain ⟨w, cp, a, fr, p, -, -, -, -, -, hp, -⟩ := (noseForce_iff ..).1 h
  rw [hm, sonic_violated] at hp
  · cases hp
  · have : n.baseDiameter / 2 / (n.baseDiameter * n.aspectRatio) ≠ 0 := by positivity
    have h1 : Real.arctan (n.baseDiameter / 2 / (n.baseDiameter * n.aspectRatio)) ≠ 0 := by
      intro h0
      exact this (by rw [← Real.arctan_zero] at h0; exact Real.arctan_injective h0)
    have h2 := Real.arctan_lt_pi_div_two (n.baseDiameter / 2 / (n.baseDiameter * n.aspectRatio))
    have h3 := Real.neg_pi_div_two_lt_arctan (n.baseDiameter / 2 / (n.baseDiameter * n.aspectRatio))
    have h4 : |Real.arctan (n.baseDiameter / 2 / (n.baseDiameter * n.aspectRatio))| < Real.pi / 2 := abs_lt.2 ⟨by linarith, h2⟩
    exact (Real.sin_pos_of_pos_of_lt_pi (abs_pos.2 h1) (by linarith [Real.pi_pos])).ne'

/-- a pencil-like rocket: ogive nose, boat tail -/
noncomputable def exNose : Nose := ⟨5, 0.1, .tangentOgive⟩
/-- its boat tail -/
noncomputable def exTail : Trans := ⟨0.1, 0.06, 0.2, ⟨0, 0, -2⟩⟩
/-- its reference area and fineness ratio -/
noncomputable def exShip : Ship := ⟨0.0078, some 20, true⟩
/-- a climb at Mach 0.5 with some angle of attack and roll -/
noncomputable def exFlow : Flow := ⟨⟨3, 0, -170⟩, 1.2, 0.5, 1e7, ⟨0, 0, 5⟩⟩

theorem ex_nose : ∃ F, noseForce exNose 0 exShip exFlow = .ok F := by
  obtain ⟨a, ha⟩ := aoa_ok exFlow.v
  have hl : exNose.length = 0.5 := by norm_num [Nose.length, exNose]
  obtain ⟨hvol, hpl⟩ := exNose.ogive_volume rfl (by norm_num [exNose]) (by rw [hl]; norm_num [exNose])
  obtain ⟨w, hw, -⟩ := exNose.ogive_wetted rfl (by norm_num [exNose]) (by rw [hl]; norm_num [exNose])
  have hpos : 0 < Real.arctan (exNose.baseDiameter / 2 / (exNose.baseDiameter * exNose.aspectRatio)) := by
    rw [← Real.arctan_zero]; apply Real.arctan_strictMono; norm_num [exNose]
  obtain ⟨p, t, -, hp, -⟩ := conePressure_joint |Real.arctan (exNose.baseDiameter / 2 / (exNose.baseDiameter * exNose.aspectRatio))|
    (abs_pos.2 hpos.ne') (by rw [abs_of_pos hpos]; exact (Real.arctan_lt_pi_div_two _).le)
  exact ⟨_, (noseForce_iff ..).2 ⟨w, _, a, 20, _, (build_ok_iff ..).2 ⟨_, _, hvol, hpl, hw, by norm_num [exNose], rfl⟩, ha,
    by norm_num [exShip], rfl, by norm_num, hp 0.5 (by norm_num), rfl⟩⟩

theorem ex_tail : ∃ F, boatTailForce exTail 0 exShip exFlow (some 3) 5 = .ok F := by
  obtain ⟨a, ha⟩ := aoa_ok exFlow.v
  obtain ⟨w, c, hg, -⟩ := exTail.narrowing (by norm_num [exTail]) (by norm_num [exTail]) (by norm_num [exTail])
  have hk : ∃ k, exTail.cdFactor = some k := by
    unfold Trans.cdFactor
    dsimp only
    rw [if_pos (by norm_num [exTail])]
    exact ⟨_, rfl⟩
  obtain ⟨k, hk⟩ := hk
  refine ⟨_, (boatTailForce_iff ..).2 ⟨w, _, c, a, 20, k, hg, ha, by norm_num [exShip], hk,
    fun _ => ⟨by norm_num [exTail], rfl, by norm_num⟩, exTail.endDiameter ^ 2 * Real.pi / 4, fun _ => rfl, ?_, rfl⟩⟩
  rintro ⟨off, h1, h2⟩
  obtain rfl := Option.some.inj h1
  norm_num at h2

/-- hypotheses of `hull_normal` and `hull_dissipates` -/
example : ∃ F0 F1, dot (F0.force + F1.force) (-exFlow.v) ≤ 0 ∧ noseForce exNose 0 exShip exFlow = .ok F0 ∧
    boatTailForce exTail 0 exShip exFlow (some 3) 5 = .ok F1 := by
  obtain ⟨F0, h0⟩ := ex_nose
  obtain ⟨F1, h1⟩ := ex_tail
  refine ⟨F0, F1, ?_, h0, h1⟩
  have := (hull_dissipates exNose 0 exShip exFlow F0 h0 [exTail] [F1] (.cons (.inr ⟨some 3, 5, h1⟩) .nil)
    ⟨by norm_num [exTail, exNose], trivial⟩
    ⟨by norm_num [exShip], fun fr h => by cases h; norm_num, by norm_num [exFlow], by norm_num [exFlow], le_rfl⟩ (by norm_num [exNose]) (by norm_num [exNose])
    (by
      intro t ht
      rw [List.mem_singleton] at ht
      subst ht
      norm_num [exTail, exFlow]) (by norm_num [exFlow])).1
  simpa using this

/-- hypotheses of `cp_weighted`: nose lift 2 at -0.3, fin lift 6 at -1.9 -/
example : ([(2, 0, -0.3, 0), (6, -1, -1.9, 0.5)].map fun p : ℝ × ℝ × ℝ × ℝ => p.1).sum ≠ 0 := by norm_num

end Mapleaf.Rocket
