import Verif.Rocket.DampProps
import Verif.Rocket.CoeffProps

/-!
# C42, C43, C44: forces from coefficients, centre of pressure, body tubes

`v` is the velocity of the air relative to the rocket in the rocket's frame: the rocket moves at `-v` through the air, and the power the
air puts into the rocket by a force `F` is `dot F (-v)`.
-/

namespace Mapleaf.Rocket
open Mapleaf.Motion V3

/-! ## The normal direction -/

theorem lateral_length (v : V3 ℝ) : (⟨v.x, v.y, 0⟩ : V3 ℝ).length = Real.sqrt (v.x ^ 2 + v.y ^ 2) := by
  unfold V3.length; congr 1; ring

/-- **C43.** The normal direction is a unit vector across the axis, along the lateral air velocity. -/
theorem normal_spec (v : V3 ℝ) :
    (Aero.normalOf v).z = 0 ∧ (Aero.normalOf v).x ^ 2 + (Aero.normalOf v).y ^ 2 = 1 ∧
    Real.sqrt (v.x ^ 2 + v.y ^ 2) * (Aero.normalOf v).x = v.x ∧ Real.sqrt (v.x ^ 2 + v.y ^ 2) * (Aero.normalOf v).y = v.y ∧
    dot v (Aero.normalOf v) = Real.sqrt (v.x ^ 2 + v.y ^ 2) := by
  unfold Aero.normalOf
  by_cases h : v.x = 0 ∧ v.y = 0
  · rw [if_pos h, h.1, h.2]
    simp [dot, h.1, h.2]
  · rw [if_neg h]
    have hne : (⟨v.x, v.y, 0⟩ : V3 ℝ) ≠ 0 := by
      intro h0
      exact h ⟨congrArg V3.x h0, congrArg V3.y h0⟩
    obtain ⟨n1, -, n3⟩ := V3.normalize_spec (⟨v.x, v.y, 0⟩ : V3 ℝ)
    have n1 := n1 hne
    have hl : (⟨v.x, v.y, 0⟩ : V3 ℝ).length ≠ 0 := fun h0 => hne ((V3.length_zero_iff _).1 h0)
    rw [lateral_length] at n3 hl
    have ex := congrArg V3.x n3
    have ey := congrArg V3.y n3
    have ez := congrArg V3.z n3
    simp only [smul_x, smul_y, smul_z] at ex ey ez
    have hz : (V3.normalize (⟨v.x, v.y, 0⟩ : V3 ℝ)).z = 0 := by
      rcases mul_eq_zero.1 ez with h0 | h0
      · exact h0
      · exact absurd h0 hl
    have hsq := V3.length_sq (V3.normalize (⟨v.x, v.y, 0⟩ : V3 ℝ))
    rw [n1] at hsq
    simp only [dot, hz] at hsq
    set n := V3.normalize (⟨v.x, v.y, 0⟩ : V3 ℝ)
    have hs2 : Real.sqrt (v.x ^ 2 + v.y ^ 2) * Real.sqrt (v.x ^ 2 + v.y ^ 2) = v.x ^ 2 + v.y ^ 2 := Real.mul_self_sqrt (by positivity)
    refine ⟨hz, by nlinarith, by rw [mul_comm]; exact ex, by rw [mul_comm]; exact ey, ?_⟩
    unfold dot
    rw [hz]
    have : v.x * n.x + v.y * n.y = Real.sqrt (v.x ^ 2 + v.y ^ 2) * (n.x ^ 2 + n.y ^ 2) := by
      calc v.x * n.x + v.y * n.y = (n.x * Real.sqrt (v.x ^ 2 + v.y ^ 2)) * n.x + (n.y * Real.sqrt (v.x ^ 2 + v.y ^ 2)) * n.y := by
            rw [ex, ey]
        _ = _ := by ring
    have h1 : n.x ^ 2 + n.y ^ 2 = 1 := by nlinarith
    rw [h1] at this
    linarith

theorem aoa_ok (v : V3 ℝ) : ∃ a, Aero.totalAOAOf v = .ok a := by
  unfold Aero.totalAOAOf
  by_cases h : v.length = 0
  · rw [if_pos h]; exact ⟨_, rfl⟩
  · rw [if_neg h]
    have hv : v ≠ 0 := fun h0 => h ((V3.length_zero_iff v).2 h0)
    have hz : (⟨0, 0, -1⟩ : V3 ℝ) ≠ 0 := by
      intro h0
      have := congrArg V3.z h0
      simp at this
    obtain ⟨θ, h1, _⟩ := (V3.angle_spec v ⟨0, 0, -1⟩).2 hv hz
    exact ⟨θ, h1⟩

/-! ## Drag and normal force -/

/-- **C43.** `forceFromCdCN` never fails; its force has axial component `-factor * Cd` and lateral component `CN` along the lateral air
velocity, both times dynamic pressure and reference area; location and moment are those given. -/
theorem cdcn_spec (v : V3 ℝ) (rho cd cn : ℝ) (cp : V3 ℝ) (refArea : ℝ) (moment : Option (V3 ℝ)) :
    ∃ a f, Aero.totalAOAOf v = .ok a ∧ forceFromCdCN v rho cd cn cp refArea moment = .ok f ∧
      f.force.z = -(dragToAxial a * cd * refArea * (v.length ^ 2 * rho / 2)) ∧
      f.force.x = cn * refArea * (v.length ^ 2 * rho / 2) * (Aero.normalOf v).x ∧
      f.force.y = cn * refArea * (v.length ^ 2 * rho / 2) * (Aero.normalOf v).y ∧
      f.loc = cp ∧ f.moment = moment.getD 0 := by
  obtain ⟨a, ha⟩ := aoa_ok v
  refine ⟨a, FMS.make (dynPressure v rho • (refArea • ((⟨0, 0, -(dragToAxial a * cd)⟩ : V3 ℝ) + cn • Aero.normalOf v))) (some cp) moment,
    ha, ?_, ?_⟩
  · unfold forceFromCdCN
    rw [ha]
  · obtain ⟨hz, _⟩ := normal_spec v
    simp only [FMS.make, smul_x, smul_y, smul_z, add_x, add_y, add_z, hz, dynPressure, Option.getD_some]
    refine ⟨by ring, by ring, by ring, trivial, ?_⟩
    cases moment <;> rfl

/-- **C43.** Flying nose first, drag and normal force take energy from the rocket. -/
theorem forward_drag_dissipates (v : V3 ℝ) (rho cd cn : ℝ) (cp : V3 ℝ) (refArea : ℝ) (moment : Option (V3 ℝ)) (f : FMS ℝ)
    (hf : forceFromCdCN v rho cd cn cp refArea moment = .ok f) (hz : v.z ≤ 0) (hr : 0 ≤ rho) (hd : 0 ≤ cd) (hn : 0 ≤ cn)
    (ha : 0 ≤ refArea) : dot f.force (-v) ≤ 0 := by
  obtain ⟨a, f', -, h2, fz, fx, fy, -⟩ := cdcn_spec v rho cd cn cp refArea moment
  rw [hf] at h2
  obtain rfl : f = f' := Except.ok.inj h2
  obtain ⟨-, -, -, -, hdot⟩ := normal_spec v
  have hnz := (normal_spec v).1
  have hfac := (dragToAxial_range a).1
  unfold dot at hdot ⊢
  rw [hnz] at hdot
  rw [fx, fy, fz]
  simp only [neg_x, neg_y, neg_z]
  set q := v.length ^ 2 * rho / 2
  have hq : 0 ≤ q := by positivity
  have h1 : 0 ≤ cn * refArea * q * Real.sqrt (v.x ^ 2 + v.y ^ 2) := by positivity
  have h2 : 0 ≤ dragToAxial a * cd * refArea * q * (-v.z) := by
    have : 0 ≤ -v.z := by linarith
    positivity
  have e : cn * refArea * q * (Aero.normalOf v).x * -v.x + cn * refArea * q * (Aero.normalOf v).y * -v.y +
      -(dragToAxial a * cd * refArea * q) * -v.z =
      -(cn * refArea * q * (v.x * (Aero.normalOf v).x + v.y * (Aero.normalOf v).y + v.z * 0)) -
      dragToAxial a * cd * refArea * q * (-v.z) := by ring
  rw [e, hdot]
  linarith

/-- **C43** violated: flying tail first (air arriving from behind, angle of attack 180 degrees) the "drag" pulls the rocket along. -/
theorem backward_drag_violated (v : V3 ℝ) (rho cd cn : ℝ) (cp : V3 ℝ) (refArea : ℝ) (moment : Option (V3 ℝ)) (f : FMS ℝ)
    (hf : forceFromCdCN v rho cd cn cp refArea moment = .ok f) (hx : v.x = 0) (hy : v.y = 0) (hz : 0 < v.z) (hr : 0 < rho)
    (hd : 0 < cd) (ha : 0 < refArea) : 0 < dot f.force (-v) := by
  obtain ⟨a, f', -, h2, fz, fx, fy, -⟩ := cdcn_spec v rho cd cn cp refArea moment
  rw [hf] at h2
  obtain rfl : f = f' := Except.ok.inj h2
  have hfac := (dragToAxial_range a).1
  have hl : 0 < v.length := by
    rcases lt_or_eq_of_le (V3.length_nonneg v) with h | h
    · exact h
    · have := congrArg V3.z ((V3.length_zero_iff v).1 h.symm)
      simp at this
      linarith
  unfold dot
  rw [fz]
  simp only [neg_x, neg_y, neg_z, hx, hy]
  have : 0 < dragToAxial a * cd * refArea * (v.length ^ 2 * rho / 2) * v.z := by positivity
  linarith

/-! ## Drag and lift -/

/-- **C43.** With drag and lift coefficients: in general position (air neither along nor across the axis to within the tolerance of
`angle`) the component along the air velocity is `Cd q A`, the rest is perpendicular to it with magnitude `|Cl| q A`, in the plane of
the air velocity and the normal direction; the moment is `q A L (CMx, CMy, CMz)`. -/
theorem lift_drag_spec (v : V3 ℝ) (rho cd cl cmx cmy cmz : ℝ) (cp : V3 ℝ) (refArea refLength : ℝ)
    (hr : rho ≠ 0) (hax : cross v (Aero.normalOf v) ≠ 0) (hgen : v.angle (Aero.normalOf v) ≠ .ok 0) :
    ∃ f lift, forceFromCoefficients v rho cd cl cmx cmy cmz cp refArea refLength = .ok f ∧
      f.force = (v.length ^ 2 * rho / 2 * refArea) • (cd • v.normalize + cl • lift) ∧
      dot v lift = 0 ∧ lift.length = 1 ∧ dot lift (cross v (Aero.normalOf v)) = 0 ∧ 0 < dot lift (Aero.normalOf v) ∧
      f.loc = cp ∧ f.moment = (v.length ^ 2 * rho / 2 * refArea * refLength) • (⟨cmx, cmy, cmz⟩ : V3 ℝ) := by
  set n := Aero.normalOf v with hn
  have hv : v ≠ 0 := by
    intro h0
    apply hax
    rw [h0]; ext <;> simp [cross]
  obtain ⟨hnz, hn1, -, -, -⟩ := normal_spec v
  rw [← hn] at hnz hn1
  have hnl : n.length = 1 := by
    have := V3.length_sq n
    simp only [dot, hnz] at this
    nlinarith [V3.length_nonneg n]
  have hn0 : n ≠ 0 := by
    intro h0
    rw [h0, (V3.length_zero_iff 0).2 rfl] at hnl
    exact absurd hnl (by norm_num)
  have hvl : 0 < v.length := lt_of_le_of_ne (V3.length_nonneg v) (fun h => hv ((V3.length_zero_iff v).1 h.symm))
  have hq : dynPressure v rho ≠ 0 := by unfold dynPressure; positivity
  obtain ⟨θ, hθ, t0, tpi, -, hang⟩ := (V3.angle_spec v n).2 hv hn0
  have hθE : θ = InnerProductGeometry.angle (toE v) (toE n) := by
    rcases hang with h | h
    · exact h
    · rw [h.1] at hθ; exact absurd hθ hgen
  have hcos : dot v n = v.length * Real.cos θ := by
    rw [hθE, InnerProductGeometry.cos_angle, ← dot_eq_inner, ← length_eq_norm, ← length_eq_norm, hnl]
    field_simp
  -- the axis
  set w := cross v n with hw
  have hwl : 0 < w.length := lt_of_le_of_ne (V3.length_nonneg w) (fun h => hax ((V3.length_zero_iff w).1 h.symm))
  have hww : w.length * w.length = v.length * v.length * (Real.sin θ) ^ 2 := by
    have h1 := (cross_laws v n v n (0 : ℝ)).2.2.2.2.2.2.2.2.1
    have h2 := V3.length_sq v
    have h3 := V3.length_sq n
    rw [V3.length_sq, hw, h1, (dot_laws n v 0 (0 : ℝ)).1, ← h2, ← h3, hnl, hcos, Real.sin_sq]
    ring
  have hs0 : 0 ≤ Real.sin θ := Real.sin_nonneg_of_nonneg_of_le_pi t0 tpi
  have hwl2 : w.length = v.length * Real.sin θ := by
    have : w.length ^ 2 = (v.length * Real.sin θ) ^ 2 := by rw [mul_pow]; nlinarith
    exact (pow_left_inj₀ hwl.le (by positivity) (by norm_num)).1 this
  have hspos : 0 < Real.sin θ := by
    rw [hwl2] at hwl
    exact (mul_pos_iff_of_pos_left hvl).1 hwl
  set u := w.normalize with hu
  obtain ⟨u1, -, u3⟩ := V3.normalize_spec w
  rw [← hu] at u1 u3
  have u1 := u1 hax
  obtain ⟨-, ⟨r, hrot⟩, -⟩ := Quat.axisAngle_rotates w (Real.pi / 2 - θ) hax n
  rw [← hu] at hrot
  set lift := Quat.rodrigues u (Real.pi / 2 - θ) n with hlift
  -- orthogonality facts
  have hun : dot u n = 0 := by
    have h1 : dot n w = 0 := (cross_laws v n n n (0 : ℝ)).2.2.2.2.2.2.1
    have h2 : w.length * dot u n = dot (w.length • u) n := ((dot_laws u n 0 w.length).2.2.1).symm
    rw [u3, (dot_laws w n 0 (0 : ℝ)).1, h1] at h2
    rcases mul_eq_zero.1 h2 with h | h
    · exact absurd h hwl.ne'
    · exact h
  have huv : dot u v = 0 := by
    have h1 : dot v w = 0 := (cross_laws v n n n (0 : ℝ)).2.2.2.2.2.1
    have h2 : w.length * dot u v = dot (w.length • u) v := ((dot_laws u v 0 w.length).2.2.1).symm
    rw [u3, (dot_laws w v 0 (0 : ℝ)).1, h1] at h2
    rcases mul_eq_zero.1 h2 with h | h
    · exact absurd h hwl.ne'
    · exact h
  have huw : dot u w = w.length := by
    have h2 : dot u (w.length • u) = w.length * dot u u := by
      rw [(dot_laws u (w.length • u) 0 (0 : ℝ)).1, (dot_laws u u 0 w.length).2.2.1]
    rw [u3, ← V3.length_sq, u1] at h2
    linarith
  have hle : lift = Real.sin θ • n + Real.cos θ • cross u n := by
    rw [hlift, Quat.rodrigues, hun, Real.cos_pi_div_two_sub, Real.sin_pi_div_two_sub]
    ext <;> simp
  have hvun : dot v (cross u n) = -w.length := by
    rw [← huw]
    have := (cross_laws v u n n (0 : ℝ)).2.2.2.2.2.2.2.1
    rw [this, hw, (cross_laws n v v v (0 : ℝ)).1]
    simp only [dot, neg_x, neg_y, neg_z]; ring
  have hdl : ∀ x : V3 ℝ, dot x lift = Real.sin θ * dot x n + Real.cos θ * dot x (cross u n) := by
    intro x; rw [hle]; simp only [dot, add_x, add_y, add_z, smul_x, smul_y, smul_z]; ring
  have hnun : dot n (cross u n) = 0 := by simp only [dot, cross]; ring
  have huun : dot u (cross u n) = 0 := by simp only [dot, cross]; ring
  have hlunit : dot lift lift = 1 := by
    have h1 : dot lift n = Real.sin θ := by
      rw [(dot_laws lift n 0 (0 : ℝ)).1, hdl, hnun, ← V3.length_sq, hnl]; ring
    have h2 : dot lift (cross u n) = Real.cos θ := by
      rw [(dot_laws lift _ 0 (0 : ℝ)).1, hdl, (dot_laws (cross u n) n 0 (0 : ℝ)).1, hnun]
      have h3 := (cross_laws u n u n (0 : ℝ)).2.2.2.2.2.2.2.2.1
      rw [h3, ← V3.length_sq, ← V3.length_sq, u1, hnl, hun]; ring
    rw [hdl, h1, h2]
    nlinarith [Real.sin_sq_add_cos_sq θ]
  refine ⟨FMS.make ((dynPressure v rho * refArea) • (cd • v.normalize + cl • lift)) (some cp)
    (some (refLength • ((dynPressure v rho * refArea) • (⟨cmx, cmy, cmz⟩ : V3 ℝ)))), lift, ?_, ?_, ?_, ?_, ?_, ?_, rfl, ?_⟩
  · unfold forceFromCoefficients
    dsimp only
    rw [if_neg hq, ← hn, hθ]
    simp only [← hw, hrot]
  · simp only [FMS.make, dynPressure]
    congr 1; ring
  · rw [hdl, hcos, hvun, hwl2]; ring
  · have := V3.length_sq lift
    rw [hlunit] at this
    nlinarith [V3.length_nonneg lift]
  · rw [(dot_laws lift _ 0 (0 : ℝ)).1, hdl]
    have e1 : dot w n = 0 := by rw [hw]; simp only [dot, cross]; ring
    have e2 : dot w (cross u n) = 0 := by
      rw [← u3]
      have := (dot_laws u (cross u n) 0 w.length).2.2.1
      rw [this, huun, mul_zero]
    rw [e1, e2]; ring
  · rw [(dot_laws lift n 0 (0 : ℝ)).1, hdl, hnun, ← V3.length_sq, hnl]
    linarith
  · simp only [FMS.make, Option.getD_some, dynPressure]
    ext <;> simp <;> ring

/-- **C43** violated: with the air exactly across the axis (angle of attack 90 degrees) the lift is added along the drag. -/
theorem lift_across_violated (v : V3 ℝ) (rho cd cl : ℝ) (cp : V3 ℝ) (refArea refLength : ℝ) (hv : v ≠ 0) (hz : v.z = 0) (hr : rho ≠ 0) :
    ∃ f, forceFromCoefficients v rho cd cl 0 0 0 cp refArea refLength = .ok f ∧
      f.force = (v.length ^ 2 * rho / 2 * refArea * (cd + cl)) • v.normalize := by
  have hxy : ¬ (v.x = 0 ∧ v.y = 0) := by
    rintro ⟨h1, h2⟩
    exact hv (V3.ext' h1 h2 hz)
  have hn : Aero.normalOf v = v.normalize := by
    unfold Aero.normalOf
    rw [if_neg hxy]
    congr 1
    ext <;> simp [hz]
  have hvl : 0 < v.length := lt_of_le_of_ne (V3.length_nonneg v) (fun h => hv ((V3.length_zero_iff v).1 h.symm))
  have hq : dynPressure v rho ≠ 0 := by unfold dynPressure; positivity
  have hnn := (V3.normalize_spec v).1 hv
  have hsc := (V3.normalize_spec v).2.2
  have hne : v.normalize ≠ 0 := by
    intro h0
    rw [h0, (V3.length_zero_iff 0).2 rfl] at hnn
    exact absurd hnn (by norm_num)
  have hcr : cross v v.normalize = 0 := by
    have : cross v v.normalize = cross (v.length • v.normalize) v.normalize := by rw [hsc]
    rw [this]
    ext <;> simp [cross] <;> ring
  obtain ⟨θ, hθ, t0, tpi, -, -⟩ := (V3.angle_spec v v.normalize).2 hv hne
  have haz : Quat.axisAngle (0 : V3 ℝ) (Real.pi / 2 - θ) = ⟨Real.cos ((Real.pi / 2 - θ) / 2), 0, 0, 0⟩ := by
    unfold Quat.axisAngle
    rw [(V3.normalize_spec 0).2.1 rfl]
    simp
  have hc : 0 < Real.cos ((Real.pi / 2 - θ) / 2) := by
    apply Real.cos_pos_of_mem_Ioo
    constructor <;> linarith [Real.pi_pos]
  have hqne : (⟨Real.cos ((Real.pi / 2 - θ) / 2), 0, 0, 0⟩ : Quat ℝ) ≠ Quat.zeroQ := by
    intro h0
    exact hc.ne' (congrArg Quat.q0 h0)
  have hrot := Quat.rotate_eq_rotF _ v.normalize hqne
  have hrf : (⟨Real.cos ((Real.pi / 2 - θ) / 2), 0, 0, 0⟩ : Quat ℝ).rotF v.normalize = v.normalize := by
    unfold Quat.rotF
    have hc' := hc.ne'
    generalize Real.cos ((Real.pi / 2 - θ) / 2) = c at hc'
    ext <;> simp [Quat.sandwich, Quat.mul, Quat.conj, Quat.nsq] <;> field_simp
  refine ⟨FMS.make ((dynPressure v rho * refArea) • (cd • v.normalize + cl • v.normalize)) (some cp)
    (some (refLength • ((dynPressure v rho * refArea) • (⟨0, 0, 0⟩ : V3 ℝ)))), ?_, ?_⟩
  · unfold forceFromCoefficients
    dsimp only
    rw [if_neg hq, hn, hθ, hcr]
    simp only [haz, hrot, hrf]
  · simp only [FMS.make, dynPressure]
    ext <;> simp <;> ring

/-! ## Centre of pressure -/

/-- **C44.** The reported centre of pressure: moving the force there leaves no moment about the axis perpendicular to the normal force
and the rocket's axis. Without normal force it is the force's own location. -/
theorem cpz_spec (f : FMS ℝ) :
    (f.force.x = 0 ∧ f.force.y = 0 → cpz f = f.loc.z) ∧
    (¬ (f.force.x = 0 ∧ f.force.y = 0) →
      dot (f.getAt ⟨f.loc.x, f.loc.y, cpz f⟩).moment ⟨f.force.y, -f.force.x, 0⟩ = 0 ∧
      ∀ z, dot (f.getAt ⟨f.loc.x, f.loc.y, z⟩).moment ⟨f.force.y, -f.force.x, 0⟩ = 0 → z = cpz f) := by
  set nrm : V3 ℝ := ⟨f.force.x, f.force.y, 0⟩ with hnrm
  constructor
  · rintro ⟨h1, h2⟩
    unfold cpz
    dsimp only
    rw [if_pos]
    rw [V3.length_zero_iff]
    exact V3.ext' h1 h2 rfl
  · intro h
    have hne : nrm ≠ 0 := fun h0 => h ⟨congrArg V3.x h0, congrArg V3.y h0⟩
    have hl : nrm.length ≠ 0 := fun h0 => hne ((V3.length_zero_iff _).1 h0)
    have hsc := (V3.normalize_spec nrm).2.2
    have ex : nrm.normalize.x * nrm.length = f.force.x := congrArg V3.x hsc
    have ey : nrm.normalize.y * nrm.length = f.force.y := congrArg V3.y hsc
    have hll : nrm.length * nrm.length = f.force.x * f.force.x + f.force.y * f.force.y := by
      rw [V3.length_sq]; simp [dot, hnrm]
    have hpos : 0 < f.force.x * f.force.x + f.force.y * f.force.y := by
      rw [← hll]; exact mul_self_pos.2 hl
    have hc : cpz f = f.loc.z - (f.moment.x * f.force.y - f.moment.y * f.force.x) / (nrm.length * nrm.length) := by
      unfold cpz
      dsimp only
      rw [← hnrm, if_neg hl]
      have : dot f.moment (cross nrm.normalize ⟨0, 0, 1⟩) = f.moment.x * nrm.normalize.y - f.moment.y * nrm.normalize.x := by
        simp only [dot, cross]; ring
      rw [this, ← ex, ← ey]
      field_simp
    have hgen : ∀ z, dot (f.getAt ⟨f.loc.x, f.loc.y, z⟩).moment ⟨f.force.y, -f.force.x, 0⟩ =
        (f.moment.x * f.force.y - f.moment.y * f.force.x) - (f.loc.z - z) * (nrm.length * nrm.length) := by
      intro z
      rw [hll]
      simp only [FMS.getAt, dot, cross, add_x, add_y, add_z, sub_x, sub_y, sub_z]
      ring
    constructor
    · rw [hgen, hc]
      field_simp
      ring
    · intro z hz
      rw [hgen] at hz
      rw [hc]
      field_simp
      linarith

/-- **C44.** Barrowman centre of pressure of a tapering body: inside the component exactly if the volume is between the prisms on its
smaller and larger end. -/
theorem barrowmanCP_inside {K : Type} [Field K] [LinearOrder K] [IsStrictOrderedRing K] (len at' ab vol : K) (top : V3 K) (hne : at' ≠ ab) :
    (barrowmanCP len at' ab vol top).x = top.x ∧ (barrowmanCP len at' ab vol top).y = top.y ∧
    ((top.z - len ≤ (barrowmanCP len at' ab vol top).z ∧ (barrowmanCP len at' ab vol top).z ≤ top.z) ↔
      (len * at' ≤ vol ∧ vol ≤ len * ab ∧ at' < ab) ∨ (len * ab ≤ vol ∧ vol ≤ len * at' ∧ ab < at')) := by
  unfold barrowmanCP
  dsimp only
  rw [if_neg hne]
  refine ⟨rfl, rfl, ?_⟩
  rcases lt_or_gt_of_ne hne with h | h
  · have hp : 0 < ab - at' := by linarith
    rw [sub_le_sub_iff_left, div_le_iff₀ hp, sub_le_self_iff, le_div_iff₀ hp]
    constructor
    · rintro ⟨h1, h2⟩; left; refine ⟨by linarith, by linarith, h⟩
    · rintro (⟨h1, h2, h3⟩ | ⟨h1, h2, h3⟩)
      · constructor <;> linarith
      · exact absurd h3 (not_lt.2 h.le)
  · have hp : ab - at' < 0 := by linarith
    rw [sub_le_sub_iff_left, div_le_iff_of_neg hp, sub_le_self_iff, le_div_iff_of_neg hp]
    constructor
    · rintro ⟨h1, h2⟩; right; refine ⟨by linarith, by linarith, h⟩
    · rintro (⟨h1, h2, h3⟩ | ⟨h1, h2, h3⟩)
      · exact absurd h3 (not_lt.2 h.le)
      · constructor <;> linarith

/-- **C44.** Cutting a body in two: the normal force coefficients add up, and the normal force moments about the top add up, as long as
pieces with equal end areas are prisms (and volumes add up). -/
theorem barrowman_split {K : Type} [Field K] [DecidableEq K] (l1 l2 a b c v1 v2 : K) (top : V3 K)
    (h1 : a = b → v1 = l1 * a) (h2 : b = c → v2 = l2 * b) (h3 : a = c → v1 + v2 = (l1 + l2) * a) :
    (c - a) * (top.z - (barrowmanCP (l1 + l2) a c (v1 + v2) top).z) =
      (b - a) * (top.z - (barrowmanCP l1 a b v1 top).z) +
      (c - b) * (top.z - (barrowmanCP l2 b c v2 ⟨top.x, top.y, top.z - l1⟩).z) := by
  have key : ∀ (l p q v t : K), (p = q → v = l * p) →
      (q - p) * (if p = q then l / 2 else (l * q - v) / (q - p)) = l * q - v := by
    intro l p q v t h
    split
    · rename_i e
      rw [h e, e]; ring
    · rename_i e
      have : q - p ≠ 0 := sub_ne_zero.2 (Ne.symm e)
      field_simp
  have k1 := key l1 a b v1 0 h1
  have k2 := key l2 b c v2 0 h2
  have k3 := key (l1 + l2) a c (v1 + v2) 0 h3
  unfold barrowmanCP
  dsimp only
  linear_combination k3 - k1 - k2

/-- **C44.** and the coefficients themselves -/
theorem barrowmanCN_split (aoa aref a b c : ℝ) (x y : ℝ) (hx : barrowmanCN aoa aref a b = .ok x) (hy : barrowmanCN aoa aref b c = .ok y) :
    barrowmanCN aoa aref a c = .ok (x + y) := by
  unfold barrowmanCN at *
  split at hx
  · cases hx
  · rename_i h
    rw [if_neg h] at hy
    rw [if_neg h]
    simp only [Except.ok.injEq] at hx hy ⊢
    rw [← hx, ← hy]; ring

/-! ## Body tubes -/

/-- **C42.** The whole body tube: it can be evaluated exactly if the reference area, the length and the rocket's fineness ratio are not
zero; its own moment takes energy from the rotation and, nose first, its force takes energy from the motion. -/
theorem bodyTube_dissipates (position cg omega v : V3 ℝ) (rho len diameter aref cf : ℝ) (fineness : Option ℝ) :
    ((∃ f, bodyTubeForce position cg omega v rho len diameter aref cf fineness = .ok f) ↔
      (∃ fr, fineness = some fr ∧ fr ≠ 0) ∧ aref ≠ 0 ∧ len ≠ 0) ∧
    (∀ f fr, bodyTubeForce position cg omega v rho len diameter aref cf fineness = .ok f → fineness = some fr →
      0 < fr → 0 < len → 0 < diameter → 0 < aref → 0 < rho → 0 ≤ cf →
      dot omega f.moment ≤ 0 ∧ (v.z ≤ 0 → dot f.force (-v) ≤ 0) ∧ f.loc = position - ⟨0, 0, len / 2⟩) := by
  obtain ⟨a, ha⟩ := aoa_ok v
  have hroll := roll_damping cf len (Real.pi * diameter * len) aref fineness omega v.length rho
  constructor
  · rw [← hroll.1]
    unfold bodyTubeForce
    rw [ha]
    dsimp only
    constructor
    · rintro ⟨f, hf⟩
      split at hf
      · exact absurd hf (by simp)
      · split at hf
        · exact absurd hf (by simp)
        · rename_i r h2
          exact ⟨_, h2⟩
    · intro hex
      have h0 := (hroll.1.1 hex).2.1
      obtain ⟨⟨cd, m⟩, hr⟩ := hex
      rw [if_neg h0, hr]
      obtain ⟨_, f, _, h2, _⟩ := cdcn_spec v rho cd (1.1 * Real.sin a ^ 2 * (diameter * len / aref)) (position - ⟨0, 0, len / 2⟩) aref
        (some (longitudinalDamping position cg omega len diameter rho 25 + m))
      exact ⟨f, h2⟩
  · intro f fr hf hfr f1 f2 f3 f4 f5 f6
    unfold bodyTubeForce at hf
    rw [ha] at hf
    dsimp only at hf
    rw [if_neg f4.ne'] at hf
    split at hf
    · exact absurd hf (by simp)
    · rename_i cd m hcm
      obtain ⟨fr', e1, -, -, -, -, hall⟩ := hroll.2 cd m hcm
      obtain rfl : fr = fr' := Option.some.inj (hfr.symm.trans e1)
      obtain ⟨hcd, hpow⟩ := hall f6 f1 (by positivity) f4 f5.le
      obtain ⟨_, f', _, h2, _, _, _, hloc, hmom⟩ := cdcn_spec v rho cd (1.1 * Real.sin a ^ 2 * (diameter * len / aref))
        (position - ⟨0, 0, len / 2⟩) aref (some (longitudinalDamping position cg omega len diameter rho 25 + m))
      rw [hf] at h2
      obtain rfl : f = f' := Except.ok.inj h2
      refine ⟨?_, ?_, hloc⟩
      · rw [hmom]
        have h1 := (tube_dissipative position cg omega len diameter rho 25 f2 f3 f5).1
        have h3 : dot omega ((some (longitudinalDamping position cg omega len diameter rho 25 + m)).getD 0) =
            dot omega (longitudinalDamping position cg omega len diameter rho 25) + dot omega m := by
          simp only [Option.getD_some, dot, add_x, add_y, add_z]; ring
        rw [h3]; linarith
      · intro hz
        exact forward_drag_dissipates v rho cd _ _ aref _ f hf hz f5.le hcd (by positivity) f4.le

/-! ## Witnesses -/

/-- hypotheses of `lift_drag_spec` can be met: 45 degrees angle of attack -/
example : cross (⟨1, 0, -1⟩ : V3 ℝ) (Aero.normalOf ⟨1, 0, -1⟩) ≠ 0 := by
  have h := normal_spec (⟨1, 0, -1⟩ : V3 ℝ)
  obtain ⟨hz, h1, h2, h3, _⟩ := h
  intro h0
  have := congrArg V3.y h0
  simp only [cross, zero_y] at this
  rw [hz] at this
  have hx : (Aero.normalOf (⟨1, 0, -1⟩ : V3 ℝ)).x = 0 := by linarith
  rw [hx] at h2
  norm_num at h2

/-- hypotheses of `barrowmanCP_inside`: a cone of length 3 and base area 1 has its centre of pressure two thirds down -/
example : barrowmanCP (3 : ℚ) 0 1 1 ⟨0, 0, 0⟩ = ⟨0, 0, -2⟩ := by decide +kernel
example : (3 : ℚ) * 0 ≤ 1 ∧ (1 : ℚ) ≤ 3 * 1 := by norm_num

/-- hypotheses of `backward_drag_violated` -/
example : ∃ f, forceFromCdCN ⟨0, 0, 10⟩ 1.2 0.5 0 0 0.01 none = .ok f := by
  obtain ⟨_, f, _, h, _⟩ := cdcn_spec ⟨0, 0, 10⟩ 1.2 0.5 0 0 0.01 none
  exact ⟨f, h⟩

end Mapleaf.Rocket
