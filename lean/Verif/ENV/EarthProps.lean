import Verif.ENV.EarthModel
import Verif.Motion.QuatProps
import Mathlib.Analysis.SpecialFunctions.Complex.Arg
import Mathlib.Analysis.SpecialFunctions.Trigonometric.ArctanDeriv
import Mathlib.Analysis.SpecialFunctions.Sqrt

/-!
# C38: earth models (the spherical earth and gravity; the ellipsoid is in `WgsProps`)
-/

namespace Mapleaf.ENV
open Mapleaf.Motion V3

theorem atan2_cos (y x : ℝ) : Real.sqrt (x * x + y * y) * Real.cos (Quat.atan2 y x) = x := by
  have h := Complex.norm_mul_cos_arg (x + y * Complex.I)
  rw [Complex.norm_add_mul_I] at h
  simp only [sq] at h
  unfold Quat.atan2
  rw [h]; simp

theorem atan2_sin (y x : ℝ) : Real.sqrt (x * x + y * y) * Real.sin (Quat.atan2 y x) = y := by
  have h := Complex.norm_mul_sin_arg (x + y * Complex.I)
  rw [Complex.norm_add_mul_I] at h
  simp only [sq] at h
  unfold Quat.atan2
  rw [h]; simp

theorem atan2_polar (r θ : ℝ) (hr : 0 < r) (h1 : -Real.pi < θ) (h2 : θ ≤ Real.pi) :
    Quat.atan2 (r * Real.sin θ) (r * Real.cos θ) = θ := by
  refine Eq.trans ?_ (Complex.arg_mul_cos_add_sin_mul_I hr ⟨h1, h2⟩)
  unfold Quat.atan2
  congr 1
  push_cast
  ring

theorem atan2_polar_mod (r θ : ℝ) (hr : 0 < r) :
    ∃ k : ℤ, Quat.atan2 (r * Real.sin θ) (r * Real.cos θ) = θ + 2 * Real.pi * k := by
  have := Complex.arg_mul_cos_add_sin_mul_I_sub hr θ
  refine ⟨⌊(Real.pi - θ) / (2 * Real.pi)⌋, ?_⟩
  rw [← this]
  unfold Quat.atan2
  rw [add_sub_cancel]
  congr 1
  push_cast
  ring

theorem degrees_radians (d : ℝ) : degrees (radians d) = d := by
  unfold degrees radians; field_simp

theorem radians_degrees (r : ℝ) : radians (degrees r) = r := by
  unfold degrees radians; field_simp

theorem lat_range {lat : ℝ} (h1 : -90 ≤ lat) (h2 : lat ≤ 90) :
    -(Real.pi / 2) ≤ radians lat ∧ radians lat ≤ Real.pi / 2 := by
  unfold radians
  constructor <;> nlinarith [Real.pi_pos]

theorem lat_range_strict {lat : ℝ} (h1 : -90 < lat) (h2 : lat < 90) :
    -(Real.pi / 2) < radians lat ∧ radians lat < Real.pi / 2 := by
  unfold radians
  constructor <;> nlinarith [Real.pi_pos]

namespace Sphere

/-- **C38.** Spherical earth, geodetic → cartesian → geodetic: for every latitude between the poles (inclusive), every
longitude, height above the centre and time, latitude and height come back exactly; away from the poles the longitude comes
back up to whole turns, and exactly when the turned meridian lies in (−180°, 180°] (always so at time 0 for a longitude in
that range). -/
theorem sphere_geodetic_roundtrip (lat lon h t : ℝ) (h1 : -90 ≤ lat) (h2 : lat ≤ 90) (hh : -radius < h) :
    let g := cartesianToGeodetic (geodeticToCartesian lat lon h t) t
    g.1 = lat ∧ g.2.2 = h ∧
    (-90 < lat → lat < 90 → (∃ k : ℤ, g.2.1 = lon + 360 * k) ∧
      (-Real.pi < radians lon + rotationRate * t → radians lon + rotationRate * t ≤ Real.pi → g.2.1 = lon)) := by
  intro g
  have hr : 0 < radius + h := by linarith
  obtain ⟨r1, r2⟩ := lat_range h1 h2
  have hc : 0 ≤ Real.cos (radians lat) := Real.cos_nonneg_of_neg_pi_div_two_le_of_le r1 r2
  set φ := radians lat with hφ
  set lam := radians lon + rotationRate * t with hlam
  have hp : Real.sqrt ((radius + h) * Real.cos φ * Real.cos lam * ((radius + h) * Real.cos φ * Real.cos lam) +
      (radius + h) * Real.cos φ * Real.sin lam * ((radius + h) * Real.cos φ * Real.sin lam)) =
      (radius + h) * Real.cos φ := by
    rw [show (radius + h) * Real.cos φ * Real.cos lam * ((radius + h) * Real.cos φ * Real.cos lam) +
      (radius + h) * Real.cos φ * Real.sin lam * ((radius + h) * Real.cos φ * Real.sin lam) =
      ((radius + h) * Real.cos φ) ^ 2 * (Real.sin lam ^ 2 + Real.cos lam ^ 2) by ring, Real.sin_sq_add_cos_sq, mul_one]
    exact Real.sqrt_sq (mul_nonneg hr.le hc)
  have hr2 : Real.sqrt ((radius + h) * Real.cos φ * Real.cos lam * ((radius + h) * Real.cos φ * Real.cos lam) +
      (radius + h) * Real.cos φ * Real.sin lam * ((radius + h) * Real.cos φ * Real.sin lam) +
      (radius + h) * Real.sin φ * ((radius + h) * Real.sin φ)) = radius + h := by
    rw [show (radius + h) * Real.cos φ * Real.cos lam * ((radius + h) * Real.cos φ * Real.cos lam) +
      (radius + h) * Real.cos φ * Real.sin lam * ((radius + h) * Real.cos φ * Real.sin lam) +
      (radius + h) * Real.sin φ * ((radius + h) * Real.sin φ) =
      (radius + h) ^ 2 * (Real.sin φ ^ 2 + Real.cos φ ^ 2 * (Real.sin lam ^ 2 + Real.cos lam ^ 2)) by ring,
      Real.sin_sq_add_cos_sq, mul_one, Real.sin_sq_add_cos_sq, mul_one]
    exact Real.sqrt_sq hr.le
  have e1 : g.1 = degrees (Quat.atan2 ((radius + h) * Real.sin φ) ((radius + h) * Real.cos φ)) := by
    show degrees (Quat.atan2 ((radius + h) * Real.sin φ) (Real.sqrt _)) = _
    congr 2
  have hpi := Real.pi_pos
  refine ⟨?_, ?_, ?_⟩
  · rw [e1, atan2_polar _ _ hr (by linarith) (by linarith), hφ, degrees_radians]
  · show Real.sqrt _ - radius = h
    have := hr2
    simp only [geodeticToCartesian]
    rw [this]; ring
  · intro s1 s2
    obtain ⟨q1, q2⟩ := lat_range_strict s1 s2
    have hcp : 0 < (radius + h) * Real.cos φ := mul_pos hr (Real.cos_pos_of_mem_Ioo ⟨q1, q2⟩)
    have e2 : g.2.1 = degrees (Quat.atan2 ((radius + h) * Real.cos φ * Real.sin lam)
      ((radius + h) * Real.cos φ * Real.cos lam) - rotationRate * t) := rfl
    constructor
    · obtain ⟨k, hk⟩ := atan2_polar_mod _ lam hcp
      refine ⟨k, ?_⟩
      rw [e2, hk, hlam]
      unfold degrees radians
      field_simp
      ring
    · intro a1 a2
      rw [e2, atan2_polar _ _ hcp a1 a2, hlam, add_sub_cancel_right, degrees_radians]

/-- **C38.** Spherical earth, cartesian → geodetic → cartesian: every point comes back exactly, at every time. -/
theorem sphere_cartesian_roundtrip (v : V3 ℝ) (t : ℝ) :
    let g := cartesianToGeodetic v t
    geodeticToCartesian g.1 g.2.1 g.2.2 t = v := by
  intro g
  have c1 := atan2_cos v.y v.x
  have s1 := atan2_sin v.y v.x
  have c2 := atan2_cos v.z (Real.sqrt (v.x * v.x + v.y * v.y))
  have s2 := atan2_sin v.z (Real.sqrt (v.x * v.x + v.y * v.y))
  have hsq : Real.sqrt (v.x * v.x + v.y * v.y) * Real.sqrt (v.x * v.x + v.y * v.y) = v.x * v.x + v.y * v.y :=
    Real.mul_self_sqrt (by nlinarith [mul_self_nonneg v.x, mul_self_nonneg v.y])
  rw [hsq] at c2 s2
  have hl : radians g.2.1 + rotationRate * t = Quat.atan2 v.y v.x := by
    show radians (degrees (Quat.atan2 v.y v.x - rotationRate * t)) + rotationRate * t = _
    rw [radians_degrees]; ring
  have hp : radians g.1 = Quat.atan2 v.z (Real.sqrt (v.x * v.x + v.y * v.y)) := radians_degrees _
  have hh : radius + g.2.2 = Real.sqrt (v.x * v.x + v.y * v.y + v.z * v.z) := by
    show radius + (Real.sqrt _ - radius) = _
    ring
  unfold geodeticToCartesian
  simp only [hl, hp, hh]
  apply V3.ext'
  · show _ * _ * _ = _
    rw [c2, c1]
  · show _ * _ * _ = _
    rw [c2, s1]
  · exact s2

example : (cartesianToGeodetic (geodeticToCartesian (-90) 12 5 3) 3).1 = -90 :=
  (sphere_geodetic_roundtrip (-90) 12 5 3 (by norm_num) (by norm_num) (by unfold radius; norm_num)).1

/-- **C38.** At time `t` the surface has turned by the rotation rate times `t` about the polar axis. -/
theorem sphere_rotates (lat lon h t : ℝ) :
    let v := geodeticToCartesian lat lon h 0
    geodeticToCartesian lat lon h t =
      ⟨Real.cos (rotationRate * t) * v.x - Real.sin (rotationRate * t) * v.y,
        Real.sin (rotationRate * t) * v.x + Real.cos (rotationRate * t) * v.y, v.z⟩ := by
  unfold geodeticToCartesian
  apply V3.ext' <;> simp [Real.cos_add, Real.sin_add] <;> ring

/-- The altitude reported for a converted position is the height it was converted from. -/
theorem sphere_altitude (v : V3 ℝ) : altitude v = v.length - 6371007.1809 := rfl

/-- **C38.** The surface is a sphere of radius 6371007.1809 m: a point at height `h` lies at that distance plus `h` from the
centre. -/
theorem sphere_surface (lat lon h t : ℝ) (hh : -6371007.1809 ≤ h) :
    (geodeticToCartesian lat lon h t).length = 6371007.1809 + h := by
  unfold geodeticToCartesian V3.length
  rw [show (6371007.1809 + h : ℝ) = radius + h from rfl]
  have h0 : 0 ≤ radius + h := by unfold radius; linarith
  rw [← Real.sqrt_mul_self h0]
  apply congrArg Real.sqrt
  rw [Real.sqrt_mul_self h0]
  dsimp only
  linear_combination (radius + h) ^ 2 * (Real.cos (radians lat) ^ 2 *
    Real.sin_sq_add_cos_sq (radians lon + rotationRate * t) + Real.sin_sq_add_cos_sq (radians lat))

/-- **C38.** A sidereal day: after `2π / 7.292115e-5` s, or a whole number of times that, the Earth points the same way. -/
theorem sphere_day (lat lon h t : ℝ) (k : ℤ) :
    geodeticToCartesian lat lon h (t + k * (2 * Real.pi / 7.292115e-5)) = geodeticToCartesian lat lon h t := by
  unfold geodeticToCartesian
  have e : radians lon + rotationRate * (t + k * (2 * Real.pi / 7.292115e-5)) =
      radians lon + rotationRate * t + k * (2 * Real.pi) := by
    unfold rotationRate
    norm_num
    ring
  simp only [e, Real.cos_add_int_mul_two_pi, Real.sin_add_int_mul_two_pi]

/-- **C38.** Turning for time `t` is the same as moving east by `7.292115e-5 t` radians. -/
theorem sphere_turns_east (lat lon h t : ℝ) :
    geodeticToCartesian lat lon h t = geodeticToCartesian lat (lon + degrees (7.292115e-5 * t)) h 0 := by
  unfold geodeticToCartesian
  have e : radians (lon + degrees (7.292115e-5 * t)) + rotationRate * 0 = radians lon + rotationRate * t := by
    unfold radians degrees rotationRate
    have := Real.pi_ne_zero
    field_simp
    ring
  simp only [e]

example : (geodeticToCartesian 45 30 1000 7).length = 6371007.1809 + 1000 := sphere_surface _ _ _ _ (by norm_num)

/-! ## Local axes -/

theorem zaxis_normalize : (⟨0, 0, 1⟩ : V3 ℝ).normalize = ⟨0, 0, 1⟩ := by
  symm
  apply V3.normalize_unique
  · intro h; have := congrArg V3.z h; simp at this
  · have : (⟨0, 0, 1⟩ : V3 ℝ).length = 1 := by simp [V3.length]
    rw [this, one_smul]

theorem xaxis_normalize : (⟨1, 0, 0⟩ : V3 ℝ).normalize = ⟨1, 0, 0⟩ := by
  symm
  apply V3.normalize_unique
  · intro h; have := congrArg V3.x h; simp at this
  · have : (⟨1, 0, 0⟩ : V3 ℝ).length = 1 := by simp [V3.length]
    rw [this, one_smul]

theorem enuOf_nsq (lat lon : ℝ) : (enuOf lat lon).nsq = 1 := by
  unfold enuOf
  rw [Quat.nsq_mul, Quat.axisAngle_nsq, Quat.axisAngle_nsq, one_mul]
  · intro h; have := congrArg V3.x h; simp at this
  · intro h; have := congrArg V3.z h; simp at this

theorem enuOf_ne (lat lon : ℝ) : enuOf lat lon ≠ Quat.zeroQ := by
  rw [Ne, ← Quat.nsq_zero_iff, enuOf_nsq]; norm_num

/-- The rotation in terms of latitude `φ` and longitude `lam`: its columns are the east, north and up directions. -/
theorem enuOf_rotF (lat lon : ℝ) (v : V3 ℝ) :
    (enuOf lat lon).rotF v =
      ⟨-Real.sin (radians lon) * v.x - Real.sin (radians lat) * Real.cos (radians lon) * v.y +
          Real.cos (radians lat) * Real.cos (radians lon) * v.z,
        Real.cos (radians lon) * v.x - Real.sin (radians lat) * Real.sin (radians lon) * v.y +
          Real.cos (radians lat) * Real.sin (radians lon) * v.z,
        Real.cos (radians lat) * v.y + Real.sin (radians lat) * v.z⟩ := by
  have hz : (⟨0, 0, 1⟩ : V3 ℝ) ≠ 0 := by intro h; have := congrArg V3.z h; simp at this
  have hx : (⟨1, 0, 0⟩ : V3 ℝ) ≠ 0 := by intro h; have := congrArg V3.x h; simp at this
  unfold enuOf
  rw [Quat.rotF_mul]
  have r1 : ∀ (u : V3 ℝ) (hu : u ≠ 0) (θ : ℝ) (w : V3 ℝ), (Quat.axisAngle u θ).rotF w = Quat.rodrigues u.normalize θ w := by
    intro u hu θ w
    obtain ⟨_, ⟨r, hr⟩, _⟩ := Quat.axisAngle_rotates u θ hu w
    exact (Quat.rotate_ok hr).2.1.symm
  rw [r1 _ hz, r1 _ hx, zaxis_normalize, xaxis_normalize]
  have e1 : radians (lon + 90) = radians lon + Real.pi / 2 := by unfold radians; ring
  have e2 : radians (90 - lat) = Real.pi / 2 - radians lat := by unfold radians; ring
  rw [e1, e2]
  unfold Quat.rodrigues
  apply V3.ext' <;> simp [dot, cross, Real.cos_add_pi_div_two, Real.sin_add_pi_div_two,
    Real.cos_pi_div_two_sub, Real.sin_pi_div_two_sub] <;> ring

/-- **C38.** The local axes at any position off the polar axis, in terms of the position alone: the rotation carries the
x, y and z axes to the unit vectors pointing east (`ẑ × r`), north and up (radially outward). -/
theorem enu_axes (v : V3 ℝ) (h : v.x ≠ 0 ∨ v.y ≠ 0) :
    let p := Real.sqrt (v.x * v.x + v.y * v.y)
    let r := v.length
    (∃ q, (enuRotation v).rotate ⟨1, 0, 0⟩ = .ok (⟨-v.y / p, v.x / p, 0⟩, q)) ∧
    (∃ q, (enuRotation v).rotate ⟨0, 1, 0⟩ = .ok (⟨-(v.x * v.z) / (p * r), -(v.y * v.z) / (p * r), p / r⟩, q)) ∧
    (∃ q, (enuRotation v).rotate ⟨0, 0, 1⟩ = .ok (⟨v.x / r, v.y / r, v.z / r⟩, q)) := by
  intro p r
  have hpos : 0 < v.x * v.x + v.y * v.y := by
    rcases h with h | h
    · nlinarith [mul_self_pos.2 h, mul_self_nonneg v.y]
    · nlinarith [mul_self_pos.2 h, mul_self_nonneg v.x]
  have hp : 0 < p := Real.sqrt_pos.2 hpos
  have hr : 0 < r := Real.sqrt_pos.2 (by nlinarith [mul_self_nonneg v.z])
  have hp2 : p * p = v.x * v.x + v.y * v.y := Real.mul_self_sqrt hpos.le
  have c1 := atan2_cos v.y v.x
  have s1 := atan2_sin v.y v.x
  have c2 := atan2_cos v.z p
  have s2 := atan2_sin v.z p
  rw [hp2] at c2 s2
  change p * _ = _ at c1 s1
  change r * _ = _ at c2 s2
  have hl : radians (cartesianToGeodetic v 0).2.1 = Quat.atan2 v.y v.x := by
    show radians (degrees (Quat.atan2 v.y v.x - rotationRate * 0)) = _
    rw [radians_degrees]; ring
  have hphi : radians (cartesianToGeodetic v 0).1 = Quat.atan2 v.z p := radians_degrees _
  have cl : Real.cos (Quat.atan2 v.y v.x) = v.x / p := by rw [eq_div_iff hp.ne']; linarith
  have sl : Real.sin (Quat.atan2 v.y v.x) = v.y / p := by rw [eq_div_iff hp.ne']; linarith
  have cp : Real.cos (Quat.atan2 v.z p) = p / r := by rw [eq_div_iff hr.ne']; linarith
  have sp : Real.sin (Quat.atan2 v.z p) = v.z / r := by rw [eq_div_iff hr.ne']; linarith
  have key := fun w => enuOf_rotF (cartesianToGeodetic v 0).1 (cartesianToGeodetic v 0).2.1 w
  rw [hl, hphi, cl, sl, cp, sp] at key
  have hne := enuOf_ne (cartesianToGeodetic v 0).1 (cartesianToGeodetic v 0).2.1
  have fin : ∀ w u : V3 ℝ, (enuOf (cartesianToGeodetic v 0).1 (cartesianToGeodetic v 0).2.1).rotF w = u →
      ∃ q, (enuRotation v).rotate w = .ok (u, q) := by
    intro w u hwu
    exact ⟨(enuRotation v).scale (1 / (enuRotation v).norm), hwu ▸ Quat.rotate_eq_rotF (enuRotation v) w hne⟩
  refine ⟨fin _ _ ?_, fin _ _ ?_, fin _ _ ?_⟩
  · rw [key]; apply V3.ext' <;> simp <;> ring
  · rw [key]; apply V3.ext' <;> simp <;> field_simp
  · rw [key]; apply V3.ext' <;> simp <;> field_simp

/-- **C38.** Everywhere (poles and centre included) the axes are orthonormal and right handed, east is horizontal and
"up" is along the position. -/
theorem enu_frame (v : V3 ℝ) :
    ∃ e n u q1 q2 q3, (enuRotation v).rotate ⟨1, 0, 0⟩ = .ok (e, q1) ∧ (enuRotation v).rotate ⟨0, 1, 0⟩ = .ok (n, q2) ∧
      (enuRotation v).rotate ⟨0, 0, 1⟩ = .ok (u, q3) ∧
      e.length = 1 ∧ n.length = 1 ∧ u.length = 1 ∧ dot e n = 0 ∧ dot n u = 0 ∧ dot e u = 0 ∧ cross e n = u ∧
      e.z = 0 ∧ 0 ≤ n.z ∧ v.length • u = v := by
  have hne := enuOf_ne (cartesianToGeodetic v 0).1 (cartesianToGeodetic v 0).2.1
  set p := Real.sqrt (v.x * v.x + v.y * v.y) with hpdef
  have hp0 : 0 ≤ p := Real.sqrt_nonneg _
  have hp2 : p * p = v.x * v.x + v.y * v.y := Real.mul_self_sqrt (by nlinarith [mul_self_nonneg v.x, mul_self_nonneg v.y])
  have c1 := atan2_cos v.y v.x
  have s1 := atan2_sin v.y v.x
  have c2 := atan2_cos v.z p
  have s2 := atan2_sin v.z p
  rw [hp2] at c2 s2
  change p * _ = _ at c1 s1
  change v.length * _ = _ at c2 s2
  have hl : radians (cartesianToGeodetic v 0).2.1 = Quat.atan2 v.y v.x := by
    show radians (degrees (Quat.atan2 v.y v.x - rotationRate * 0)) = _
    rw [radians_degrees]; ring
  have hphi : radians (cartesianToGeodetic v 0).1 = Quat.atan2 v.z p := radians_degrees _
  have key : ∀ w, (enuRotation v).rotF w = _ :=
    fun w => enuOf_rotF (cartesianToGeodetic v 0).1 (cartesianToGeodetic v 0).2.1 w
  rw [hl, hphi] at key
  have hcos : 0 ≤ Real.cos (Quat.atan2 v.z p) := by
    unfold Quat.atan2
    have h := Complex.abs_arg_le_pi_div_two_iff (z := (p : ℂ) + v.z * Complex.I)
    have : |Complex.arg ((p : ℂ) + v.z * Complex.I)| ≤ Real.pi / 2 := h.2 (by simpa using hp0)
    rw [abs_le] at this
    exact Real.cos_nonneg_of_neg_pi_div_two_le_of_le this.1 this.2
  generalize Quat.atan2 v.z p = φ at *
  generalize Quat.atan2 v.y v.x = lam at *
  have t1 := Real.sin_sq_add_cos_sq lam
  have t2 := Real.sin_sq_add_cos_sq φ
  have len1 : ∀ w : V3 ℝ, w.x * w.x + w.y * w.y + w.z * w.z = 1 → w.length = 1 := by
    intro w hw; unfold V3.length; rw [hw]; exact Real.sqrt_one
  refine ⟨_, _, _, _, _, _, Quat.rotate_eq_rotF _ _ hne, Quat.rotate_eq_rotF _ _ hne, Quat.rotate_eq_rotF _ _ hne, ?_⟩
  rw [key, key, key]
  refine ⟨len1 _ ?_, len1 _ ?_, len1 _ ?_, ?_, ?_, ?_, ?_, ?_, ?_, ?_⟩
  · simp; nlinarith
  · simp
    have : Real.sin φ * Real.cos lam * (Real.sin φ * Real.cos lam) + Real.sin φ * Real.sin lam * (Real.sin φ * Real.sin lam) +
        Real.cos φ * Real.cos φ = Real.sin φ ^ 2 * (Real.sin lam ^ 2 + Real.cos lam ^ 2) + Real.cos φ ^ 2 := by ring
    rw [this, t1, mul_one, t2]
  · simp
    have : Real.cos φ * Real.cos lam * (Real.cos φ * Real.cos lam) + Real.cos φ * Real.sin lam * (Real.cos φ * Real.sin lam) +
        Real.sin φ * Real.sin φ = Real.cos φ ^ 2 * (Real.sin lam ^ 2 + Real.cos lam ^ 2) + Real.sin φ ^ 2 := by ring
    rw [this, t1, mul_one]; linarith
  · simp [dot]; ring
  · simp [dot]
    have : -(Real.sin φ * Real.cos lam * (Real.cos φ * Real.cos lam)) + -(Real.sin φ * Real.sin lam * (Real.cos φ * Real.sin lam)) +
        Real.cos φ * Real.sin φ = Real.sin φ * Real.cos φ * (1 - (Real.sin lam ^ 2 + Real.cos lam ^ 2)) := by ring
    rw [this, t1]; ring
  · simp [dot]; ring
  · apply V3.ext' <;> simp [cross] <;> try ring
    linear_combination Real.sin φ * t1
  · simp
  · simpa using hcos
  · apply V3.ext' <;> simp
    · rw [mul_comm, ← mul_assoc, c2, c1]
    · rw [mul_comm, ← mul_assoc, c2, s1]
    · rw [mul_comm]; exact s2

/-- **C38.** The north-east-down rotation carries the axes to north, east and down of the same position. -/
theorem ned_axes (v : V3 ℝ) :
    (nedRotation v).rotF ⟨1, 0, 0⟩ = (enuRotation v).rotF ⟨0, 1, 0⟩ ∧
    (nedRotation v).rotF ⟨0, 1, 0⟩ = (enuRotation v).rotF ⟨1, 0, 0⟩ ∧
    (nedRotation v).rotF ⟨0, 0, 1⟩ = (enuRotation v).rotF ⟨0, 0, -1⟩ ∧
    ∀ w, ∃ q, (nedRotation v).rotate w = .ok ((nedRotation v).rotF w, q) := by
  have hx : (⟨1, 1, 0⟩ : V3 ℝ) ≠ 0 := by intro h; have := congrArg V3.x h; simp at this
  have hlen : (⟨1, 1, 0⟩ : V3 ℝ).length = Real.sqrt 2 := by simp [V3.length]; norm_num
  have h2 : Real.sqrt 2 * Real.sqrt 2 = 2 := Real.mul_self_sqrt (by norm_num)
  have hs : Real.sqrt 2 ≠ 0 := by positivity
  have hn : (⟨1, 1, 0⟩ : V3 ℝ).normalize = ⟨1 / Real.sqrt 2, 1 / Real.sqrt 2, 0⟩ := by
    symm
    apply V3.normalize_unique _ _ hx
    rw [hlen]
    apply V3.ext' <;> simp [hs]
  have hh : (1 / Real.sqrt 2) * (1 / Real.sqrt 2) = 1 / 2 := by rw [div_mul_div_comm, h2]; norm_num
  have r1 : ∀ w : V3 ℝ, (Quat.axisAngle ⟨1, 1, 0⟩ Real.pi).rotF w = ⟨w.y, w.x, -w.z⟩ := by
    intro w
    obtain ⟨_, ⟨r, hr⟩, _⟩ := Quat.axisAngle_rotates ⟨1, 1, 0⟩ Real.pi hx w
    rw [← (Quat.rotate_ok hr).2.1, hn]
    generalize 1 / Real.sqrt 2 = s at hh
    unfold Quat.rodrigues
    apply V3.ext' <;> simp [dot, cross]
    · linear_combination (2 * w.x + 2 * w.y) * hh
    · linear_combination (2 * w.x + 2 * w.y) * hh
  have hne : nedRotation v ≠ Quat.zeroQ := by
    rw [Ne, ← Quat.nsq_zero_iff]
    unfold nedRotation
    rw [Quat.nsq_mul, Quat.axisAngle_nsq _ _ hx]
    unfold enuRotation
    dsimp only
    rw [enuOf_nsq]; norm_num
  refine ⟨?_, ?_, ?_, fun w => ⟨_, Quat.rotate_eq_rotF _ _ hne⟩⟩
  · unfold nedRotation
    rw [Quat.rotF_mul, r1]
    simp
  · unfold nedRotation
    rw [Quat.rotF_mul, r1]
    simp
  · unfold nedRotation
    rw [Quat.rotF_mul, r1]

/-! ## Gravity -/

/-- **C38.** The pull on a mass of 1 kg at distance `r` from the centre is `3.98600436e14 / r²`. -/
theorem sphere_pull (pos : V3 ℝ) (h : pos ≠ 0) : ∃ f, gravity 1 pos = .ok f ∧ f.length * pos.length ^ 2 = 3.98600436e14 := by
  have hl : pos.length ≠ 0 := by rwa [Ne, V3.length_zero_iff]
  have hn : pos.normalize.length = 1 := (V3.normalize_spec pos).1 h
  refine ⟨_, by unfold gravity; rw [if_neg (pow_ne_zero 2 hl)], ?_⟩
  rw [V3.length_smul, ← neg_one_smul ℝ pos.normalize, V3.length_smul, hn, abs_neg, abs_one,
    abs_of_nonneg (by unfold GM; positivity)]
  unfold GM
  field_simp

/-- **C38.** Gravity on the spherical earth: fails exactly at the centre; elsewhere it is antiparallel to the position,
with magnitude `m GM / r²`. -/
theorem sphere_gravity (m : ℝ) (pos : V3 ℝ) :
    (gravity m pos = .error .zeroDivision ↔ pos = 0) ∧
    (pos ≠ 0 → ∃ f, gravity m pos = .ok f ∧ f = (-(m * GM / pos.length ^ 3)) • pos ∧
      (0 ≤ m → f.length = m * GM / pos.length ^ 2)) := by
  have hiff : pos.length ^ 2 = 0 ↔ pos = 0 := by rw [sq_eq_zero_iff, V3.length_zero_iff]
  constructor
  · unfold gravity
    by_cases h : pos = 0
    · rw [if_pos (hiff.2 h)]; simp [h]
    · rw [if_neg (by rwa [hiff])]; simp [h]
  · intro h
    have hl : 0 < pos.length := lt_of_le_of_ne (V3.length_nonneg pos) (Ne.symm (by rwa [Ne, V3.length_zero_iff]))
    have hn := (V3.normalize_spec pos).1 h
    have hpn : pos.normalize = (1 / pos.length) • pos := by
      symm
      apply V3.normalize_unique pos _ h
      rw [smul_smul, mul_one_div_cancel hl.ne', one_smul]
    refine ⟨_, by unfold gravity; rw [if_neg (by rwa [hiff])], ?_, ?_⟩
    · rw [hpn]
      apply V3.ext' <;> simp <;> field_simp
    · intro hm
      have hG : (0 : ℝ) < GM := by unfold GM; norm_num
      rw [V3.length_smul]
      have : (-(pos.normalize)).length = 1 := by
        rw [← hn]; unfold V3.length; simp
      rw [this, mul_one, abs_of_nonneg (by positivity)]

end Sphere

/-- **C38.** Gravity on the flat earth points down with the inverse-square magnitude of the altitude. -/
theorem flat_gravity (m : ℝ) (pos : V3 ℝ) :
    (flatGravity m pos = .error .zeroDivision ↔ pos.z = -6371000) ∧
    (pos.z ≠ -6371000 → flatGravity m pos = .ok ⟨0, 0, -(m * 398600.5e9 / (pos.z + 6371000) ^ 2)⟩) ∧
    (∀ p q : V3 ℝ, 0 < m → -6371000 < p.z → p.z < q.z → ∃ f g, flatGravity m p = .ok f ∧ flatGravity m q = .ok g ∧
      f.z < g.z ∧ g.z < 0) := by
  have hiff : ∀ p : V3 ℝ, (p.z + 6371000) ^ 2 = 0 ↔ p.z = -6371000 := by
    intro p; rw [sq_eq_zero_iff]; constructor <;> intro h <;> linarith
  have hok : ∀ p : V3 ℝ, p.z ≠ -6371000 → flatGravity m p = .ok ⟨0, 0, -(m * 398600.5e9 / (p.z + 6371000) ^ 2)⟩ := by
    intro p h
    unfold flatGravity
    rw [if_neg (by rwa [hiff])]
    congr 1
    apply V3.ext' <;> simp
  refine ⟨?_, hok pos, ?_⟩
  · by_cases h : pos.z = -6371000
    · unfold flatGravity; rw [if_pos ((hiff pos).2 h)]; simp [h]
    · rw [hok pos h]; simp [h]
  · intro p q hm hp hpq
    refine ⟨_, _, hok p (by linarith), hok q (by linarith), ?_, ?_⟩
    · show -(_) < -(_)
      have h1 : 0 < p.z + 6371000 := by linarith
      have h2 : p.z + 6371000 < q.z + 6371000 := by linarith
      rw [neg_lt_neg_iff]
      apply div_lt_div_of_pos_left (by positivity) (by positivity)
      exact pow_lt_pow_left₀ h2 h1.le (by norm_num)
    · show -(_) < (0 : ℝ)
      have h1 : 0 < q.z + 6371000 := by linarith
      rw [neg_lt_zero]
      positivity

/-! ## Launch tower frame to global frame -/

namespace Sphere

/-- **C38 (partial: the horizontal position is not converted, see `tower_offset_violated`).** Conversion of a launch-tower
state: it never fails for a non-zero orientation. The position is the point `z` above the launch site; the velocity is the
local velocity expressed through the local axes plus the surface velocity; vectors fixed in the vehicle are turned by the
vehicle's orientation and then into the global frame; the angular velocity, seen in the global frame, gains the earth's. -/
theorem toGlobal_partial (s : RBState) (lat lon : ℝ) (ho : s.ori ≠ Quat.zeroQ) :
    ∃ g, toGlobal s lat lon = .ok g ∧ g.pos = geodeticToCartesian lat lon s.pos.z 0 ∧
      g.vel = (enuRotation g.pos).rotF s.vel + cross ⟨0, 0, rotationRate⟩ g.pos ∧
      (∀ w, g.ori.rotF w = (enuRotation g.pos).rotF (s.ori.rotF w)) ∧
      g.ori.rotF g.angVel = g.ori.rotF s.angVel + ⟨0, 0, rotationRate⟩ := by
  set pos := geodeticToCartesian lat lon s.pos.z 0 with hpos
  have hne : enuRotation pos ≠ Quat.zeroQ := enuOf_ne _ _
  have hnorm : (enuRotation pos).norm = 1 := by
    rw [Quat.norm_def']; unfold enuRotation; dsimp only; rw [enuOf_nsq, Real.sqrt_one]
  have hsc : (enuRotation pos).scale (1 / (enuRotation pos).norm) = enuRotation pos := by
    rw [hnorm]; apply Quat.ext4 <;> simp [Quat.scale]
  have ho' : (enuRotation pos).mul s.ori ≠ Quat.zeroQ := Quat.mul_ne_zeroQ hne ho
  have hc : ((enuRotation pos).mul s.ori).conj ≠ Quat.zeroQ := by
    rw [Ne, ← Quat.nsq_zero_iff] at ho' ⊢
    intro h; apply ho'; rw [← h]; simp [Quat.nsq, Quat.conj]
  refine ⟨⟨pos, (enuRotation pos).rotF s.vel + cross ⟨0, 0, rotationRate⟩ pos, (enuRotation pos).mul s.ori,
    s.angVel + ((enuRotation pos).mul s.ori).conj.rotF ⟨0, 0, rotationRate⟩⟩, ?_, rfl, rfl, ?_, ?_⟩
  · unfold toGlobal
    simp only [← hpos]
    rw [Quat.rotate_eq_rotF _ _ hne]
    simp only [hsc]
    rw [Quat.rotate_eq_rotF _ _ hc]
  · intro w; exact Quat.rotF_mul _ _ _
  · show Quat.rotF _ (_ + _) = _
    set q := (enuRotation pos).mul s.ori
    have hq := Quat.nsq_pos_of_ne ho'
    have hadd : ∀ a b : V3 ℝ, q.rotF (a + b) = q.rotF a + q.rotF b := by
      intro a b
      unfold Quat.rotF
      rw [← smul_add]
      congr 1
      apply V3.ext' <;> simp [Quat.sandwich, Quat.mul, Quat.conj] <;> ring
    rw [hadd]
    congr 1
    have hn' : q.conj.nsq = q.nsq := by simp [Quat.nsq, Quat.conj]
    rw [← Quat.rotF_mul]
    have hm : q.mul q.conj = ⟨q.nsq, 0, 0, 0⟩ := by
      apply Quat.ext4 <;> simp [Quat.mul, Quat.conj, Quat.nsq] <;> ring
    rw [hm]
    unfold Quat.rotF
    generalize q.nsq = N at hq
    apply V3.ext' <;> simp [Quat.sandwich, Quat.mul, Quat.conj, Quat.nsq]
    field_simp

example : ∃ g, toGlobal ⟨⟨0, 0, 800⟩, ⟨0, 0, 50⟩, ⟨1, 0, 0, 0⟩, ⟨0, 0, 1⟩⟩ 45 30 = .ok g :=
  let ⟨g, h, _⟩ := toGlobal_partial ⟨⟨0, 0, 800⟩, ⟨0, 0, 50⟩, ⟨1, 0, 0, 0⟩, ⟨0, 0, 1⟩⟩ 45 30
    (fun h => one_ne_zero (congrArg Quat.q0 h))
  ⟨g, h⟩

/-- With no horizontal offset the converted position is at the state's altitude, on the launch site's vertical. -/
theorem toGlobal_altitude (s : RBState) (lat lon : ℝ) (h1 : -90 ≤ lat) (h2 : lat ≤ 90) (hz : -radius < s.pos.z) :
    altitude (geodeticToCartesian lat lon s.pos.z 0) = s.pos.z :=
  (sphere_geodetic_roundtrip lat lon s.pos.z 0 h1 h2 hz).2.1

/-- **C38 violated.** The horizontal position in the launch tower frame is ignored: whatever it is, the converted state
is the same. -/
theorem tower_offset_violated (s : RBState) (x y lat lon : ℝ) :
    toGlobal { s with pos := ⟨x, y, s.pos.z⟩ } lat lon = toGlobal s lat lon := rfl

end Sphere

/-! ## J2 gravity is conservative -/

namespace WGS

/-- The gravity potential of an oblate earth up to its second zonal harmonic. -/
noncomputable def potential (m : ℝ) (pos : V3 ℝ) : ℝ :=
  m * Sphere.GM / pos.length *
    (1 - 0.00108262982 * (a / pos.length) ^ 2 * (3 * (pos.z / pos.length) ^ 2 - 1) / 2)

/-- **C38.** The ellipsoid model's gravity is the gradient of the J2 potential: its component along any direction is the
derivative of the potential in that direction. It fails exactly at the centre. -/
theorem j2_gravity (m : ℝ) (pos : V3 ℝ) :
    (gravity m pos = .error .zeroDivision ↔ pos = 0) ∧
    (pos ≠ 0 → ∃ f, gravity m pos = .ok f ∧
      ∀ d : V3 ℝ, HasDerivAt (fun t : ℝ => potential m (pos + t • d)) (dot f d) 0) := by
  constructor
  · unfold gravity
    by_cases h : pos = 0
    · simp [V3.length_zero_iff, h]
    · simp [V3.length_zero_iff, h]
  · intro h
    have hl : 0 < pos.length := lt_of_le_of_ne (V3.length_nonneg pos) (Ne.symm (by rwa [Ne, V3.length_zero_iff]))
    have hne := hl.ne'
    refine ⟨_, by unfold gravity; simp only [if_neg hne]; rfl, ?_⟩
    intro d
    have hsq : 0 < pos.x * pos.x + pos.y * pos.y + pos.z * pos.z := Real.sqrt_pos.1 hl
    have hx : HasDerivAt (fun t : ℝ => pos.x + d.x * t) d.x 0 := by
      simpa using ((hasDerivAt_id (0 : ℝ)).const_mul d.x).const_add pos.x
    have hy : HasDerivAt (fun t : ℝ => pos.y + d.y * t) d.y 0 := by
      simpa using ((hasDerivAt_id (0 : ℝ)).const_mul d.y).const_add pos.y
    have hz : HasDerivAt (fun t : ℝ => pos.z + d.z * t) d.z 0 := by
      simpa using ((hasDerivAt_id (0 : ℝ)).const_mul d.z).const_add pos.z
    have hr : HasDerivAt (fun t : ℝ => (pos + t • d).length)
        ((pos.x * d.x + pos.y * d.y + pos.z * d.z) / pos.length) 0 := by
      have h1 := ((hx.mul hx).add (hy.mul hy)).add (hz.mul hz)
      have h2 := h1.sqrt (by simpa using hsq.ne')
      refine h2.congr_deriv ?_
      simp only [Pi.add_apply, Pi.mul_apply, mul_zero, add_zero]
      show _ / (2 * pos.length) = _
      field_simp
      ring
    have hr0 : (pos + (0 : ℝ) • d).length = pos.length := by rw [zero_smul, add_zero]
    have hne0 : (pos + (0 : ℝ) • d).length ≠ 0 := by rw [hr0]; exact hne
    have hpot := ((hasDerivAt_const (0 : ℝ) (m * Sphere.GM)).div hr hne0).mul
      (((((((hasDerivAt_const (0 : ℝ) a).div hr hne0).pow 2).const_mul 0.00108262982).mul
        ((((hz.div hr hne0).pow 2).const_mul 3).sub_const 1)).div_const 2).const_sub 1)
    have hfun : (fun t : ℝ => potential m (pos + t • d)) =
        fun t : ℝ => m * Sphere.GM / (pos + t • d).length *
          (1 - 0.00108262982 * (a / (pos + t • d).length) ^ 2 * (3 * ((pos.z + d.z * t) / (pos + t • d).length) ^ 2 - 1) / 2) := by
      funext t; rfl
    rw [hfun]
    refine hpot.congr_deriv ?_
    simp only [Pi.div_apply, Pi.mul_apply, Pi.pow_apply, hr0, mul_zero, add_zero, dot]
    clear hpot hfun hr hne0 hr0 hsq hx hy hz
    generalize pos.length = r at *
    generalize Sphere.GM = GM
    generalize a = A
    generalize (0.00108262982 : ℝ) = J
    simp only [Nat.cast_ofNat, show (2 - 1 : ℕ) = 1 from rfl, pow_one]
    field_simp
    ring

end WGS

end Mapleaf.ENV
