import Verif.ENV.EarthProps
import Mathlib.Analysis.Calculus.MeanValue

/-!
# C38: the WGS84 ellipsoid — the iteration of `cartesianToGeodetic` converges to the right coordinates
-/

namespace Mapleaf.ENV.WGS
open Mapleaf.Motion V3

theorem e2_pos : 0 < e2 := by unfold e2 f; norm_num
theorem e2_lt : e2 < 0.0067 := by unfold e2 f; norm_num
theorem a_pos : 0 < a := by unfold a; norm_num
theorem ratio : b ^ 2 / a ^ 2 = 1 - e2 := by
  have := a_pos
  unfold b e2
  field_simp
  ring

theorem le_of_sq' {x y : ℝ} (h : x ^ 2 ≤ y ^ 2) (hy : 0 ≤ y) : x ≤ y := abs_le_of_sq_le_sq' h hy |>.2

/-! ## The surface -/

/-- **C38.** The ellipsoid's dimensions: the equator is at 6378137 m, the poles at 6356752.3142 m (to 0.1 mm). -/
theorem equator_and_poles (lon h t : ℝ) :
    (geodeticToCartesian 0 lon h t).x ^ 2 + (geodeticToCartesian 0 lon h t).y ^ 2 = (6378137 + h) ^ 2 ∧
    (geodeticToCartesian 0 lon h t).z = 0 ∧
    (geodeticToCartesian 90 lon h t).x = 0 ∧ (geodeticToCartesian 90 lon h t).y = 0 ∧
    |(geodeticToCartesian 90 lon h t).z - (6356752.3142 + h)| < 1e-4 := by
  have r90 : radians 90 = Real.pi / 2 := by unfold radians; ring
  have r0 : radians 0 = 0 := by unfold radians; ring
  refine ⟨?_, ?_, ?_, ?_, ?_⟩
  · unfold geodeticToCartesian
    simp only [r0, Real.sin_zero, Real.cos_zero]
    unfold a
    norm_num
    linear_combination (6378137 + h) ^ 2 * Real.sin_sq_add_cos_sq (radians lon + Sphere.rotationRate * t)
  · unfold geodeticToCartesian
    simp [r0]
  · unfold geodeticToCartesian
    simp [r90]
  · unfold geodeticToCartesian
    simp [r90]
  · have hs : Real.sqrt (1 - e2) = 1 - f := by
      rw [show 1 - e2 = (1 - f) ^ 2 by unfold e2; ring, Real.sqrt_sq (by unfold f; norm_num)]
    have hz : (geodeticToCartesian 90 lon h t).z = a * (1 - f) + h := by
      unfold geodeticToCartesian
      simp only [r90, Real.sin_pi_div_two, one_pow, mul_one, hs]
      have hf : 1 - f ≠ 0 := by unfold f; norm_num
      have hb : b = a * (1 - f) := rfl
      rw [hb]
      have ha := a_pos.ne'
      field_simp
    rw [hz]
    unfold a f
    rw [abs_lt]
    constructor <;> norm_num <;> linarith

/-- **C38.** At height 0 the point lies on the ellipsoid `(x² + y²)/a² + z²/b² = 1`, and increasing the height moves it
along the ellipsoid's outward normal `(cos φ cos λ, cos φ sin λ, sin φ)` — the gradient of that equation's left side — by
exactly that distance. -/
theorem ellipsoid (lat lon h t : ℝ) :
    let s := geodeticToCartesian lat lon 0 t
    let lam := radians lon + Sphere.rotationRate * t
    let n : V3 ℝ := ⟨Real.cos (radians lat) * Real.cos lam, Real.cos (radians lat) * Real.sin lam, Real.sin (radians lat)⟩
    (s.x ^ 2 + s.y ^ 2) / a ^ 2 + s.z ^ 2 / b ^ 2 = 1 ∧
    geodeticToCartesian lat lon h t = s + h • n ∧ n.length = 1 ∧
    ∃ c : ℝ, 0 < c ∧ (⟨2 * s.x / a ^ 2, 2 * s.y / a ^ 2, 2 * s.z / b ^ 2⟩ : V3 ℝ) = c • n := by
  intro s lam n
  have ha := a_pos
  have hE := e2_pos
  have hE' := e2_lt
  have hb : b ^ 2 = (1 - e2) * a ^ 2 := by rw [← ratio]; field_simp
  have hb0 : 0 < b ^ 2 := by rw [hb]; have : 0 < 1 - e2 := by linarith
                             positivity
  have hsin := Real.sin_sq_le_one (radians lat)
  have hq : 0 < 1 - e2 * Real.sin (radians lat) ^ 2 := by nlinarith [sq_nonneg (Real.sin (radians lat))]
  have hsq := Real.sqrt_pos.2 hq
  have hs2 := Real.sq_sqrt hq.le
  set N := a / Real.sqrt (1 - e2 * Real.sin (radians lat) ^ 2) with hN
  have hNpos : 0 < N := div_pos ha hsq
  have hN2 : N ^ 2 * (1 - e2 * Real.sin (radians lat) ^ 2) = a ^ 2 := by
    rw [hN, div_pow, hs2]; field_simp
  have sx : s.x = N * Real.cos (radians lat) * Real.cos lam := by simp [s, geodeticToCartesian, N, lam]
  have sy : s.y = N * Real.cos (radians lat) * Real.sin lam := by simp [s, geodeticToCartesian, N, lam]
  have sz : s.z = (1 - e2) * N * Real.sin (radians lat) := by
    show (b ^ 2 / a ^ 2 * N + 0) * _ = _
    rw [ratio, add_zero]
  have t1 := Real.sin_sq_add_cos_sq lam
  have t2 := Real.sin_sq_add_cos_sq (radians lat)
  have hne : 1 - e2 ≠ 0 := by linarith
  refine ⟨?_, ?_, ?_, 2 * N / a ^ 2, by positivity, ?_⟩
  · rw [sx, sy, sz, hb]
    have : (N * Real.cos (radians lat) * Real.cos lam) ^ 2 + (N * Real.cos (radians lat) * Real.sin lam) ^ 2 =
        N ^ 2 * Real.cos (radians lat) ^ 2 := by linear_combination N ^ 2 * Real.cos (radians lat) ^ 2 * t1
    rw [this]
    field_simp
    nlinarith
  · apply V3.ext'
    · simp [geodeticToCartesian, s, n, lam]; ring
    · simp [geodeticToCartesian, s, n, lam]; ring
    · simp [geodeticToCartesian, s, n, lam]; ring
  · have : n.x * n.x + n.y * n.y + n.z * n.z = 1 := by
      show Real.cos (radians lat) * Real.cos lam * (Real.cos (radians lat) * Real.cos lam) +
        Real.cos (radians lat) * Real.sin lam * (Real.cos (radians lat) * Real.sin lam) +
        Real.sin (radians lat) * Real.sin (radians lat) = 1
      linear_combination Real.cos (radians lat) ^ 2 * t1 + t2
    unfold V3.length
    rw [this, Real.sqrt_one]
  · apply V3.ext'
    · show 2 * s.x / a ^ 2 = n.x * (2 * N / a ^ 2)
      rw [sx]; simp [n]; ring
    · show 2 * s.y / a ^ 2 = n.y * (2 * N / a ^ 2)
      rw [sy]; simp [n]; ring
    · show 2 * s.z / b ^ 2 = n.z * (2 * N / a ^ 2)
      rw [sz, hb]; simp [n]; field_simp

/-! ## Newton's method -/

/-- `√(p² + (1 − e²) z² K²)` -/
noncomputable def root (p z K : ℝ) : ℝ := Real.sqrt (p * p + (1 - e2) * z * z * K ^ 2)

/-- the function whose zero is sought, and its slope -/
noncomputable def resid (p z K : ℝ) : ℝ := K - 1 - e2 * a * K / root p z K
noncomputable def slopeAt (p z K : ℝ) : ℝ := 1 - e2 * a * (p * p) / root p z K ^ 3

theorem inner_nonneg (p z K : ℝ) : 0 ≤ p * p + (1 - e2) * z * z * K ^ 2 := by
  have : 0 < 1 - e2 := by linarith [e2_lt]
  have h2 : 0 ≤ (1 - e2) * (z * z) * K ^ 2 := by have := mul_self_nonneg z; positivity
  nlinarith [mul_self_nonneg p]

theorem root_sq (p z K : ℝ) : root p z K ^ 2 = p * p + (1 - e2) * z * z * K ^ 2 := Real.sq_sqrt (inner_nonneg p z K)

theorem pow_three_halves {S : ℝ} (h : 0 ≤ S) : S ^ (1.5 : ℝ) = Real.sqrt S ^ 3 := by
  rw [show (1.5 : ℝ) = (1 / 2) * (3 : ℕ) by norm_num, Real.rpow_mul h, Real.rpow_natCast, ← Real.sqrt_eq_rpow]

/-- The step of the loop is Newton's step. -/
theorem newtonStep_eq (p z K : ℝ) (hr : 0 < root p z K) (hs : 0 < slopeAt p z K) :
    newtonStep p z K = .ok (K - resid p z K / slopeAt p z K) := by
  have ha := a_pos
  have hE := e2_pos
  have hc : ((p * p + (1 - e2) * z * z * K ^ 2) ^ (1.5 : ℝ)) / (a * e2) = root p z K ^ 3 / (a * e2) := by
    rw [pow_three_halves (inner_nonneg p z K)]; rfl
  have hR2 := root_sq p z K
  have hd : root p z K ^ 3 / (a * e2) - p * p = slopeAt p z K * (root p z K ^ 3 / (a * e2)) := by
    unfold slopeAt; field_simp
  have hpos : 0 < root p z K ^ 3 / (a * e2) - p * p := by rw [hd]; positivity
  unfold newtonStep
  simp only [hc]
  rw [if_neg hpos.ne', hd]
  congr 1
  have h3 : (1 - e2) * z * z * K ^ 3 = (root p z K ^ 2 - p * p) * K := by rw [hR2]; ring
  rw [h3]
  have hs' : slopeAt p z K * root p z K ^ 3 = root p z K ^ 3 - e2 * a * (p * p) := by unfold slopeAt; field_simp
  have hf : resid p z K * root p z K = (K - 1) * root p z K - e2 * a * K := by unfold resid; field_simp
  generalize root p z K = s at *
  generalize slopeAt p z K = D at *
  generalize resid p z K = F at *
  field_simp
  have : e2 * a * (p * p) = s ^ 3 - D * s ^ 3 := by linarith
  have h4 : e2 * a * K = (K - 1) * s - F * s := by linarith
  have goal2 : s ^ 3 * D + a * e2 * (p * p + (s ^ 2 - p * p) * K) = s ^ 3 * (K * D - F) := by
    linear_combination (-(1 : ℝ)) * (-(1 - K)) * this + s ^ 2 * h4
  nlinarith [goal2]

/-- The tangent inequality: the residual is convex for positive `K`. -/
theorem tangent (p z x y : ℝ) (hx : 0 < x) (hy : 0 < y) (hrx : 0 < root p z x) (hry : 0 < root p z y) :
    resid p z x + slopeAt p z x * (y - x) ≤ resid p z y := by
  have ha := a_pos
  have hE := e2_pos
  have hw : 0 ≤ (1 - e2) * z * z := by
    have : 0 < 1 - e2 := by linarith [e2_lt]
    nlinarith [mul_self_nonneg z, mul_nonneg this.le (mul_self_nonneg z)]
  have hP : 0 ≤ p * p := mul_self_nonneg p
  have sx := root_sq p z x
  have sy := root_sq p z y
  set w := (1 - e2) * z * z with hwdef
  set P := p * p with hPdef
  set s := root p z x with hsdef
  set t := root p z y with htdef
  have key : y * s ^ 3 ≤ t * (P * y + w * x ^ 3) := by
    have h1 : 0 ≤ t * (P * y + w * x ^ 3) := by positivity
    refine le_of_sq' ?_ h1
    have e1 : (y * s ^ 3) ^ 2 = y ^ 2 * (s ^ 2) ^ 3 := by ring
    have e2' : (t * (P * y + w * x ^ 3)) ^ 2 = t ^ 2 * (P * y + w * x ^ 3) ^ 2 := by ring
    rw [e1, e2', sx, sy]
    have h2 : 0 ≤ P ^ 2 * w * y * ((y - x) ^ 2 * (y + 2 * x)) := by positivity
    have h3 : 0 ≤ P * w ^ 2 * x ^ 3 * ((x - y) ^ 2 * (x + 2 * y)) := by positivity
    nlinarith [h2, h3]
  have key2 : y / t ≤ x / s + P / s ^ 3 * (y - x) := by
    have e : x / s + P / s ^ 3 * (y - x) = (P * y + w * x ^ 3) / s ^ 3 := by
      rw [eq_div_iff (by positivity)]
      have : x / s * s ^ 3 = x * s ^ 2 := by field_simp
      rw [add_mul, this, sx]
      field_simp
      ring
    rw [e, div_le_div_iff₀ hry (by positivity)]
    linarith
  have h5 : e2 * a * (y / t) ≤ e2 * a * (x / s + P / s ^ 3 * (y - x)) :=
    mul_le_mul_of_nonneg_left key2 (by positivity)
  unfold resid slopeAt
  rw [← hsdef, ← htdef, ← hPdef]
  have r1 : e2 * a * y / t = e2 * a * (y / t) := by ring
  have r2 : e2 * a * x / s = e2 * a * (x / s) := by ring
  have r3 : e2 * a * P / s ^ 3 = e2 * a * (P / s ^ 3) := by ring
  rw [r1, r2, r3]
  nlinarith [h5]

theorem slope_diff (p z K x : ℝ) (hK : 1 ≤ K) (hx : K ≤ x) (hr : 0.99 * a ≤ root p z K) :
    slopeAt p z x - slopeAt p z K ≤ 6.07 * e2 * (x - K) := by
  have ha := a_pos
  have hE := e2_pos
  have hE1 : 0 < 1 - e2 := by linarith [e2_lt]
  have hw : 0 ≤ (1 - e2) * z * z := by nlinarith [mul_self_nonneg z, mul_nonneg hE1.le (mul_self_nonneg z)]
  have hP : 0 ≤ p * p := mul_self_nonneg p
  have hrK : 0 < root p z K := lt_of_lt_of_le (by positivity) hr
  have sK := root_sq p z K
  have sx := root_sq p z x
  have hmono : root p z K ≤ root p z x := by
    apply Real.sqrt_le_sqrt
    have : K ^ 2 ≤ x ^ 2 := by nlinarith
    nlinarith
  have hrx : 0 < root p z x := lt_of_lt_of_le hrK hmono
  have hPs : p * p ≤ root p z K ^ 2 := by rw [sK]; nlinarith [sq_nonneg K, mul_nonneg hw (sq_nonneg K)]
  unfold slopeAt
  set s := root p z K with hs
  set t := root p z x with ht
  have hts : t ^ 2 - s ^ 2 = (1 - e2) * z * z * (x + K) * (x - K) := by rw [sx, sK]; ring
  have hwx : (1 - e2) * z * z * (x + K) ≤ 2 * t ^ 2 := by
    rw [sx]
    have hxx : x ≤ x ^ 2 := by nlinarith
    have h1 : (1 - e2) * z * z * (x + K) ≤ (1 - e2) * z * z * (2 * x ^ 2) :=
      mul_le_mul_of_nonneg_left (by linarith) hw
    nlinarith
  have hts2 : (t - s) * (t + s) ≤ 2 * t ^ 2 * (x - K) := by
    have : (t - s) * (t + s) = t ^ 2 - s ^ 2 := by ring
    rw [this, hts]
    exact mul_le_mul_of_nonneg_right hwx (by linarith)
  have hts3 : t - s ≤ 2 * t * (x - K) := by
    have h1 : (t - s) * t ≤ (t - s) * (t + s) := by nlinarith
    have h2 : (t - s) * t ≤ (2 * t * (x - K)) * t := by nlinarith
    exact le_of_mul_le_mul_right h2 hrx
  have hcube : t ^ 3 - s ^ 3 ≤ 3 * t ^ 2 * (2 * t * (x - K)) := by
    have : t ^ 3 - s ^ 3 = (t - s) * (t ^ 2 + t * s + s ^ 2) := by ring
    rw [this]
    have h1 : t ^ 2 + t * s + s ^ 2 ≤ 3 * t ^ 2 := by nlinarith
    have h2 : 0 ≤ t - s := by linarith
    calc (t - s) * (t ^ 2 + t * s + s ^ 2) ≤ (t - s) * (3 * t ^ 2) := mul_le_mul_of_nonneg_left h1 h2
      _ ≤ (2 * t * (x - K)) * (3 * t ^ 2) := mul_le_mul_of_nonneg_right hts3 (by positivity)
      _ = _ := by ring
  have e : 1 - e2 * a * (p * p) / t ^ 3 - (1 - e2 * a * (p * p) / s ^ 3) =
      e2 * a * (p * p) * (t ^ 3 - s ^ 3) / (s ^ 3 * t ^ 3) := by field_simp; ring
  rw [e, div_le_iff₀ (by positivity)]
  have h1 : a * (p * p) ≤ 1.011 * s ^ 3 := by
    have : 0.99 * a * (p * p) ≤ s * s ^ 2 := mul_le_mul hr hPs hP hrK.le
    have h5 : 0 < s ^ 3 := by positivity
    nlinarith
  have h2 : 0 ≤ t ^ 3 - s ^ 3 := by have := pow_le_pow_left₀ hrK.le hmono 3; linarith
  have h3 : e2 * a * (p * p) * (t ^ 3 - s ^ 3) ≤ e2 * (1.011 * s ^ 3) * (t ^ 3 - s ^ 3) := by
    apply mul_le_mul_of_nonneg_right _ h2
    rw [mul_assoc]
    exact mul_le_mul_of_nonneg_left h1 hE.le
  have h4 : e2 * (1.011 * s ^ 3) * (t ^ 3 - s ^ 3) ≤ e2 * (1.011 * s ^ 3) * (3 * t ^ 2 * (2 * t * (x - K))) :=
    mul_le_mul_of_nonneg_left hcube (by positivity)
  calc _ ≤ _ := h3
    _ ≤ _ := h4
    _ = 6.066 * e2 * (x - K) * (s ^ 3 * t ^ 3) := by ring
    _ ≤ 6.07 * e2 * (x - K) * (s ^ 3 * t ^ 3) := by
      have : 0 ≤ e2 * (x - K) * (s ^ 3 * t ^ 3) := by
        have := sub_nonneg.2 hx
        positivity
      nlinarith

theorem slope_ge (p z x : ℝ) (hr : 0.99 * a ≤ root p z x) : 1 - 1.011 * e2 ≤ slopeAt p z x ∧ slopeAt p z x ≤ 1 := by
  have ha := a_pos
  have hE := e2_pos
  have hE1 : 0 < 1 - e2 := by linarith [e2_lt]
  have hw : 0 ≤ (1 - e2) * z * z := by nlinarith [mul_self_nonneg z, mul_nonneg hE1.le (mul_self_nonneg z)]
  have hP : 0 ≤ p * p := mul_self_nonneg p
  have hrx : 0 < root p z x := lt_of_lt_of_le (by positivity) hr
  have hPs : p * p ≤ root p z x ^ 2 := by rw [root_sq]; nlinarith [sq_nonneg x, mul_nonneg hw (sq_nonneg x)]
  have h1 : 0 ≤ e2 * a * (p * p) / root p z x ^ 3 := by positivity
  have h2 : e2 * a * (p * p) / root p z x ^ 3 ≤ 1.011 * e2 := by
    rw [div_le_iff₀ (by positivity)]
    have h1 : 0.99 * a * (p * p) ≤ root p z x * root p z x ^ 2 := mul_le_mul hr hPs hP hrx.le
    have h3 : 0 < root p z x ^ 3 := by positivity
    have h4 : a * (p * p) ≤ 1.011 * root p z x ^ 3 := by nlinarith
    nlinarith
  unfold slopeAt
  constructor <;> linarith

/-- One step, from either side of a zero `K`: leads to the right of it and converges quadratically. -/
theorem step_right (p z K x : ℝ) (hK : 1 ≤ K) (hx : 1 ≤ x) (h0 : resid p z K = 0) (hr : 0.99 * a ≤ root p z K)
    (hrx : 0.99 * a ≤ root p z x) :
    ∃ y, newtonStep p z x = .ok y ∧ K ≤ y ∧ y - K ≤ 0.0413 * (x - K) ^ 2 ∧ (K ≤ x → y ≤ x ∧ 0.99 * (x - K) ≤ x - y) := by
  have ha := a_pos
  have hE := e2_pos
  have hE' := e2_lt
  have hE1 : 0 < 1 - e2 := by linarith
  have hrK0 : 0 < root p z K := lt_of_lt_of_le (by positivity) hr
  have hrx0 : 0 < root p z x := lt_of_lt_of_le (by positivity) hrx
  obtain ⟨hDK, hDK1⟩ := slope_ge p z K hr
  obtain ⟨hDx', hD1⟩ := slope_ge p z x hrx
  have hDx : 0 < slopeAt p z x := by linarith
  have hx0 : 0 < x := by linarith
  have hK0 : 0 < K := by linarith
  have t1 := tangent p z K x hK0 hx0 hrK0 hrx0
  have t2 := tangent p z x K hx0 hK0 hrx0 hrK0
  rw [h0] at t1 t2
  have hright : 0 ≤ x - resid p z x / slopeAt p z x - K := by
    have : resid p z x / slopeAt p z x ≤ x - K := by rw [div_le_iff₀ hDx]; nlinarith
    linarith
  refine ⟨_, newtonStep_eq p z x hrx0 hDx, by linarith, ?_, ?_⟩
  · have h1 : slopeAt p z x * (x - resid p z x / slopeAt p z x - K) = slopeAt p z x * (x - K) - resid p z x := by
      field_simp
      ring
    have hdiff : (slopeAt p z x - slopeAt p z K) * (x - K) ≤ 6.07 * e2 * (x - K) ^ 2 := by
      rcases le_total K x with h | h
      · have := slope_diff p z K x hK h hr
        have h3 := mul_le_mul_of_nonneg_right this (sub_nonneg.2 h)
        nlinarith
      · have := slope_diff p z x K hx h hrx
        have h3 := mul_le_mul_of_nonneg_right this (sub_nonneg.2 h)
        nlinarith
    have h2 : slopeAt p z x * (x - resid p z x / slopeAt p z x - K) ≤ 6.07 * e2 * (x - K) ^ 2 := by
      rw [h1]; nlinarith
    have h4 : (1 - 1.011 * e2) * (x - resid p z x / slopeAt p z x - K) ≤ 6.07 * e2 * (x - K) ^ 2 := by
      refine le_trans (mul_le_mul_of_nonneg_right ?_ hright) h2
      linarith
    have h5 : 6.07 * e2 ≤ 0.0413 * (1 - 1.011 * e2) := by linarith
    have h6 : (1 - 1.011 * e2) * (x - resid p z x / slopeAt p z x - K) ≤ (1 - 1.011 * e2) * (0.0413 * (x - K) ^ 2) := by
      nlinarith [sq_nonneg (x - K)]
    exact le_of_mul_le_mul_left h6 (by linarith)
  · intro hKx
    have h1 : (1 - 1.011 * e2) * (x - K) ≤ resid p z x := by nlinarith
    have hd : 0 ≤ x - K := sub_nonneg.2 hKx
    have h7 : 0.99 * (x - K) ≤ resid p z x := by nlinarith
    have h8 : 0 ≤ resid p z x := by nlinarith
    have h2 : resid p z x ≤ resid p z x / slopeAt p z x := by
      rw [le_div_iff₀ hDx]
      nlinarith
    exact ⟨by linarith, by linarith⟩

/-- The loop ends within four rounds, extremely close to the zero. -/
theorem loop_right (p z K : ℝ) (n : Nat) (hK : 1 ≤ K) (hK2 : K ≤ 1.0069) (h0 : resid p z K = 0)
    (hr : 0.991 * a ≤ root p z K) :
    ∃ k, newtonLoop p z (n + 4) (1 / (1 - e2)) = .ok k ∧ K ≤ k ∧ k - K ≤ 1e-21 := by
  have ha := a_pos
  have hE := e2_pos
  have hE' := e2_lt
  have hE1 : 0 < 1 - e2 := by linarith
  have hx1 : 1 / (1 - e2) ≤ 1.00675 := by rw [div_le_iff₀ hE1]; linarith
  have hx2 : 1.0067 ≤ 1 / (1 - e2) := by
    rw [le_div_iff₀ hE1]
    have : (0.00669 : ℝ) ≤ e2 := by unfold e2 f; norm_num
    linarith
  have hr' : 0.99 * a ≤ root p z K := by linarith
  have hw : 0 ≤ (1 - e2) * z * z := by nlinarith [mul_self_nonneg z, mul_nonneg hE1.le (mul_self_nonneg z)]
  -- the root at the points visited
  have hroot : ∀ x, 0.9995 * K ≤ x → 0.99 * a ≤ root p z x := by
    intro x hx
    have hK0 : 0 < K := by linarith
    have h1 : 0.9995 * root p z K ≤ root p z x := by
      refine le_of_sq' ?_ (Real.sqrt_nonneg _)
      rw [mul_pow, root_sq, root_sq]
      have h2 : (0.9995 * K) ^ 2 ≤ x ^ 2 := pow_le_pow_left₀ (by linarith) hx 2
      nlinarith [mul_self_nonneg p, mul_le_mul_of_nonneg_left h2 hw]
    nlinarith
  -- what one round does
  have round : ∀ x m, 1 ≤ x → 0.9995 * K ≤ x →
      (∃ k, newtonLoop p z (m + 1) x = .ok k ∧ K ≤ k ∧ k - K ≤ 1e-21) ∨
      (∃ y, newtonLoop p z (m + 1) x = newtonLoop p z m y ∧ K ≤ y ∧ y - K ≤ 0.0413 * (x - K) ^ 2 ∧
        (K ≤ x → 1e-10 ≤ x - K)) := by
    intro x m hx hxK
    obtain ⟨y, hy, h1, h3, h4⟩ := step_right p z K x hK hx h0 hr' (hroot x hxK)
    by_cases hc : |y - x| < 1e-10
    · left
      refine ⟨y, ?_, h1, ?_⟩
      · rw [newtonLoop, hy]; simp only [if_pos hc]
      · have hd : |x - K| ≤ 1.02e-10 := by
          rcases le_total K x with h | h
          · obtain ⟨h5, h6⟩ := h4 h
            rw [abs_sub_comm, abs_of_nonneg (by linarith)] at hc
            rw [abs_of_nonneg (by linarith)]
            nlinarith
          · rw [abs_of_nonneg (by linarith)] at hc
            rw [abs_of_nonpos (by linarith)]
            norm_num at hc ⊢
            linarith
        have hsq : (x - K) ^ 2 ≤ (1.02e-10) ^ 2 := by
          rw [← sq_abs]
          exact pow_le_pow_left₀ (abs_nonneg _) hd 2
        calc y - K ≤ 0.0413 * (x - K) ^ 2 := h3
          _ ≤ 0.0413 * (1.02e-10) ^ 2 := by linarith
          _ ≤ 1e-21 := by norm_num
    · right
      refine ⟨y, ?_, h1, h3, ?_⟩
      · rw [newtonLoop, hy]; simp only [if_neg hc]
      · intro h
        obtain ⟨h5, h6⟩ := h4 h
        rw [abs_sub_comm, abs_of_nonneg (by linarith), not_lt] at hc
        linarith
  rcases round (1 / (1 - e2)) (n + 3) (by linarith) (by linarith) with h | ⟨y1, e1, k1, d1, _⟩
  · exact h
  rcases round y1 (n + 2) (by linarith) (by linarith) with h | ⟨y2, e2', k2, d2, _⟩
  · rw [e1]; exact h
  rcases round y2 (n + 1) (by linarith) (by linarith) with h | ⟨y3, e3, k3, d3, g3⟩
  · rw [e1, e2']; exact h
  exfalso
  have g3 := g3 k2
  have hsq1 : (1 / (1 - e2) - K) ^ 2 ≤ 0.00675 ^ 2 := by
    rw [← sq_abs]
    refine pow_le_pow_left₀ (abs_nonneg _) ?_ 2
    rw [abs_le]
    constructor <;> linarith
  have b1 : y1 - K ≤ 1.9e-6 := by
    calc _ ≤ _ := d1
      _ ≤ 0.0413 * 0.00675 ^ 2 := by linarith
      _ ≤ _ := by norm_num
  have hsq2 : (y1 - K) ^ 2 ≤ (1.9e-6) ^ 2 := pow_le_pow_left₀ (by linarith) b1 2
  have b2 : y2 - K ≤ 1.5e-13 := by
    calc _ ≤ _ := d2
      _ ≤ 0.0413 * (1.9e-6) ^ 2 := by linarith
      _ ≤ _ := by norm_num
  norm_num at g3 b2
  linarith

/-! ## The round trip -/

theorem abs_arctan_scale (c x y : ℝ) (hx : 1 ≤ x) (hxy : x ≤ y) :
    |Real.arctan (c * y) - Real.arctan (c * x)| ≤ (1 / 2) * (y - x) := by
  have := Convex.norm_image_sub_le_of_norm_hasDerivWithin_le (f := fun k => Real.arctan (c * k))
    (f' := fun k => 1 / (1 + (c * k) ^ 2) * c) (s := Set.Icc x y) (x := x) (y := y) (C := 1 / 2)
    (fun k _ => by
      have h1 : HasDerivAt (fun k : ℝ => c * k) c k := by simpa using (hasDerivAt_id k).const_mul c
      exact (h1.arctan).hasDerivWithinAt)
    (fun k hk => by
      rw [Real.norm_eq_abs, abs_mul, abs_of_pos (by positivity : (0 : ℝ) < 1 / (1 + (c * k) ^ 2)), one_div,
        inv_mul_le_iff₀ (by positivity)]
      have hk1 : 1 ≤ k := hx.trans hk.1
      have habs : |c| ^ 2 = c ^ 2 := sq_abs c
      have h2 : 0 ≤ |c| := abs_nonneg c
      have : c ^ 2 ≤ (c * k) ^ 2 := by
        rw [mul_pow]; nlinarith [sq_nonneg c, mul_nonneg (sq_nonneg c) (by nlinarith : 0 ≤ k ^ 2 - 1)]
      nlinarith [sq_nonneg (|c| - 1)])
    (convex_Icc x y) (Set.left_mem_Icc.2 hxy) (Set.right_mem_Icc.2 hxy)
  simpa [Real.norm_eq_abs, abs_of_nonneg (sub_nonneg.2 hxy)] using this

theorem atan2_scale (p z x y : ℝ) (hp : 0 ≤ p) (hx : 1 ≤ x) (hxy : x ≤ y) :
    |Quat.atan2 (y * z) p - Quat.atan2 (x * z) p| ≤ (1 / 2) * (y - x) := by
  rcases hp.lt_or_eq with hp | hp
  · have e : ∀ k, Quat.atan2 (k * z) p = Real.arctan (z / p * k) := by
      intro k
      unfold Quat.atan2
      rw [Complex.arg_of_re_nonneg (by simpa using hp.le)]
      rw [Real.arctan_eq_arcsin]
      congr 1
      have hn : ‖(p : ℂ) + ((k * z : ℝ) : ℂ) * Complex.I‖ = p * Real.sqrt (1 + (z / p * k) ^ 2) := by
        rw [Complex.norm_add_mul_I, show p ^ 2 + (k * z) ^ 2 = p ^ 2 * (1 + (z / p * k) ^ 2) by field_simp,
          Real.sqrt_mul (sq_nonneg p), Real.sqrt_sq hp.le]
      rw [hn]
      have : 0 < Real.sqrt (1 + (z / p * k) ^ 2) := Real.sqrt_pos.2 (by positivity)
      simp
      field_simp
    rw [e, e]
    exact abs_arctan_scale _ _ _ hx hxy
  · subst hp
    have hy0 : 0 < y := by linarith
    have hx0 : 0 < x := by linarith
    have e : ∀ k, 0 < k → Quat.atan2 (k * z) 0 = Quat.atan2 z 0 := by
      intro k hk
      unfold Quat.atan2
      have := Complex.arg_real_mul (((0 : ℝ) : ℂ) + (z : ℂ) * Complex.I) hk
      rw [← this]
      congr 1
      push_cast
      ring
    rw [e y hy0, e x hx0, sub_self, abs_zero]
    linarith

theorem height_bound (p z K k h L : ℝ) (hK1 : 1 ≤ K) (hK2 : K ≤ 1.0069) (hkK : K ≤ k) (hkd : k - K ≤ 1e-21)
    (hLpos : 0 < L) (hlen : L ^ 2 = p * p + z * z)
    (hval : (1 / e2) * (1 / K - (1 - e2)) * Real.sqrt (p * p + z * z * K * K) = h) :
    |1 / e2 * (1 / k - (1 - e2)) * Real.sqrt (p * p + z * z * k * k) - h| ≤ 1e-18 * L := by
  have hE := e2_pos
  have hE' := e2_lt
  have hE1 : 0 < 1 - e2 := by linarith
  have hk1 : 1 ≤ k := hK1.trans hkK
  set Rk := Real.sqrt (p * p + z * z * k * k) with hRk
  set RK := Real.sqrt (p * p + z * z * K * K) with hRK
  have sk : Rk ^ 2 = p * p + z * z * k * k := Real.sq_sqrt (by nlinarith [mul_self_nonneg p, mul_self_nonneg (z * k)])
  have sK : RK ^ 2 = p * p + z * z * K * K := Real.sq_sqrt (by nlinarith [mul_self_nonneg p, mul_self_nonneg (z * K)])
  have hz2 := mul_self_nonneg z
  have hL0 := hLpos.le
  have hRk0 : 0 ≤ Rk := Real.sqrt_nonneg _
  have hRK0 : 0 ≤ RK := Real.sqrt_nonneg _
  have hk2 : k ≤ 1.01 := by
    norm_num at hkd hK2 ⊢
    linarith
  have hRkL : Rk ≤ 1.01 * L := by
    refine le_of_sq' ?_ (by positivity)
    rw [sk, mul_pow, hlen]
    have : k * k ≤ 1.01 ^ 2 := by nlinarith
    nlinarith [mul_self_nonneg p]
  have hmono : RK ≤ Rk := by
    apply Real.sqrt_le_sqrt
    have : K * K ≤ k * k := by nlinarith
    nlinarith
  have hLRK : L ≤ RK := by
    refine le_of_sq' ?_ hRK0
    rw [sK, hlen]
    nlinarith [(by nlinarith : 1 ≤ K * K)]
  have hdiff : Rk - RK ≤ (k - K) * (1.01 * L) := by
    -- (Rk - RK)(Rk + RK) = z²(k² - K²)
    have e1 : (Rk - RK) * (Rk + RK) = z * z * (k + K) * (k - K) := by
      have : (Rk - RK) * (Rk + RK) = Rk ^ 2 - RK ^ 2 := by ring
      rw [this, sk, sK]; ring
    have hzl : z * z ≤ L ^ 2 := by rw [hlen]; nlinarith [mul_self_nonneg p]
    have h3 : z * z * (k + K) ≤ L ^ 2 * 2.02 := by
      have : k + K ≤ 2.02 := by linarith
      exact mul_le_mul hzl this (by linarith) (sq_nonneg _)
    have h4 : (Rk - RK) * (2 * L) ≤ (Rk - RK) * (Rk + RK) :=
      mul_le_mul_of_nonneg_left (by linarith) (by linarith)
    have h5 : z * z * (k + K) * (k - K) ≤ L ^ 2 * 2.02 * (k - K) :=
      mul_le_mul_of_nonneg_right h3 (by linarith)
    have h6 : (Rk - RK) * (2 * L) ≤ ((k - K) * (1.01 * L)) * (2 * L) := by
      nlinarith
    exact le_of_mul_le_mul_right h6 (by positivity)
  have hsplit : 1 / e2 * (1 / k - (1 - e2)) * Rk - h =
      1 / e2 * ((1 / k - 1 / K) * Rk + (1 / K - (1 - e2)) * (Rk - RK)) := by
    rw [← hval]; ring
  rw [hsplit, abs_mul, abs_of_pos (by positivity : (0 : ℝ) < 1 / e2)]
  have hKpos : 0 < K := by linarith
  have hkpos : 0 < k := by linarith
  have f1 : |(1 / k - 1 / K) * Rk| ≤ 1e-21 * (1.01 * L) := by
    have e1 : 1 / k - 1 / K = -((k - K) / (k * K)) := by field_simp; ring
    rw [e1, abs_mul, abs_neg, abs_of_nonneg (div_nonneg (sub_nonneg.2 hkK) (by positivity)), abs_of_nonneg hRk0]
    apply mul_le_mul _ hRkL hRk0 (by norm_num)
    rw [div_le_iff₀ (by positivity)]
    exact hkd.trans (le_mul_of_one_le_right (by norm_num) (one_le_mul_of_one_le_of_one_le hk1 hK1))
  have f2 : |(1 / K - (1 - e2)) * (Rk - RK)| ≤ e2 * (1e-21 * (1.01 * L)) := by
    have g1 : -e2 ≤ 1 / K - (1 - e2) := by
      have h1 : (0.993 : ℝ) ≤ 1 / K := by rw [le_div_iff₀ hKpos]; linarith
      have h2 : (0.00669 : ℝ) ≤ e2 := by unfold e2 f; norm_num
      linarith
    have g2 : 1 / K - (1 - e2) ≤ e2 := by
      have : 1 / K ≤ 1 := by rw [div_le_one hKpos]; exact hK1
      linarith
    rw [abs_mul, abs_of_nonneg (by linarith : 0 ≤ Rk - RK)]
    apply mul_le_mul (abs_le.2 ⟨g1, g2⟩) _ (by linarith) hE.le
    refine hdiff.trans (mul_le_mul_of_nonneg_right hkd (by positivity))
  have f3 := abs_add_le ((1 / k - 1 / K) * Rk) ((1 / K - (1 - e2)) * (Rk - RK))
  have f4 : |(1 / k - 1 / K) * Rk + (1 / K - (1 - e2)) * (Rk - RK)| ≤ 1.1e-21 * L := by
    have : e2 * (1e-21 * (1.01 * L)) ≤ 0.0067 * (1e-21 * (1.01 * L)) :=
      mul_le_mul_of_nonneg_right hE'.le (by positivity)
    norm_num at f1 f2 f3 this ⊢
    linarith
  have f5 : 1 / e2 ≤ 150 := by
    rw [div_le_iff₀ hE]
    have : (0.00669 : ℝ) ≤ e2 := by unfold e2 f; norm_num
    linarith
  calc _ ≤ 150 * (1.1e-21 * L) := mul_le_mul f5 f4 (abs_nonneg _) (by norm_num)
    _ ≤ 1e-18 * L := by norm_num; nlinarith

set_option maxHeartbeats 1000000 in
/-- **C38** WGS84, geodetic → cartesian → geodetic: for every latitude between the poles
(inclusive), longitude, height from 20 km below the surface up, and time, the iteration ends within four rounds; the latitude comes back to
within 10⁻²¹ radians and the height to within 10⁻¹⁸ times the distance from the centre; away from the poles the longitude
comes back up to whole turns (exactly, when the turned meridian lies in (−180°, 180°]). -/
theorem wgs_roundtrip (n : Nat) (lat lon h t : ℝ) (h1 : -90 ≤ lat) (h2 : lat ≤ 90) (hh : -20000 ≤ h) :
    ∃ g, cartesianToGeodetic (n + 4) (geodeticToCartesian lat lon h t) t = .ok g ∧
      |radians g.1 - radians lat| ≤ 1e-21 ∧
      |g.2.2 - h| ≤ 1e-18 * (geodeticToCartesian lat lon h t).length ∧
      (-90 < lat → lat < 90 → (∃ k : ℤ, g.2.1 = lon + 360 * k) ∧
        (-Real.pi < radians lon + Sphere.rotationRate * t → radians lon + Sphere.rotationRate * t ≤ Real.pi →
          g.2.1 = lon)) := by
  have ha := a_pos
  have hE := e2_pos
  have hE' := e2_lt
  have hE1 : 0 < 1 - e2 := by linarith
  obtain ⟨r1, r2⟩ := lat_range h1 h2
  set φ := radians lat with hφ
  set lam := radians lon + Sphere.rotationRate * t with hlam
  have hcos : 0 ≤ Real.cos φ := Real.cos_nonneg_of_neg_pi_div_two_le_of_le r1 r2
  have hsin := Real.sin_sq_le_one φ
  have hq : 0 < 1 - e2 * Real.sin φ ^ 2 := by nlinarith [sq_nonneg (Real.sin φ)]
  have hsq := Real.sqrt_pos.2 hq
  have hs2 := Real.sq_sqrt hq.le
  set N := a / Real.sqrt (1 - e2 * Real.sin φ ^ 2) with hN
  have hNpos : 0 < N := div_pos ha hsq
  have hN2 : N ^ 2 * (1 - e2 * Real.sin φ ^ 2) = a ^ 2 := by rw [hN, div_pow, hs2]; field_simp
  set v := geodeticToCartesian lat lon h t with hv
  have vx : v.x = (N + h) * Real.cos φ * Real.cos lam := rfl
  have vy : v.y = (N + h) * Real.cos φ * Real.sin lam := rfl
  have vz : v.z = ((1 - e2) * N + h) * Real.sin φ := by
    show (b ^ 2 / a ^ 2 * N + h) * _ = _
    rw [ratio]
  have t1 := Real.sin_sq_add_cos_sq lam
  have t2 := Real.sin_sq_add_cos_sq φ
  have ha' : a = 6378137 := rfl
  have hNa : a ≤ N := by
    rw [hN, le_div_iff₀ hsq]
    have : Real.sqrt (1 - e2 * Real.sin φ ^ 2) ≤ 1 := by
      rw [Real.sqrt_le_left (by norm_num)]
      nlinarith [mul_nonneg hE.le (sq_nonneg (Real.sin φ))]
    nlinarith
  have hNh : 0 < N + h := by linarith
  have hM9 : 0.99 * a ≤ (1 - e2) * N + h := by
    have h1 : 0.9933 * a ≤ (1 - e2) * N := mul_le_mul (by linarith) hNa ha.le hE1.le
    linarith
  have hM : 0 < (1 - e2) * N + h := by linarith
  have hM' : N * (1 - e2) + h ≠ 0 := by rw [mul_comm]; exact hM.ne'
  set p := Real.sqrt (v.x * v.x + v.y * v.y) with hp
  have hpval : p = (N + h) * Real.cos φ := by
    rw [hp, vx, vy, show (N + h) * Real.cos φ * Real.cos lam * ((N + h) * Real.cos φ * Real.cos lam) +
      (N + h) * Real.cos φ * Real.sin lam * ((N + h) * Real.cos φ * Real.sin lam) =
      ((N + h) * Real.cos φ) ^ 2 * (Real.sin lam ^ 2 + Real.cos lam ^ 2) by ring, t1, mul_one]
    exact Real.sqrt_sq (mul_nonneg hNh.le hcos)
  -- the zero
  set K := (N + h) / ((1 - e2) * N + h) with hKdef
  have hKM : K * ((1 - e2) * N + h) = N + h := by rw [hKdef, div_mul_cancel₀ _ hM.ne']
  have hKz : K * v.z = (N + h) * Real.sin φ := by rw [vz, ← mul_assoc, hKM]
  have hK1 : 1 ≤ K := by rw [hKdef, le_div_iff₀ hM]; nlinarith
  have hK2 : K ≤ 1.0069 := by rw [hKdef, div_le_iff₀ hM]; nlinarith
  have hrootK : root p v.z K = (N + h) * (a / N) := by
    unfold root
    have : p * p + (1 - e2) * v.z * v.z * K ^ 2 = ((N + h) * (a / N)) ^ 2 := by
      have e1 : (1 - e2) * v.z * v.z * K ^ 2 = (1 - e2) * (K * v.z) ^ 2 := by ring
      rw [e1, hKz, hpval, mul_pow (N + h) (a / N), div_pow, ← hN2]
      field_simp
      linear_combination t2
    rw [this]
    exact Real.sqrt_sq (by positivity)
  have hroota : 0.991 * a ≤ root p v.z K := by
    rw [hrootK, ← mul_div_assoc, le_div_iff₀ hNpos]
    have h1 : 0.991 * N ≤ N + h := by linarith
    have := mul_le_mul_of_nonneg_right h1 ha.le
    linarith
  have h0 : resid p v.z K = 0 := by
    unfold resid
    rw [hrootK]
    have : e2 * a * K / ((N + h) * (a / N)) = e2 * N / ((1 - e2) * N + h) := by
      rw [hKdef]; field_simp
    rw [this, hKdef]
    field_simp
    ring
  obtain ⟨k, hk, hkK, hkd⟩ := loop_right p v.z K n hK1 hK2 h0 hroota
  have hk1 : 1 ≤ k := hK1.trans hkK
  have hp0 : 0 ≤ p := Real.sqrt_nonneg _
  have hlen : v.length ^ 2 = p * p + v.z * v.z := by
    have e1 := V3.length_sq v
    have e2' : p * p = v.x * v.x + v.y * v.y :=
      Real.mul_self_sqrt (add_nonneg (mul_self_nonneg _) (mul_self_nonneg _))
    simp only [dot] at e1
    rw [e2', sq, e1]
  refine ⟨(degrees (Quat.atan2 (k * v.z) p), degrees (Quat.atan2 v.y v.x - Sphere.rotationRate * t),
    (1 / e2) * (1 / k - 1 / (1 / (1 - e2))) * Real.sqrt (p * p + v.z * v.z * k * k)), ?_, ?_, ?_, ?_⟩
  · unfold cartesianToGeodetic
    simp only [← hp]
    rw [hk]
    simp only [if_neg (by linarith : ¬ k = 0)]
  · show |radians (degrees _) - φ| ≤ _
    rw [radians_degrees]
    have hlat : Quat.atan2 (K * v.z) p = φ := by
      rw [hKz, hpval]
      have := Real.pi_pos
      exact atan2_polar _ _ hNh (by linarith) (by linarith)
    rw [← hlat]
    have := atan2_scale p v.z K k hp0 hK1 hkK
    calc _ ≤ _ := this
      _ ≤ (1 / 2) * 1e-21 := mul_le_mul_of_nonneg_left hkd (by norm_num)
      _ ≤ _ := by norm_num
  · -- height
    have hval : (1 / e2) * (1 / K - (1 - e2)) * Real.sqrt (p * p + v.z * v.z * K * K) = h := by
      have e1 : p * p + v.z * v.z * K * K = (N + h) ^ 2 := by
        have : v.z * v.z * K * K = (K * v.z) ^ 2 := by ring
        rw [this, hKz, hpval]; linear_combination (N + h) ^ 2 * t2
      rw [e1, Real.sqrt_sq hNh.le, hKdef]
      field_simp
      ring
    have hkv : 1 / (1 / (1 - e2)) = 1 - e2 := by rw [one_div_one_div]
    show |1 / e2 * (1 / k - 1 / (1 / (1 - e2))) * Real.sqrt (p * p + v.z * v.z * k * k) - h| ≤ _
    rw [hkv]
    have hLpos : 0 < v.length := by
      rcases (V3.length_nonneg v).lt_or_eq with h | h
      · exact h
      · exfalso
        have hv0 := (V3.length_zero_iff v).1 h.symm
        have hz0 : v.z = 0 := by rw [hv0]; rfl
        have hp00 : p = 0 := by rw [hp, hv0]; simp
        have : root p v.z K = 0 := by unfold root; rw [hz0, hp00]; simp
        linarith
    exact height_bound p v.z K k h v.length hK1 hK2 hkK hkd hLpos hlen hval
  · intro s1 s2
    obtain ⟨q1, q2⟩ := lat_range_strict s1 s2
    have hcp : 0 < (N + h) * Real.cos φ := mul_pos hNh (Real.cos_pos_of_mem_Ioo ⟨q1, q2⟩)
    show (∃ k : ℤ, degrees (Quat.atan2 v.y v.x - Sphere.rotationRate * t) = _) ∧ (_ → _ →
      degrees (Quat.atan2 v.y v.x - Sphere.rotationRate * t) = _)
    rw [vx, vy]
    constructor
    · obtain ⟨k, hk⟩ := atan2_polar_mod _ lam hcp
      refine ⟨k, ?_⟩
      rw [hk, hlam]
      unfold degrees radians
      field_simp
      ring
    · intro a1 a2
      rw [atan2_polar _ _ hcp a1 a2, hlam, add_sub_cancel_right, degrees_radians]

-- the shore of the Dead Sea
example : ∃ g, cartesianToGeodetic 4 (geodeticToCartesian 31.5 35.5 (-430) 0) 0 = .ok g ∧ |radians g.1 - radians 31.5| ≤ 1e-21 :=
  let ⟨g, h, h', _⟩ := wgs_roundtrip 0 31.5 35.5 (-430) 0 (by norm_num) (by norm_num) (by norm_num)
  ⟨g, h, h'⟩

example : ∃ g, cartesianToGeodetic 4 (geodeticToCartesian 51 (-114) 1045 60) 60 = .ok g ∧ |radians g.1 - radians 51| ≤ 1e-21 :=
  let ⟨g, h, h', _⟩ := wgs_roundtrip 0 51 (-114) 1045 60 (by norm_num) (by norm_num) (by norm_num)
  ⟨g, h, h'⟩

end Mapleaf.ENV.WGS
