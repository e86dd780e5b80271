import Mathlib.Analysis.SpecialFunctions.Trigonometric.Arctan
import Verif.Rocket.FinGeomProps
import Verif.Rocket.AeroForceProps
import Verif.Motion.InterpProps

/-!
# C42, C45: forces of fins
-/

namespace Mapleaf.Rocket
open Mapleaf.Motion V3

/-! ## Slices -/

/-- **C45.** The supersonic slice force is odd in the angle of attack; the second coefficient has no influence. -/
theorem supersonic_slice {K : Type} [Field K] (k1 k2 k3 a area : K) :
    sliceForceSupersonic k1 k2 k3 a area = 2 * a * (k1 + k3 * a ^ 2) * area := by
  unfold sliceForceSupersonic; ring

/-- **C45.** The first and third Busemann coefficients are positive at every supersonic Mach number. -/
theorem busemann_pos (mach beta : ℝ) (hm : 1 ≤ mach) (hb : 0 < beta) : 0 < (busemann mach beta).1 ∧ 0 < (busemann mach beta).2.2 := by
  unfold busemann
  dsimp only
  refine ⟨by positivity, ?_⟩
  apply div_pos _ (by positivity)
  have e : ((1.4 : ℝ) + 1) * mach ^ 8 + (2 * 1.4 ^ 2 - 7 * 1.4 - 5) * mach ^ 6 + 10 * (1.4 + 1) * mach ^ 4 - 12 * mach ^ 2 + 8 =
      mach ^ 4 * (2.4 * (mach ^ 2) ^ 2 - 10.88 * mach ^ 2 + 12.4) + (11.6 * (mach ^ 2) ^ 2 - 12 * mach ^ 2 + 8) := by ring
  rw [e]
  have h1 : 0 < 2.4 * (mach ^ 2) ^ 2 - 10.88 * mach ^ 2 + 12.4 := by nlinarith [sq_nonneg (mach ^ 2 - 34 / 15)]
  have h2 : 0 < 11.6 * (mach ^ 2) ^ 2 - 12 * mach ^ 2 + 8 := by nlinarith [sq_nonneg (mach ^ 2 - 15 / 29)]
  have h3 : 0 < mach ^ 4 := by positivity
  have := mul_pos h3 h1
  linarith

/-- **C45.** The Mach cone correction is between one half and one. -/
theorem machCone_range (cone : ℝ) (s : FinSlice) (hl : 0 < s.len) : 1 / 2 ≤ machConeFactor cone s ∧ machConeFactor cone s ≤ 1 := by
  unfold machConeFactor
  dsimp only
  have h0 : 0 ≤ |cone - s.le| / s.len := by positivity
  have h1 : 0 ≤ min 1 (|cone - s.le| / s.len) := le_min (by norm_num) h0
  have h2 : min 1 (|cone - s.le| / s.len) ≤ 1 := min_le_left _ _
  constructor <;> norm_num <;> linarith

/-- **C45.** The lift slope is positive. -/
theorem cnAlpha_pos (span planform beta sweep : ℝ) (hs : 0 < span) (hp : 0 < planform) : 0 < cnAlpha span planform beta sweep := by
  unfold cnAlpha
  dsimp only
  have := Real.sqrt_nonneg (4 + (beta * (2 * span ^ 2 / planform) / Real.cos sweep) ^ 2)
  have := Real.pi_pos
  positivity

/-- the angle of attack without the limit -/
noncomputable def rawAOA (normalSpeed speed : ℝ) : ℝ :=
  open Classical in
  if speed ≥ 0.1 then Real.arcsin (if |normalSpeed * (1 / speed) - 1| < 1e-14 then 1 else normalSpeed * (1 / speed)) else 0

/-- **C45.** The lift slope is the positive root of Diederich's equation for the aspect ratio `A = 2 b² / S`; without compressibility
(`beta = 0`) it is the slender wing's `π A / 2`, and never more than that. -/
theorem cnAlpha_root (span planform beta sweep : ℝ) (hs : 0 < span) (hp : 0 < planform) :
    (∀ c : ℝ, 0 < c → (cnAlpha span planform beta sweep = c ↔
      (2 * span ^ 2 / planform) * (beta / Real.cos sweep) ^ 2 * c ^ 2 + 8 * Real.pi * c = 4 * Real.pi ^ 2 * (2 * span ^ 2 / planform))) ∧
    cnAlpha span planform 0 sweep = Real.pi * (span ^ 2 / planform) ∧
    cnAlpha span planform beta sweep ≤ Real.pi * (span ^ 2 / planform) := by
  have hpos := cnAlpha_pos span planform beta sweep hs hp
  obtain ⟨A, hA⟩ : ∃ A, A = 2 * span ^ 2 / planform := ⟨_, rfl⟩
  have hA0 : 0 < A := by rw [hA]; positivity
  have hpi := Real.pi_pos
  obtain ⟨x, hx⟩ : ∃ x, x = beta / Real.cos sweep := ⟨_, rfl⟩
  have hval : ∀ b : ℝ, cnAlpha span planform b sweep = 2 * Real.pi * A / (2 + Real.sqrt (4 + (b / Real.cos sweep * A) ^ 2)) := by
    intro b
    unfold cnAlpha
    dsimp only
    rw [← hA]
    congr 5
    ring
  have hr := Real.sqrt_nonneg (4 + (x * A) ^ 2)
  have hr2 := Real.sq_sqrt (show 0 ≤ 4 + (x * A) ^ 2 by positivity)
  have hroot : A * x ^ 2 * cnAlpha span planform beta sweep ^ 2 + 8 * Real.pi * cnAlpha span planform beta sweep = 4 * Real.pi ^ 2 * A := by
    rw [hval, ← hx]
    generalize Real.sqrt (4 + (x * A) ^ 2) = r at *
    have hd : 2 + r ≠ 0 := by positivity
    field_simp
    nlinarith [hr2]
  rw [← hx, ← hA]
  refine ⟨fun c hc => ⟨fun h => by rw [← h]; exact hroot, fun h => ?_⟩, ?_, ?_⟩
  · generalize cnAlpha span planform beta sweep = d at *
    have e : (d - c) * (A * x ^ 2 * (d + c) + 8 * Real.pi) = 0 := by linear_combination hroot - h
    rcases mul_eq_zero.1 e with e | e
    · linarith
    · have : 0 ≤ A * x ^ 2 * (d + c) := by positivity
      linarith
  · rw [hval, zero_div, zero_mul, show (4 : ℝ) + 0 ^ 2 = 2 ^ 2 by norm_num, Real.sqrt_sq (by norm_num), hA]
    field_simp
    norm_num
  · have e : span ^ 2 / planform = A / 2 := by rw [hA]; ring
    rw [e]
    have : 0 ≤ A * x ^ 2 * cnAlpha span planform beta sweep ^ 2 := by positivity
    nlinarith

example : (0 : ℝ) < 1 ∧ (0 : ℝ) < 2 := by norm_num

/-- **C45.** The coefficients of the supersonic pressure law, for air. -/
theorem busemann_value (mach beta : ℝ) :
    busemann mach beta = (2 / beta, (2.4 * mach ^ 4 - 4 * beta ^ 2) / (4 * beta ^ 4),
      (2.4 * mach ^ 8 - 10.88 * mach ^ 6 + 24 * mach ^ 4 - 12 * mach ^ 2 + 8) / (6 * beta ^ 7)) := by
  unfold busemann
  dsimp only
  refine Prod.ext rfl (Prod.ext ?_ ?_)
  · dsimp only; congr 1; ring
  · dsimp only; congr 1; ring

/-- **C45.** The interference with the body raises the fins' normal force, by the radius over the tip radius: not at all without a body,
more for a larger body, and never to twice the force. -/
theorem interference_range (g : FinGeom) (hs : 0 < g.span) (hr : 0 ≤ g.bodyRadius) :
    (g.bodyInterference - 1) * (g.bodyRadius + g.span) = g.bodyRadius ∧ 1 ≤ g.bodyInterference ∧ g.bodyInterference < 2 ∧
    (g.bodyInterference = 1 ↔ g.bodyRadius = 0) ∧
    ∀ g' : FinGeom, g'.span = g.span → g.bodyRadius < g'.bodyRadius → g.bodyInterference < g'.bodyInterference := by
  have hp : 0 < g.span + g.bodyRadius := by linarith
  unfold FinGeom.bodyInterference
  refine ⟨by field_simp; ring, ?_, ?_, ?_, ?_⟩
  · have : 0 ≤ g.bodyRadius / (g.span + g.bodyRadius) := by positivity
    linarith
  · have : g.bodyRadius / (g.span + g.bodyRadius) < 1 := by rw [div_lt_one hp]; linarith
    linarith
  · rw [add_eq_left, div_eq_zero_iff]
    exact ⟨fun h => h.resolve_right hp.ne', Or.inl⟩
  · intro g' e h
    rw [e]
    have : g.bodyRadius / (g.span + g.bodyRadius) < g'.bodyRadius / (g.span + g'.bodyRadius) := by
      rw [div_lt_div_iff₀ hp (by linarith)]; nlinarith
    linarith

example : ∃ g : FinGeom, 0 < g.span ∧ 0 ≤ g.bodyRadius := ⟨⟨3, 0, 0, 0, 2, 1, 1, 1, 3⟩, by norm_num, by norm_num⟩

/-- **C45.** The trailing edge sweep is the angle whose slope is how far the back of the tip chord lies behind the back of the root chord
per unit of span, negative for a forward-swept rear. -/
theorem trailing_edge_sweep (g : FinGeom) (hb : 0 < g.span) :
    g.trailingEdgeSweep = Real.arctan ((g.tipChord + g.span * Real.tan g.sweep - g.rootChord) / g.span) := by
  have key : ∀ y : ℝ, Quat.atan2 y g.span = Real.arctan (y / g.span) := by
    intro y
    unfold Quat.atan2
    have hre : ((g.span : ℂ) + y * Complex.I).re = g.span := by simp
    have him : ((g.span : ℂ) + y * Complex.I).im = y := by simp
    have h1 : |Complex.arg ((g.span : ℂ) + y * Complex.I)| < Real.pi / 2 :=
      Complex.abs_arg_lt_pi_div_two_iff.2 (Or.inl (by rw [hre]; exact hb))
    rw [← Real.arctan_tan (abs_lt.1 h1).1 (abs_lt.1 h1).2, Complex.tan_arg, hre, him]
  unfold FinGeom.trailingEdgeSweep
  dsimp only
  split
  · rename_i h; rw [h]; simp
  · split
    · rename_i h; rw [key, abs_of_neg h, neg_div, Real.arctan_neg]; ring
    · rename_i h; rw [key, abs_of_nonneg (not_lt.1 h)]

/-- **C45.** The sweep used for the middle of the chord is the mean of the two edges' angles. -/
theorem mid_chord_sweep (g : FinGeom) (hb : 0 < g.span) :
    g.midChordSweep = (g.sweep + Real.arctan ((g.tipChord + g.span * Real.tan g.sweep - g.rootChord) / g.span)) / 2 := by
  unfold FinGeom.midChordSweep
  rw [trailing_edge_sweep g hb]

/-- **C45** violated: that is not the sweep of the line through the middles of the chords, whose slope is the mean of the two edges'
slopes: for an unswept leading edge and a chord that shrinks by the span the two differ. -/
theorem mid_chord_violated (g : FinGeom) (hb : 0 < g.span) (hs : g.sweep = 0) (ht : g.rootChord - g.tipChord = g.span) :
    g.midChordSweep = -(Real.pi / 8) ∧
    g.midChordSweep ≠ Real.arctan ((Real.tan g.sweep + (g.tipChord + g.span * Real.tan g.sweep - g.rootChord) / g.span) / 2) := by
  have e : (g.tipChord + g.span * Real.tan g.sweep - g.rootChord) / g.span = -1 := by
    rw [hs, Real.tan_zero, div_eq_iff hb.ne']; linarith
  have h : g.midChordSweep = -(Real.pi / 8) := by
    rw [mid_chord_sweep g hb, e, hs, Real.arctan_neg, Real.arctan_one]; ring
  refine ⟨h, fun hc => ?_⟩
  rw [h, e, hs, Real.tan_zero, zero_add, neg_div, Real.arctan_neg, neg_inj] at hc
  have h1 : 2 * Real.arctan (1 / 2 : ℝ) = Real.arctan (2 * (1 / 2) / (1 - (1 / 2) ^ 2)) :=
    Real.two_mul_arctan (by norm_num) (by norm_num)
  have h2 : Real.arctan 1 < Real.arctan (2 * (1 / 2) / (1 - (1 / 2) ^ 2) : ℝ) := Real.arctan_strictMono (by norm_num)
  rw [Real.arctan_one] at h2
  linarith

example : ∃ g : FinGeom, 0 < g.span ∧ g.sweep = 0 ∧ g.rootChord - g.tipChord = g.span :=
  ⟨⟨3, 0, 0, 0, 2, 1, 1, 1, 3⟩, by norm_num, rfl, by norm_num⟩

/-- **C45** violated: the aspect ratio is meant to be that of the wing made of the fin and its mirror image, span `2b` and area `2A`, but
the square of that span is divided by the area of one fin, so it is twice that wing's. The "stall angle" follows from it. -/
theorem aspect_ratio_violated (g : FinGeom) (hb : g.span ≠ 0) (hc : g.tipChord + g.rootChord ≠ 0) :
    g.aspectRatio = 8 * g.span / (g.rootChord + g.tipChord) ∧
    g.aspectRatio = 2 * ((2 * g.span) ^ 2 / (2 * (g.span * (g.rootChord + g.tipChord) / 2))) ∧
    g.stallAngle = 15 + 33 / 16 * ((g.rootChord + g.tipChord) / g.span) := by
  have hc' : g.rootChord + g.tipChord ≠ 0 := by rwa [add_comm]
  have h : g.aspectRatio = 8 * g.span / (g.rootChord + g.tipChord) := by
    unfold FinGeom.aspectRatio FinGeom.planformArea
    rw [add_comm g.tipChord]
    field_simp
    ring
  refine ⟨h, by rw [h]; field_simp; norm_num, ?_⟩
  unfold FinGeom.stallAngle
  rw [h]
  field_simp
  ring

/-- **C45** violated: the "stall angle" is computed in degrees (at least 15) and compared with radians (at most π/2), so that it never
limits anything. -/
theorem stall_limit_violated (g : FinGeom) (har : 0 < g.aspectRatio) (radius : ℝ) (airVel tang normal : V3 ℝ) :
    Real.pi / 2 < g.stallAngle ∧
    finSliceAOA radius airVel tang normal g.stallAngle = rawAOA (dot normal (airVel + radius • tang)) (airVel + radius • tang).length := by
  have hs : Real.pi / 2 < g.stallAngle := by
    unfold FinGeom.stallAngle
    have : 0 < 1.1 / g.aspectRatio := by positivity
    linarith [Real.pi_le_four]
  refine ⟨hs, ?_⟩
  unfold finSliceAOA rawAOA
  dsimp only
  rw [if_neg]
  rw [not_lt]
  split
  · exact (abs_le.2 ⟨Real.neg_pi_div_two_le_arcsin _, Real.arcsin_le_pi_div_two _⟩).trans hs.le
  · rw [abs_zero]; linarith [Real.pi_pos]

theorem aoa_raw (radius : ℝ) (airVel tang normal : V3 ℝ) (stall : ℝ) (hs : Real.pi / 2 ≤ stall) :
    finSliceAOA radius airVel tang normal stall = rawAOA (dot normal (airVel + radius • tang)) (airVel + radius • tang).length := by
  unfold finSliceAOA rawAOA
  dsimp only
  rw [if_neg]
  rw [not_lt]
  split
  · exact (abs_le.2 ⟨Real.neg_pi_div_two_le_arcsin _, Real.arcsin_le_pi_div_two _⟩).trans hs
  · rw [abs_zero]; linarith [Real.pi_pos]

theorem rawAOA_sign (x s : ℝ) (hs : 0 ≤ s) (hx : |x| ≤ s) : 0 ≤ rawAOA x s * x ∧ (0.1 ≤ s → x ≠ 0 → 0 < rawAOA x s * x) := by
  have key : 0.1 ≤ s → 0 ≤ rawAOA x s * x ∧ (x ≠ 0 → 0 < rawAOA x s * x) := by
    intro h
    have hs0 : 0 < s := by linarith
    unfold rawAOA
    rw [if_pos h]
    split
    · rename_i h1
      have h1 := (abs_lt.1 h1).1
      have h2 : 0 < x * (1 / s) := by linarith
      have h3 : 0 < x := by
        have : x = x * (1 / s) * s := by field_simp
        rw [this]; positivity
      rw [Real.arcsin_one]
      have := mul_pos (div_pos Real.pi_pos two_pos) h3
      exact ⟨this.le, fun _ => this⟩
    · rcases lt_trichotomy x 0 with h3 | h3 | h3
      · have h4 : x * (1 / s) < 0 := mul_neg_of_neg_of_pos h3 (by positivity)
        have := Real.arcsin_lt_zero.2 h4
        have := mul_pos_of_neg_of_neg this h3
        exact ⟨this.le, fun _ => this⟩
      · rw [h3]; simp
      · have h4 : 0 < x * (1 / s) := by positivity
        have := mul_pos (Real.arcsin_pos.2 h4) h3
        exact ⟨this.le, fun _ => this⟩
  by_cases h : 0.1 ≤ s
  · exact ⟨(key h).1, fun _ => (key h).2⟩
  · unfold rawAOA
    rw [if_neg h]
    exact ⟨by simp, fun h' => absurd h' h⟩

theorem div_sqrt_mono (c x y : ℝ) (hc : 0 ≤ c) (hxy : x ≤ y) (hx : 0 < x ^ 2 + c) (hy : 0 < y ^ 2 + c) :
    x * (1 / Real.sqrt (x ^ 2 + c)) ≤ y * (1 / Real.sqrt (y ^ 2 + c)) := by
  have hsx : 0 < Real.sqrt (x ^ 2 + c) := Real.sqrt_pos.2 hx
  have hsy : 0 < Real.sqrt (y ^ 2 + c) := Real.sqrt_pos.2 hy
  have pos : ∀ a b : ℝ, 0 ≤ a → a ≤ b → 0 < a ^ 2 + c → 0 < b ^ 2 + c →
      a * (1 / Real.sqrt (a ^ 2 + c)) ≤ b * (1 / Real.sqrt (b ^ 2 + c)) := by
    intro a b ha hab h1 h2
    have hsa : 0 < Real.sqrt (a ^ 2 + c) := Real.sqrt_pos.2 h1
    have hsb : 0 < Real.sqrt (b ^ 2 + c) := Real.sqrt_pos.2 h2
    rw [mul_one_div, mul_one_div, div_le_div_iff₀ hsa hsb]
    have e1 : a * Real.sqrt (b ^ 2 + c) = Real.sqrt (a ^ 2 * (b ^ 2 + c)) := by
      rw [Real.sqrt_mul (by positivity), Real.sqrt_sq ha]
    have e2 : b * Real.sqrt (a ^ 2 + c) = Real.sqrt (b ^ 2 * (a ^ 2 + c)) := by
      rw [Real.sqrt_mul (by positivity), Real.sqrt_sq (ha.trans hab)]
    rw [e1, e2]
    apply Real.sqrt_le_sqrt
    nlinarith [mul_le_mul_of_nonneg_right (pow_le_pow_left₀ ha hab 2) hc]
  rcases le_total 0 x with h | h
  · exact pos x y h hxy hx hy
  · rcases le_total 0 y with h' | h'
    · have h1 : x * (1 / Real.sqrt (x ^ 2 + c)) ≤ 0 := mul_nonpos_of_nonpos_of_nonneg h (by positivity)
      have h2 : 0 ≤ y * (1 / Real.sqrt (y ^ 2 + c)) := by positivity
      linarith
    · have := pos (-y) (-x) (by linarith) (by linarith) (by rw [neg_sq]; exact hy) (by rw [neg_sq]; exact hx)
      rw [neg_sq, neg_sq] at this
      linarith

theorem rawAOA_mono (c x y : ℝ) (hc : 0 ≤ c) (hxy : x ≤ y) (hx : 0.1 ≤ Real.sqrt (x ^ 2 + c)) (hy : 0.1 ≤ Real.sqrt (y ^ 2 + c)) :
    rawAOA x (Real.sqrt (x ^ 2 + c)) ≤ rawAOA y (Real.sqrt (y ^ 2 + c)) := by
  have hx0 : 0 < x ^ 2 + c := Real.sqrt_pos.1 (by linarith)
  have hy0 : 0 < y ^ 2 + c := Real.sqrt_pos.1 (by linarith)
  have hm := div_sqrt_mono c x y hc hxy hx0 hy0
  have le1 : ∀ a : ℝ, 0 < a ^ 2 + c → a * (1 / Real.sqrt (a ^ 2 + c)) ≤ 1 := by
    intro a ha
    rw [mul_one_div, div_le_one (Real.sqrt_pos.2 ha)]
    calc a ≤ |a| := le_abs_self a
      _ = Real.sqrt (a ^ 2) := (Real.sqrt_sq_eq_abs a).symm
      _ ≤ _ := Real.sqrt_le_sqrt (by linarith)
  unfold rawAOA
  rw [if_pos hx, if_pos hy]
  apply Real.monotone_arcsin
  split
  · rename_i h1
    have h1 := (abs_lt.1 h1).1
    split
    · exact le_rfl
    · rename_i h2
      exfalso
      apply h2
      rw [abs_lt]
      have := le1 y hy0
      constructor <;> linarith
  · split
    · exact le1 x hx0
    · exact hm

/-! ## The loop over the slices -/

theorem sliceLoop_spec {K : Type} [Field K] {S : Type} (radius force : S → K) (cp : K) (l : List S) :
    (sliceLoop radius force cp l).1 = (l.map force).sum ∧
    (sliceLoop radius force cp l).2 = (l.map force).sum * cp - (l.map fun s => force s * radius s).sum := by
  have key : ∀ (l : List S) (t : K × K), l.foldl (fun t s => (t.1 + force s, t.2 + force s * (cp - radius s))) t =
      (t.1 + (l.map force).sum, t.2 + ((l.map force).sum * cp - (l.map fun s => force s * radius s).sum)) := by
    intro l
    induction l with
    | nil => intro t; simp
    | cons a l ih =>
      intro t
      rw [List.foldl_cons, ih]
      simp only [List.map_cons, List.sum_cons, Prod.mk.injEq]
      constructor <;> ring
  unfold sliceLoop
  rw [key]
  simp

/-- the cubic through two points with two slopes, all values at distance 0.001 from the ends of the range from Mach 0.8 to 1.4 -/
noncomputable def finBlend (X y1 y2 y1p y2p : ℝ) : ℝ :=
  y1 * ((1 - (X - 0.8) / 0.6) ^ 2 * (1 + 2 * ((X - 0.8) / 0.6))) + y2 * (((X - 0.8) / 0.6) ^ 2 * (3 - 2 * ((X - 0.8) / 0.6))) +
    0.6 * ((y1p - y1) / 0.001 * ((X - 0.8) / 0.6 * (1 - (X - 0.8) / 0.6) ^ 2) -
      (y2p - y2) / 0.001 * (((X - 0.8) / 0.6) ^ 2 * (1 - (X - 0.8) / 0.6)))

open Polynomial in
theorem cubicInterp_finBlend (x y1 y2 y1p y2p : ℝ) : cubicInterp x 0.8 1.4 y1 y2 y1p y2p 0.001 = .ok (finBlend x y1 y2 y1p y2p) := by
  obtain ⟨p, hd, he, h1, h2, h3, h4⟩ := (cubicInterp_spec (0.8 : ℝ) 1.4 y1 y2 y1p y2p 0.001).2.1 (by norm_num) (by norm_num)
  rw [he x]
  congr 1
  have hp : p = C (p.coeff 0) + C (p.coeff 1) * X + C (p.coeff 2) * X ^ 2 + C (p.coeff 3) * X ^ 3 := by
    conv_lhs => rw [p.as_sum_range_C_mul_X_pow' (show p.natDegree < 4 by omega)]
    simp [Finset.sum_range_succ]
  set a := p.coeff 0
  set b := p.coeff 1
  set c := p.coeff 2
  set d := p.coeff 3
  rw [hp] at h1 h2 h3 h4 ⊢
  simp at h1 h2 h3 h4 ⊢
  unfold finBlend
  rw [← h1, ← h2] at *
  rw [← h3, ← h4]
  field_simp
  ring

theorem finBlend_pos (X y1 y2 y1p y2p : ℝ) (h0 : 0 < (X - 0.8) / 0.6) (h1 : (X - 0.8) / 0.6 < 1) (h2 : 0 ≤ y1) (h3 : y1 ≤ y1p)
    (h4 : 0 < y2) (h5 : y2p ≤ 1.005 * y2) : 0 < finBlend X y1 y2 y1p y2p := by
  unfold finBlend
  set t := (X - 0.8) / 0.6
  have u0 : 0 < 1 - t := by linarith
  have e : y1 * ((1 - t) ^ 2 * (1 + 2 * t)) + y2 * (t ^ 2 * (3 - 2 * t)) + 0.6 * ((y1p - y1) / 0.001 * (t * (1 - t) ^ 2) -
      (y2p - y2) / 0.001 * (t ^ 2 * (1 - t))) = y1 * ((1 - t) ^ 2 * (1 + 2 * t)) + 600 * (y1p - y1) * (t * (1 - t) ^ 2) +
      600 * (1.005 * y2 - y2p) * (t ^ 2 * (1 - t)) + y2 * t ^ 3 := by ring
  rw [e]
  have a1 : 0 ≤ y1 * ((1 - t) ^ 2 * (1 + 2 * t)) := by positivity
  have a2 : 0 ≤ 600 * (y1p - y1) * (t * (1 - t) ^ 2) := by
    have : 0 ≤ y1p - y1 := by linarith
    positivity
  have a3 : 0 ≤ 600 * (1.005 * y2 - y2p) * (t ^ 2 * (1 - t)) := by
    have : 0 ≤ 1.005 * y2 - y2p := by linarith
    positivity
  have a4 : 0 < y2 * t ^ 3 := by positivity
  linarith

namespace FinP

/-- a usable fin: unit direction across the axis, attached on the axis, sensible slices, stall angle out of reach (see
`stall_limit_violated`) -/
structure Ok (p : FinP) : Prop where
  sz : p.spanwise.z = 0
  unit : p.spanwise.x ^ 2 + p.spanwise.y ^ 2 = 1
  slices : p.slices ≠ []
  areas : ∀ s ∈ p.slices, 0 ≤ s.area ∧ 0 ≤ s.radius ∧ 0 < s.len
  stall : Real.pi / 2 ≤ p.stall
  span : 0 < p.span
  planform : 0 < p.planform
  cp : 0 ≤ p.cpRadius
  px : p.position.x = 0
  py : p.position.y = 0

theorem cpSpanwise_length (p : FinP) (h : p.Ok) : p.cpSpanwise.length = p.cpRadius := by
  unfold cpSpanwise
  rw [V3.length_smul, abs_of_nonneg h.cp]
  have : p.spanwise.length = 1 := by
    have h1 := V3.length_sq p.spanwise
    simp only [dot, h.sz] at h1
    have h2 := h.unit
    nlinarith [V3.length_nonneg p.spanwise]
  rw [this, mul_one]

/-- **C45.** The normal of a fin deflected by `delta` degrees. -/
theorem deflected_normal (p : FinP) (h : p.Ok) (delta : ℝ) :
    ∃ r, (Quat.axisAngle p.spanwise (delta * Real.pi / 180)).rotate p.normal0 =
      .ok (⟨Real.cos (delta * Real.pi / 180) * p.spanwise.y, -(Real.cos (delta * Real.pi / 180) * p.spanwise.x),
        -Real.sin (delta * Real.pi / 180)⟩, r) := by
  have hs : p.spanwise ≠ 0 := by
    intro h0
    have := h.unit
    rw [h0] at this
    simp at this
  obtain ⟨-, ⟨r, hr⟩, -⟩ := Quat.axisAngle_rotates p.spanwise (delta * Real.pi / 180) hs p.normal0
  refine ⟨r, ?_⟩
  rw [hr]
  have hu : p.spanwise.normalize = p.spanwise := by
    refine (V3.normalize_unique p.spanwise p.spanwise hs ?_).symm
    have : p.spanwise.length = 1 := by
      have h1 := V3.length_sq p.spanwise
      simp only [dot, h.sz] at h1
      have h2 := h.unit
      nlinarith [V3.length_nonneg p.spanwise]
    rw [this, one_smul]
  rw [hu]
  congr 2
  unfold Quat.rodrigues
  have h1 := h.unit
  have h2 := h.sz
  have e : p.spanwise.x * p.spanwise.x + p.spanwise.y * p.spanwise.y = 1 := by nlinarith
  ext
  · simp [normal0, cross, dot, h2]
    try ring
  · simp [normal0, cross, dot, h2]
    try ring
  · simp only [normal0, cross, dot, h2, add_z, smul_z]
    linear_combination (-Real.sin (delta * Real.pi / 180)) * e

/-- the force law of one slice below Mach 0.8 -/
noncomputable def subLaw (p : FinP) (mach : ℝ) (s : FinSlice) (a : ℝ) : ℝ :=
  cnAlpha p.span p.planform (Real.sqrt (1 - mach ^ 2)) p.midSweep * a * s.area

/-- the radius of the outermost slice -/
noncomputable def outer (p : FinP) : ℝ := (p.slices.getLast?.map FinSlice.radius).getD 0

/-- the Mach cone correction of a slice -/
noncomputable def coneFactor (p : FinP) (mach : ℝ) (s : FinSlice) : ℝ :=
  machConeFactor ((p.outer - s.radius) * (1 / Real.tan (Real.arcsin (1 / mach))) + p.tipPosition) s

/-- the force law of one slice from Mach 1.4 up -/
noncomputable def supLaw (p : FinP) (mach : ℝ) (s : FinSlice) (a : ℝ) : ℝ :=
  2 * a * ((busemann mach (Real.sqrt (mach ^ 2 - 1))).1 + (busemann mach (Real.sqrt (mach ^ 2 - 1))).2.2 * a ^ 2) * s.area *
    p.coneFactor mach s

/-- the force law of one slice: between Mach 0.8 and 1.4 a cubic with the values and (one-sided difference) slopes of its neighbours -/
noncomputable def law (p : FinP) (mach : ℝ) (s : FinSlice) (a : ℝ) : ℝ :=
  open Classical in
  if mach ≤ 0.8 then p.subLaw mach s a
  else if mach < 1.4 then finBlend mach (p.subLaw 0.8 s a) (p.supLaw 1.4 s a) (p.subLaw (0.8 + 0.001) s a) (p.supLaw (1.4 + 0.001) s a)
  else p.supLaw mach s a

theorem subsonic_law (p : FinP) (h : p.Ok) (airVel normal : V3 ℝ) (w mach : ℝ) (hm0 : 0 ≤ mach) (hm : mach ≤ 0.9) :
    p.subsonic airVel normal w mach = .ok ((p.slices.map fun s => p.subLaw mach s (p.aoa airVel normal w s)).sum,
      (p.slices.map fun s => p.subLaw mach s (p.aoa airVel normal w s)).sum * p.cpRadius -
        (p.slices.map fun s => p.subLaw mach s (p.aoa airVel normal w s) * s.radius).sum) := by
  have hb : getBeta mach = .ok (Real.sqrt (1 - mach ^ 2)) := by
    unfold getBeta
    rw [if_pos hm, if_neg (by nlinarith)]
  unfold subsonic
  rw [hb, cpSpanwise_length p h]
  simp only [Except.ok.injEq]
  obtain ⟨e1, e2⟩ := sliceLoop_spec FinSlice.radius
    (fun s => cnAlpha p.span p.planform (Real.sqrt (1 - mach ^ 2)) p.midSweep * p.aoa airVel normal w s * s.area) p.cpRadius p.slices
  exact Prod.ext e1 e2

theorem supersonic_law (p : FinP) (h : p.Ok) (airVel normal : V3 ℝ) (w mach : ℝ) (hm : 1.4 ≤ mach) :
    p.supersonic airVel normal w mach = .ok ((p.slices.map fun s => p.supLaw mach s (p.aoa airVel normal w s)).sum,
      (p.slices.map fun s => p.supLaw mach s (p.aoa airVel normal w s)).sum * p.cpRadius -
        (p.slices.map fun s => p.supLaw mach s (p.aoa airVel normal w s) * s.radius).sum) := by
  have hb : getBeta mach = .ok (Real.sqrt (mach ^ 2 - 1)) := by
    unfold getBeta
    rw [if_neg (by norm_num at hm ⊢; linarith), if_pos (by norm_num at hm ⊢; linarith)]
  unfold supersonic
  rw [hb, cpSpanwise_length p h]
  simp only
  obtain ⟨last, hlast⟩ : ∃ last, p.slices.getLast? = some last :=
    ⟨_, List.getLast?_eq_some_getLast h.slices⟩
  rw [hlast]
  simp only [Except.ok.injEq]
  set F : FinSlice → ℝ := fun s => sliceForceSupersonic (busemann mach (Real.sqrt (mach ^ 2 - 1))).1
    (busemann mach (Real.sqrt (mach ^ 2 - 1))).2.1 (busemann mach (Real.sqrt (mach ^ 2 - 1))).2.2 (p.aoa airVel normal w s) s.area *
    machConeFactor ((last.radius - s.radius) * (1 / Real.tan (Real.arcsin (1 / mach))) + p.tipPosition) s with hF
  have hl : (fun s => p.supLaw mach s (p.aoa airVel normal w s)) = F := by
    funext s
    unfold supLaw coneFactor outer
    rw [hlast, hF]
    simp only [Option.map_some, Option.getD_some, supersonic_slice]
  have hl2 : (fun s => p.supLaw mach s (p.aoa airVel normal w s) * s.radius) = fun s => F s * s.radius := by
    funext s; rw [congrFun hl s]
  rw [hl2, hl]
  obtain ⟨e1, e2⟩ := sliceLoop_spec FinSlice.radius F p.cpRadius p.slices
  exact Prod.ext e1 e2

theorem finBlend_sum (X : ℝ) (l : List FinSlice) (a b c d : FinSlice → ℝ) :
    finBlend X (l.map a).sum (l.map b).sum (l.map c).sum (l.map d).sum = (l.map fun s => finBlend X (a s) (b s) (c s) (d s)).sum := by
  induction l with
  | nil => simp [finBlend]
  | cons s l ih =>
    simp only [List.map_cons, List.sum_cons]
    rw [← ih]
    unfold finBlend
    ring

/-- at every Mach number the normal force is the sum of the slice forces, and the moment makes up for applying it at the centre of
pressure -/
theorem normalForce_law (p : FinP) (h : p.Ok) (airVel normal : V3 ℝ) (w mach : ℝ) (hm0 : 0 ≤ mach) :
    p.normalForce airVel normal w mach = .ok ((p.slices.map fun s => p.law mach s (p.aoa airVel normal w s)).sum,
      (p.slices.map fun s => p.law mach s (p.aoa airVel normal w s)).sum * p.cpRadius -
        (p.slices.map fun s => p.law mach s (p.aoa airVel normal w s) * s.radius).sum) := by
  unfold normalForce
  by_cases h8 : mach ≤ 0.8
  · have hl : p.law mach = p.subLaw mach := by funext s a; unfold law; rw [if_pos h8]
    rw [if_pos h8, subsonic_law p h airVel normal w mach hm0 (by norm_num at h8 ⊢; linarith), hl]
  by_cases h14 : mach < 1.4
  · have hl : p.law mach = fun s a => finBlend mach (p.subLaw 0.8 s a) (p.supLaw 1.4 s a) (p.subLaw (0.8 + 0.001) s a)
        (p.supLaw (1.4 + 0.001) s a) := by funext s a; unfold law; rw [if_neg h8, if_pos h14]
    rw [if_neg h8, if_pos h14, subsonic_law p h airVel normal w _ (by norm_num) (by norm_num),
      subsonic_law p h airVel normal w _ (by norm_num) (by norm_num), supersonic_law p h airVel normal w _ le_rfl,
      supersonic_law p h airVel normal w _ (by norm_num), hl]
    simp only [bind, Except.bind, cubicInterp_finBlend, pure, Except.pure, Except.ok.injEq, Prod.mk.injEq]
    have e1 := finBlend_sum mach p.slices (fun s => p.subLaw 0.8 s (p.aoa airVel normal w s)) (fun s => p.supLaw 1.4 s (p.aoa airVel normal w s))
      (fun s => p.subLaw (0.8 + 0.001) s (p.aoa airVel normal w s)) (fun s => p.supLaw (1.4 + 0.001) s (p.aoa airVel normal w s))
    refine ⟨e1, ?_⟩
    have e2 := finBlend_sum mach p.slices (fun s => p.subLaw 0.8 s (p.aoa airVel normal w s) * s.radius)
      (fun s => p.supLaw 1.4 s (p.aoa airVel normal w s) * s.radius)
      (fun s => p.subLaw (0.8 + 0.001) s (p.aoa airVel normal w s) * s.radius)
      (fun s => p.supLaw (1.4 + 0.001) s (p.aoa airVel normal w s) * s.radius)
    have e3 : (p.slices.map fun s => finBlend mach (p.subLaw 0.8 s (p.aoa airVel normal w s)) (p.supLaw 1.4 s (p.aoa airVel normal w s))
      (p.subLaw (0.8 + 0.001) s (p.aoa airVel normal w s)) (p.supLaw (1.4 + 0.001) s (p.aoa airVel normal w s)) * s.radius) =
      p.slices.map fun s => finBlend mach (p.subLaw 0.8 s (p.aoa airVel normal w s) * s.radius)
      (p.supLaw 1.4 s (p.aoa airVel normal w s) * s.radius)
      (p.subLaw (0.8 + 0.001) s (p.aoa airVel normal w s) * s.radius)
      (p.supLaw (1.4 + 0.001) s (p.aoa airVel normal w s) * s.radius) := by
      apply List.map_congr_left; intro s _; unfold finBlend; ring
    rw [e3, ← e2, ← e1]
    unfold finBlend
    ring
  · have hl : p.law mach = p.supLaw mach := by funext s a; unfold law; rw [if_neg h8, if_neg h14]
    rw [if_neg h8, if_neg h14, supersonic_law p h airVel normal w mach (not_lt.1 h14), hl]

/-- the lift slope grows with the Mach number -/
theorem cnAlpha_anti (span planform b b' sweep : ℝ) (hs : 0 < span) (hp : 0 < planform) (hb : 0 ≤ b) (hbb : b ≤ b') :
    cnAlpha span planform b' sweep ≤ cnAlpha span planform b sweep := by
  unfold cnAlpha
  dsimp only
  have h1 := Real.sqrt_nonneg (4 + (b * (2 * span ^ 2 / planform) / Real.cos sweep) ^ 2)
  have hpi := Real.pi_pos
  refine div_le_div_of_nonneg_left (by positivity) (by linarith) ?_
  have h2 : (b * (2 * span ^ 2 / planform) / Real.cos sweep) ^ 2 ≤ (b' * (2 * span ^ 2 / planform) / Real.cos sweep) ^ 2 := by
    rw [div_pow, div_pow]
    refine div_le_div_of_nonneg_right ?_ (sq_nonneg _)
    exact pow_le_pow_left₀ (by positivity) (mul_le_mul_of_nonneg_right hbb (by positivity)) 2
  linarith [Real.sqrt_le_sqrt (show 4 + (b * (2 * span ^ 2 / planform) / Real.cos sweep) ^ 2 ≤
    4 + (b' * (2 * span ^ 2 / planform) / Real.cos sweep) ^ 2 by linarith)]

/-- the tangent of the Mach angle -/
theorem mach_slope (m : ℝ) (hm : 1 < m) : 1 / Real.tan (Real.arcsin (1 / m)) = Real.sqrt (m ^ 2 - 1) := by
  have h0 : 0 < m := by linarith
  rw [Real.tan_arcsin]
  have e : 1 - (1 / m) ^ 2 = (m ^ 2 - 1) / m ^ 2 := by field_simp
  rw [e, Real.sqrt_div' _ (sq_nonneg m), Real.sqrt_sq h0.le]
  have : 0 < Real.sqrt (m ^ 2 - 1) := Real.sqrt_pos.2 (by nlinarith)
  field_simp

theorem beta_bounds : 0.9797 < Real.sqrt ((1.4 : ℝ) ^ 2 - 1) ∧ Real.sqrt ((1.4 : ℝ) ^ 2 - 1) ≤ Real.sqrt ((1.4 + 0.001 : ℝ) ^ 2 - 1) ∧
    Real.sqrt ((1.4 + 0.001 : ℝ) ^ 2 - 1) ≤ Real.sqrt ((1.4 : ℝ) ^ 2 - 1) + 0.00143 := by
  have h1 : 0.9797 < Real.sqrt ((1.4 : ℝ) ^ 2 - 1) := by
    rw [Real.lt_sqrt (by norm_num)]; norm_num
  refine ⟨h1, Real.sqrt_le_sqrt (by norm_num), ?_⟩
  rw [Real.sqrt_le_left (by linarith)]
  have e := Real.sq_sqrt (show (0 : ℝ) ≤ (1.4 : ℝ) ^ 2 - 1 by norm_num)
  nlinarith

/-- from Mach 1.4 to 1.401 both Busemann coefficients of the force decrease -/
theorem busemann_falls : (busemann (1.4 + 0.001) (Real.sqrt ((1.4 + 0.001 : ℝ) ^ 2 - 1))).1 ≤ (busemann 1.4 (Real.sqrt ((1.4 : ℝ) ^ 2 - 1))).1 ∧
    (busemann (1.4 + 0.001) (Real.sqrt ((1.4 + 0.001 : ℝ) ^ 2 - 1))).2.2 ≤ (busemann 1.4 (Real.sqrt ((1.4 : ℝ) ^ 2 - 1))).2.2 := by
  obtain ⟨h1, h2, -⟩ := beta_bounds
  set b := Real.sqrt ((1.4 : ℝ) ^ 2 - 1) with hb
  set b' := Real.sqrt ((1.4 + 0.001 : ℝ) ^ 2 - 1) with hb'
  have hb0 : 0 < b := by linarith
  have hb0' : 0 < b' := by linarith
  have e1 : b ^ 2 = (1.4 : ℝ) ^ 2 - 1 := Real.sq_sqrt (by norm_num)
  have e2 : b' ^ 2 = (1.4 + 0.001 : ℝ) ^ 2 - 1 := Real.sq_sqrt (by norm_num)
  have p1 : b ^ 7 = ((1.4 : ℝ) ^ 2 - 1) ^ 3 * b := by rw [← e1]; ring
  have p2 : b' ^ 7 = ((1.4 + 0.001 : ℝ) ^ 2 - 1) ^ 3 * b' := by rw [← e2]; ring
  constructor
  · simp only [busemann]
    exact div_le_div_of_nonneg_left (by norm_num) hb0 h2
  · simp only [busemann]
    rw [p1, p2, div_le_div_iff₀ (by positivity) (by positivity)]
    have : ∀ x y : ℝ, 0 ≤ x → x ≤ y → ∀ b b' : ℝ, 0 < b → b ≤ b' → x * b ≤ y * b' := by
      intro x y hx hxy b b' hb hbb
      exact mul_le_mul hxy hbb hb.le (hx.trans hxy)
    have := this _ _ (show (0 : ℝ) ≤ ((1.4 + 1) * (1.4 + 0.001) ^ 8 + (2 * 1.4 ^ 2 - 7 * 1.4 - 5) * (1.4 + 0.001) ^ 6 +
      10 * (1.4 + 1) * (1.4 + 0.001) ^ 4 - 12 * (1.4 + 0.001) ^ 2 + 8) * (6 * ((1.4 : ℝ) ^ 2 - 1) ^ 3) by norm_num)
      (show ((1.4 + 1) * (1.4 + 0.001) ^ 8 + (2 * 1.4 ^ 2 - 7 * 1.4 - 5) * (1.4 + 0.001) ^ 6 +
      10 * (1.4 + 1) * (1.4 + 0.001) ^ 4 - 12 * (1.4 + 0.001) ^ 2 + 8) * (6 * ((1.4 : ℝ) ^ 2 - 1) ^ 3) ≤
      ((1.4 + 1) * 1.4 ^ 8 + (2 * 1.4 ^ 2 - 7 * 1.4 - 5) * 1.4 ^ 6 + 10 * (1.4 + 1) * 1.4 ^ 4 - 12 * 1.4 ^ 2 + 8) *
      (6 * ((1.4 + 0.001 : ℝ) ^ 2 - 1) ^ 3) by norm_num) b b' hb0 h2
    linarith

/-- on a slice at most three times its own length away from the tip the Mach cone correction hardly changes from Mach 1.4 to 1.401 -/
theorem cone_change (p : FinP) (s : FinSlice) (hl : 0 < s.len) (hr : |p.outer - s.radius| ≤ 3 * s.len) :
    p.coneFactor (1.4 + 0.001) s ≤ 1.005 * p.coneFactor 1.4 s := by
  obtain ⟨-, h2, h3⟩ := beta_bounds
  unfold coneFactor
  rw [mach_slope _ (by norm_num), mach_slope _ (by norm_num)]
  set b := Real.sqrt ((1.4 : ℝ) ^ 2 - 1)
  set b' := Real.sqrt ((1.4 + 0.001 : ℝ) ^ 2 - 1)
  unfold machConeFactor
  dsimp only
  set x := (p.outer - s.radius) * b + p.tipPosition - s.le with hx
  set y := (p.outer - s.radius) * b' + p.tipPosition - s.le with hy
  have hxy : |y| ≤ |x| + 0.00143 * (3 * s.len) := by
    have e : y = x + (p.outer - s.radius) * (b' - b) := by rw [hx, hy]; ring
    rw [e]
    refine (abs_add_le _ _).trans ?_
    rw [abs_mul, abs_of_nonneg (show 0 ≤ b' - b by linarith)]
    have := mul_le_mul hr (show b' - b ≤ 0.00143 by linarith) (by linarith) (by positivity)
    linarith
  have hd : |y| / s.len ≤ |x| / s.len + 0.00429 := by
    rw [div_le_iff₀ hl]
    have : |x| / s.len * s.len = |x| := div_mul_cancel₀ _ hl.ne'
    rw [add_mul, this]
    linarith
  have hx0 : 0 ≤ |x| / s.len := by positivity
  have hm : min 1 (|y| / s.len) ≤ min 1 (|x| / s.len) + 0.00429 := by
    rcases le_total 1 (|x| / s.len) with h | h
    · rw [min_eq_left h]; linarith [min_le_left 1 (|y| / s.len)]
    · rw [min_eq_right h]; linarith [min_le_right 1 (|y| / s.len)]
  have hm0 : 0 ≤ min 1 (|x| / s.len) := le_min zero_le_one hx0
  linarith

/-- the law increases with the angle of attack and has its sign; in the transonic range this needs slices at most three times their length
away from the tip -/
theorem law_mono (p : FinP) (h : p.Ok) (mach : ℝ) (s : FinSlice) (hs : s ∈ p.slices)
    (hm : mach ≤ 0.8 ∨ 1.4 ≤ mach ∨ |p.outer - s.radius| ≤ 3 * s.len) :
    Monotone (p.law mach s) ∧ (∀ a, p.law mach s (-a) = -p.law mach s a) ∧ ∃ c : ℝ → ℝ, ∀ a, p.law mach s a = a * c a ∧ 0 ≤ c a ∧
      (0 < s.area → 0 < c a) := by
  obtain ⟨ha, -, hlen⟩ := h.areas s hs
  -- every law is `area * a * (u + v * a ^ 2)` with positive `u` and nonnegative `v`
  have shape : ∀ u v : ℝ, 0 < u → 0 ≤ v → (p.law mach s = fun a => s.area * (a * (u + v * a ^ 2))) →
      Monotone (p.law mach s) ∧ (∀ a, p.law mach s (-a) = -p.law mach s a) ∧ ∃ c : ℝ → ℝ, ∀ a, p.law mach s a = a * c a ∧ 0 ≤ c a ∧
      (0 < s.area → 0 < c a) := by
    intro u v hu hv e
    rw [e]
    refine ⟨?_, fun a => by ring, fun a => s.area * (u + v * a ^ 2), fun a => ⟨by ring, by positivity, fun h' => by positivity⟩⟩
    intro a b hab
    have h3 : a * (u + v * a ^ 2) ≤ b * (u + v * b ^ 2) := by
      have : a ^ 3 ≤ b ^ 3 := (Odd.strictMono_pow (by decide : Odd 3)).monotone hab
      nlinarith [mul_le_mul_of_nonneg_left hab hu.le, mul_le_mul_of_nonneg_left this hv]
    exact mul_le_mul_of_nonneg_left h3 ha
  have sub : ∀ m : ℝ, p.subLaw m s = fun a => s.area * (a * (cnAlpha p.span p.planform (Real.sqrt (1 - m ^ 2)) p.midSweep + 0 * a ^ 2)) := by
    intro m; funext a; unfold subLaw; ring
  have sup : ∀ m : ℝ, p.supLaw m s = fun a => s.area * (a * (2 * (busemann m (Real.sqrt (m ^ 2 - 1))).1 * p.coneFactor m s +
      2 * (busemann m (Real.sqrt (m ^ 2 - 1))).2.2 * p.coneFactor m s * a ^ 2)) := by
    intro m; funext a; unfold supLaw; ring
  have cpos : ∀ m, 1 / 2 ≤ p.coneFactor m s := fun m => (machCone_range _ s hlen).1
  have kpos : ∀ m : ℝ, 1.4 ≤ m → 0 < (busemann m (Real.sqrt (m ^ 2 - 1))).1 ∧ 0 < (busemann m (Real.sqrt (m ^ 2 - 1))).2.2 := by
    intro m hm
    have hb : 0 < Real.sqrt (m ^ 2 - 1) := Real.sqrt_pos.2 (by nlinarith)
    exact busemann_pos m _ (by linarith) hb
  have cn := fun b => cnAlpha_pos p.span p.planform b p.midSweep h.span h.planform
  by_cases h8 : mach ≤ 0.8
  · refine shape _ 0 (cn (Real.sqrt (1 - mach ^ 2))) le_rfl ?_
    rw [← sub]; funext a; unfold law; rw [if_pos h8]
  by_cases h14 : 1.4 ≤ mach
  · have hc := cpos mach
    obtain ⟨k1, k3⟩ := kpos mach h14
    have hc0 : 0 < p.coneFactor mach s := by linarith
    refine shape (2 * (busemann mach (Real.sqrt (mach ^ 2 - 1))).1 * p.coneFactor mach s)
      (2 * (busemann mach (Real.sqrt (mach ^ 2 - 1))).2.2 * p.coneFactor mach s) (by positivity) (by positivity) ?_
    rw [← sup]; funext a; unfold law; rw [if_neg h8, if_neg (not_lt.2 h14)]
  · have hr := (hm.resolve_left h8).resolve_left h14
    have hcc := cone_change p s hlen hr
    obtain ⟨f1, f3⟩ := busemann_falls
    obtain ⟨k1, k3⟩ := kpos 1.4 le_rfl
    obtain ⟨k1', k3'⟩ := kpos (1.4 + 0.001) (by norm_num)
    have hc := cpos 1.4
    have hc' := cpos (1.4 + 0.001)
    have hcn : cnAlpha p.span p.planform (Real.sqrt (1 - (0.8 : ℝ) ^ 2)) p.midSweep ≤
        cnAlpha p.span p.planform (Real.sqrt (1 - (0.8 + 0.001 : ℝ) ^ 2)) p.midSweep :=
      cnAlpha_anti _ _ _ _ _ h.span h.planform (Real.sqrt_nonneg _) (Real.sqrt_le_sqrt (by norm_num))
    have hcp := cn (Real.sqrt (1 - (0.8 : ℝ) ^ 2))
    set n := cnAlpha p.span p.planform (Real.sqrt (1 - (0.8 : ℝ) ^ 2)) p.midSweep
    set n' := cnAlpha p.span p.planform (Real.sqrt (1 - (0.8 + 0.001 : ℝ) ^ 2)) p.midSweep
    set K := (busemann 1.4 (Real.sqrt ((1.4 : ℝ) ^ 2 - 1))).1
    set K' := (busemann (1.4 + 0.001) (Real.sqrt ((1.4 + 0.001 : ℝ) ^ 2 - 1))).1
    set J := (busemann 1.4 (Real.sqrt ((1.4 : ℝ) ^ 2 - 1))).2.2
    set J' := (busemann (1.4 + 0.001) (Real.sqrt ((1.4 + 0.001 : ℝ) ^ 2 - 1))).2.2
    set M := p.coneFactor 1.4 s
    set M' := p.coneFactor (1.4 + 0.001) s
    have bnd : ∀ k k' : ℝ, 0 < k' → k' ≤ k → 2 * k' * M' ≤ 1.005 * (2 * k * M) := by
      intro k k' h1 h2
      have := mul_le_mul h2 hcc (by linarith) (by linarith)
      linarith
    have t0 : 0 < (mach - 0.8) / 0.6 := div_pos (by linarith) (by norm_num)
    have t1 : (mach - 0.8) / 0.6 < 1 := by rw [div_lt_one (by norm_num)]; linarith
    have hM : 0 < M := by linarith
    refine shape (finBlend mach n (2 * K * M) n' (2 * K' * M')) (finBlend mach 0 (2 * J * M) 0 (2 * J' * M'))
      (finBlend_pos mach _ _ _ _ t0 t1 hcp.le hcn (by positivity) (bnd _ _ k1' f1))
      (finBlend_pos mach _ _ _ _ t0 t1 le_rfl le_rfl (by positivity) (bnd _ _ k3' f3)).le ?_
    funext a
    unfold law
    rw [if_neg h8, if_pos (not_le.1 h14), sub, sub, sup, sup]
    simp only
    unfold finBlend
    ring

/-- **C45.** A usable fin can be evaluated in every flight condition, transonic included. -/
theorem force_total (p : FinP) (h : p.Ok) (mach q aref : ℝ) (airVel : V3 ℝ) (w delta cpx cd : ℝ) (hm : 0 ≤ mach)
    (hmid : ((GNC.pyRound ((p.slices.length : ℝ) / 2)).toNat) < p.slices.length) :
    ∃ f, p.force mach q aref airVel w delta cpx cd = .ok f := by
  obtain ⟨r, hr⟩ := deflected_normal p h delta
  unfold force
  rw [hr]
  simp only
  set normal : V3 ℝ := ⟨Real.cos (delta * Real.pi / 180) * p.spanwise.y, -(Real.cos (delta * Real.pi / 180) * p.spanwise.x),
        -Real.sin (delta * Real.pi / 180)⟩
  have hn : ∃ fm, p.normalForce airVel normal w mach = .ok fm := ⟨_, normalForce_law p h airVel normal w mach hm⟩
  obtain ⟨⟨f, m⟩, hfm⟩ := hn
  rw [hfm]
  simp only
  rw [List.getElem?_eq_getElem hmid]
  exact ⟨_, rfl⟩

/-- the parts of the force of an undeflected fin -/
theorem force_undeflected (p : FinP) (h : p.Ok) (mach q aref : ℝ) (airVel : V3 ℝ) (w cpx cd : ℝ) (hm0 : 0 ≤ mach)
    (f : FMS ℝ) (hf : p.force mach q aref airVel w 0 cpx cd = .ok f) :
    ∃ a : ℝ, f.force = (q * (p.slices.map fun s => p.law mach s (p.aoa airVel p.normal0 w s)).sum) • p.normal0 + ⟨0, 0, -(a * cd * aref * q)⟩ ∧
      0 < a ∧ f.loc = p.cpRadius • p.spanwise + ⟨0, 0, p.position.z - cpx⟩ ∧
      f.moment = ⟨0, 0, q * ((p.slices.map fun s => p.law mach s (p.aoa airVel p.normal0 w s)).sum * p.cpRadius -
        (p.slices.map fun s => p.law mach s (p.aoa airVel p.normal0 w s) * s.radius).sum)⟩ := by
  obtain ⟨r, hr⟩ := deflected_normal p h 0
  have h0 : (⟨Real.cos (0 * Real.pi / 180) * p.spanwise.y, -(Real.cos (0 * Real.pi / 180) * p.spanwise.x),
        -Real.sin (0 * Real.pi / 180)⟩ : V3 ℝ) = p.normal0 := by
    unfold normal0; simp
  rw [h0] at hr
  unfold force at hf
  rw [hr] at hf
  simp only at hf
  rw [normalForce_law p h airVel p.normal0 w mach hm0] at hf
  simp only at hf
  split at hf
  · cases hf
  · rename_i mid hmid
    obtain rfl := Except.ok.inj hf
    refine ⟨dragToAxial (p.aoa airVel p.normal0 w mid), ?_, (dragToAxial_range _).1, ?_, ?_⟩
    · simp only [FMS.make]
      congr 1
      · congr 1; ring
      · have e := h.unit
        ext
        · simp [cross, normal0, h.sz]
        · simp [cross, normal0, h.sz]
        · generalize dragToAxial (p.aoa airVel p.normal0 w mid) = a
          simp only [cross, normal0, smul_z]
          linear_combination (-(a * cd * aref * q)) * e
    · simp only [FMS.make, Option.getD_some, cpSpanwise]
      congr 1
      ext <;> simp [h.px, h.py]
    · simp only [FMS.make, Option.getD_some]
      congr 1; ring

/-- **C42.** Roll moment of an undeflected fin about the rocket's axis: the sum of slice force times slice radius, opposed to the slices'
angle of attack. The choice of the centre of pressure does not matter. -/
theorem roll_moment (p : FinP) (h : p.Ok) (mach q aref : ℝ) (airVel : V3 ℝ) (w cpx cd : ℝ) (hm0 : 0 ≤ mach)
    (f : FMS ℝ) (hf : p.force mach q aref airVel w 0 cpx cd = .ok f) (z : ℝ) :
    (f.getAt ⟨0, 0, z⟩).moment.z = -(q * (p.slices.map fun s => p.law mach s (p.aoa airVel p.normal0 w s) * s.radius).sum) := by
  obtain ⟨a, e1, -, e2, e3⟩ := force_undeflected p h mach q aref airVel w cpx cd hm0 f hf
  simp only [FMS.getAt, add_z]
  rw [e1, e2, e3]
  simp only [cross, normal0, sub_x, sub_y, add_x, add_y, smul_x, smul_y]
  have e := h.unit
  linear_combination (-q * (p.slices.map fun s => p.law mach s (p.aoa airVel ⟨p.spanwise.y, -p.spanwise.x, 0⟩ w s)).sum * p.cpRadius) * e

/-- the air velocity normal to an undeflected slice, and its speed -/
theorem slice_vel (p : FinP) (h : p.Ok) (airVel : V3 ℝ) (w : ℝ) (s : FinSlice) :
    dot p.normal0 (airVel + s.radius • p.tangential w) = dot p.normal0 airVel + s.radius * w ∧
    (airVel + s.radius • p.tangential w).length =
      Real.sqrt ((dot p.normal0 airVel + s.radius * w) ^ 2 + ((dot p.spanwise airVel) ^ 2 + airVel.z ^ 2)) := by
  have e := h.unit
  constructor
  · simp only [dot, normal0, tangential, cross, add_x, add_y, add_z, smul_x, smul_y, smul_z]
    linear_combination (s.radius * w) * e
  · unfold V3.length
    congr 1
    simp only [dot, normal0, tangential, cross, add_x, add_y, add_z, smul_x, smul_y, smul_z, h.sz]
    linear_combination (-(airVel.x ^ 2 + airVel.y ^ 2) + w ^ 2 * s.radius ^ 2) * e

end FinP
end Mapleaf.Rocket
