import Verif.Rocket.PartAeroModel
import Verif.Rocket.CoeffProps
import Verif.Rocket.FinGeomProps

/-!
# C84: drag of fins
-/

namespace Mapleaf.Rocket
open Mapleaf.Motion V3

/-! ## Edges -/

/-- **C84.** Leading edges: round ones have the given radius or a hundredth of the fin's thickness, blunt ones the given thickness or the
fin's; every other shape is refused. -/
theorem readLead_iff (shape : Str) (radius thick : Option ℝ) (thickness : ℝ) (e : LeadEdge) :
    readLead shape radius thick thickness = .ok e ↔
      (shape = "Round".toList ∧ ((∃ r, radius = some r ∧ e = .round r) ∨ radius = none ∧ e = .round (thickness / 100))) ∨
      (shape = "Blunt".toList ∧ ((∃ t, thick = some t ∧ e = .blunt t) ∨ thick = none ∧ e = .blunt thickness)) := by
  have hne : "Blunt".toList ≠ "Round".toList := by decide +kernel
  unfold readLead
  generalize "Round".toList = R at *
  generalize "Blunt".toList = B at *
  by_cases h1 : shape = R
  · rw [if_pos h1]
    have h2 : shape ≠ B := fun h => hne (h.symm.trans h1)
    cases radius with
    | none => simp [h1, Ne.symm hne, eq_comm]
    | some r => simp [h1, Ne.symm hne, eq_comm]
  · rw [if_neg h1]
    by_cases h2 : shape = B
    · rw [if_pos h2]
      cases thick with
      | none => simp [h2, hne, eq_comm]
      | some r => simp [h2, hne, eq_comm]
    · rw [if_neg h2]
      simp [h1, h2]

/-- **C84.** Trailing edges need their radius or thickness, tapered ones nothing; every other shape is refused. -/
theorem readTrail_iff (shape : Str) (radius thick : Option ℝ) (e : TrailEdge) :
    readTrail shape radius thick = .ok e ↔
      (shape = "Round".toList ∧ ∃ r, radius = some r ∧ e = .round r) ∨ (shape = "Blunt".toList ∧ ∃ t, thick = some t ∧ e = .blunt t) ∨
      (shape = "Tapered".toList ∧ e = .tapered) := by
  have hne : "Blunt".toList ≠ "Round".toList := by decide +kernel
  have hne2 : "Tapered".toList ≠ "Round".toList := by decide +kernel
  have hne3 : "Tapered".toList ≠ "Blunt".toList := by decide +kernel
  unfold readTrail
  generalize "Round".toList = R at *
  generalize "Blunt".toList = B at *
  generalize "Tapered".toList = T at *
  by_cases h1 : shape = R
  · rw [if_pos h1]
    cases radius <;> simp [h1, Ne.symm hne, Ne.symm hne2, eq_comm]
  · rw [if_neg h1]
    by_cases h2 : shape = B
    · rw [if_pos h2]
      cases thick <;> simp [h2, hne, Ne.symm hne3, eq_comm]
    · rw [if_neg h2]
      by_cases h3 : shape = T
      · rw [if_pos h3]; simp [h3, hne2, hne3, eq_comm]
      · rw [if_neg h3]; simp [h1, h2, h3]

namespace FinShape

/-! ## The precomputed constant -/

/-- **C84.** A fin set can be prepared exactly if planform area, root chord, mid-chord sweep cosine and Mach 1 friction are not zero and the
thickness has the sign of the root chord; the constant is then at least the squared cosine of the mid-chord sweep. -/
theorem thicknessK_ok_iff (p : FinShape) (cfStar k : ℝ) :
    p.thicknessK cfStar = .ok k ↔ p.geom.planformArea ≠ 0 ∧ p.geom.rootChord ≠ 0 ∧ 0 < p.thickness / p.geom.rootChord ∧ cfStar ≠ 0 ∧
      Real.cos p.geom.midChordSweep ≠ 0 ∧
      k = Real.cos p.geom.midChordSweep ^ 2 + (p.sonicRatio cfStar ^ 2) ^ (1 / 3 : ℝ) := by
  unfold thicknessK
  split
  · rename_i h
    constructor
    · intro h'; cases h'
    · rintro ⟨h1, h2, -⟩; rcases h with h | h <;> contradiction
  rename_i h
  push Not at h
  split
  · rename_i h1
    constructor
    · intro h'; cases h'
    · rintro ⟨-, -, h2, -⟩; linarith
  rename_i h1
  split
  · rename_i h2
    constructor
    · intro h'; cases h'
    · rintro ⟨-, -, h3, h4, h5, -⟩
      rcases h2 with h2 | h2
      · contradiction
      · have : 0 < 120 * Real.cos p.geom.midChordSweep ^ 2 * (p.thickness / p.geom.rootChord) ^ 4 := by positivity
        linarith
  · rename_i h2
    push Not at h2
    have h3 : p.thickness / p.geom.rootChord ≠ 0 := by
      intro h0
      apply h2.2
      rw [h0]; ring
    have h4 : Real.cos p.geom.midChordSweep ≠ 0 := by
      intro h0
      apply h2.2
      rw [h0]; ring
    have h5 : 0 < p.thickness / p.geom.rootChord := lt_of_le_of_ne (not_lt.1 h1) (Ne.symm h3)
    simp only [Except.ok.injEq]
    constructor
    · intro h'; exact ⟨h.1, h.2, h5, h2.1, h4, h'.symm⟩
    · rintro ⟨-, -, -, -, -, h'⟩; exact h'.symm

/-- **C84.** Up to Mach 1 the subsonic thickness drag formula takes the root of a number that is not negative; it is positive below Mach 1. -/
theorem thickness_base (p : FinShape) (cfStar k mach : ℝ) (h : p.thicknessK cfStar = .ok k) (h0 : 0 ≤ mach) (h1 : mach ≤ 1) :
    0 ≤ k - mach ^ 2 * Real.cos p.geom.midChordSweep ^ 2 ∧
    (k - mach ^ 2 * Real.cos p.geom.midChordSweep ^ 2 = 0 ↔ mach = 1 ∧ p.sonicRatio cfStar = 0) := by
  obtain ⟨-, -, -, -, hc, rfl⟩ := (thicknessK_ok_iff ..).1 h
  have hp : 0 ≤ (p.sonicRatio cfStar ^ 2) ^ (1 / 3 : ℝ) := Real.rpow_nonneg (sq_nonneg _) _
  have hc2 : 0 < Real.cos p.geom.midChordSweep ^ 2 := by positivity
  have hm : mach ^ 2 ≤ 1 := by nlinarith
  have hb := mul_le_mul_of_nonneg_right hm hc2.le
  refine ⟨by linarith, ?_⟩
  constructor
  · intro he
    have e1 : (p.sonicRatio cfStar ^ 2) ^ (1 / 3 : ℝ) = 0 := by linarith
    have e2 : (1 - mach ^ 2) * Real.cos p.geom.midChordSweep ^ 2 = 0 := by linarith
    constructor
    · have := (mul_eq_zero.1 e2).resolve_right hc2.ne'
      nlinarith
    · have := (Real.rpow_eq_zero (sq_nonneg _) (by norm_num)).1 e1
      exact pow_eq_zero_iff (by norm_num) |>.1 this
  · rintro ⟨rfl, e⟩
    rw [e]; norm_num

/-! ## The drag coefficient -/

/-- **C84.** The drag coefficient of a fin: leading edge, trailing edge, thickness and friction drag on the reference area, for a prepared
fin of positive mean chord below, at and above Mach 1. -/
theorem dragCd_value (p : FinShape) (cfStar k : ℝ) (s : Ship) (f : Flow) (hk : p.thicknessK cfStar = .ok k) (hA : s.aref ≠ 0) (hm : p.mac ≠ 0)
    (h0 : 0 ≤ f.mach) (hreg : ¬ (f.mach = 1 ∧ p.sonicRatio cfStar = 0)) :
    ∃ cf lead thick back : ℝ, cf = skinFriction (f.unitRe * p.mac) p.mac f.mach p.roughness s.turbulent ∧
      p.dragCd k s f = .ok (((lead * p.geom.span * Real.cos p.geom.sweep ^ 2) + baseDragCd f.mach * p.geom.span * back +
        thick * p.geom.planformArea + cf * (2 * p.geom.planformArea) * (1 + 2 * p.thickness / p.mac)) / s.aref) ∧
      (∀ r, p.lead = .round r → lead = crossFlowCd f.mach * (2 * r)) ∧ (∀ t, p.lead = .blunt t → lead = bluntCd f.mach * t) ∧
      (p.trail = .tapered → back = 0) ∧ (∀ r, p.trail = .round r → back = r) ∧ (∀ t, p.trail = .blunt t → back = t) ∧
      (f.mach ≤ 1 → thick = 4 * cf * (p.thickness / p.geom.rootChord * Real.cos p.geom.midChordSweep +
        30 * (p.thickness / p.geom.rootChord) ^ 4 * Real.cos p.geom.midChordSweep ^ 2 /
          (k - f.mach ^ 2 * Real.cos p.geom.midChordSweep ^ 2) ^ (3 / 2 : ℝ))) ∧
      (1 < f.mach → thick = 2.3 * p.geom.aspectRatio * (p.thickness / p.mac) ^ 2) := by
  set cf := skinFriction (f.unitRe * p.mac) p.mac f.mach p.roughness s.turbulent with hcf
  obtain ⟨thick, ht, t1, t2⟩ : ∃ thick, p.thicknessDrag k cf f.mach = .ok thick ∧
      (f.mach ≤ 1 → thick = 4 * cf * (p.thickness / p.geom.rootChord * Real.cos p.geom.midChordSweep +
        30 * (p.thickness / p.geom.rootChord) ^ 4 * Real.cos p.geom.midChordSweep ^ 2 /
          (k - f.mach ^ 2 * Real.cos p.geom.midChordSweep ^ 2) ^ (3 / 2 : ℝ))) ∧
      (1 < f.mach → thick = 2.3 * p.geom.aspectRatio * (p.thickness / p.mac) ^ 2) := by
    unfold thicknessDrag
    by_cases h1 : f.mach ≤ 1
    · obtain ⟨b1, b2⟩ := thickness_base p cfStar k f.mach hk h0 h1
      have b3 : (k - f.mach ^ 2 * Real.cos p.geom.midChordSweep ^ 2) ^ (3 / 2 : ℝ) ≠ 0 := by
        rw [Ne, Real.rpow_eq_zero b1 (by norm_num)]
        exact fun h => hreg (b2.1 h)
      rw [if_pos h1]
      dsimp only
      rw [if_neg (not_lt.2 b1), if_neg b3]
      exact ⟨_, rfl, fun _ => rfl, fun h => absurd h1 (not_le.2 h)⟩
    · rw [if_neg h1, if_neg hm]
      exact ⟨_, rfl, fun h => absurd h h1, fun _ => rfl⟩
  refine ⟨cf, (p.leadCd f.mach).1 * (p.leadCd f.mach).2, thick, p.trailThickness, rfl, ?_, ?_, ?_, ?_, ?_, ?_, t1, t2⟩
  · unfold dragCd
    dsimp only
    rw [if_neg (by simp [hA, hm]), ← hcf, ht]
    dsimp only
    congr 1
    field_simp
  · intro r h; unfold leadCd; rw [h]; dsimp only; ring
  · intro r h; unfold leadCd; rw [h]
  · intro h; unfold trailThickness; rw [h]
  · intro r h; unfold trailThickness; rw [h]
  · intro r h; unfold trailThickness; rw [h]

/-- a sensible fin -/
structure Sensible (p : FinShape) : Prop where
  span : 0 < p.geom.span
  root : 0 < p.geom.rootChord
  tip : 0 ≤ p.geom.tipChord
  thick : 0 < p.thickness
  rough : 0 ≤ p.roughness
  mac : 0 < p.mac
  mid : 0 < Real.cos p.geom.midChordSweep
  lead : ∀ r, p.lead = .round r ∨ p.lead = .blunt r → 0 ≤ r
  trail : ∀ r, p.trail = .round r ∨ p.trail = .blunt r → 0 ≤ r

/-- **C84.** The drag coefficient of a sensible fin is positive. -/
theorem dragCd_pos (p : FinShape) (hp : p.Sensible) (cfStar k : ℝ) (s : Ship) (f : Flow) (hk : p.thicknessK cfStar = .ok k) (hA : 0 < s.aref)
    (h0 : 0 ≤ f.mach) (hre : f.unitRe * p.mac ≤ 1e100) (c : ℝ) (h : p.dragCd k s f = .ok c) : 0 < c := by
  have hreg : ¬ (f.mach = 1 ∧ p.sonicRatio cfStar = 0) := by
    rintro ⟨h1, h2⟩
    have hb := (thickness_base p cfStar k f.mach hk h0 h1.le).2.2 ⟨h1, h2⟩
    unfold dragCd thicknessDrag at h
    dsimp only at h
    rw [if_neg (by simp [hA.ne', hp.mac.ne']), if_pos h1.le, hb, if_neg (lt_irrefl _), if_pos (Real.zero_rpow (by norm_num))] at h
    cases h
  obtain ⟨cf, lead, thick, back, hcf, hval, l1, l2, b1, b2, b3, t1, t2⟩ := dragCd_value p cfStar k s f hk hA.ne' hp.mac.ne' h0 hreg
  rw [hval] at h
  obtain rfl := Except.ok.inj h
  have hc : 0 < cf := by
    rw [hcf]; exact friction_pos _ _ _ _ _ hp.mac hp.rough h0 hre
  have hx := crossFlow_range f.mach h0
  have hl : 0 ≤ lead := by
    cases hle : p.lead with
    | round r =>
      rw [l1 r hle]
      have := hp.lead r (.inl hle)
      exact mul_nonneg hx.1 (by linarith)
    | blunt t =>
      rw [l2 t hle]
      exact mul_nonneg (by linarith [hx.2.2.2.1]) (hp.lead t (.inr hle))
  have hb : 0 ≤ back := by
    cases hle : p.trail with
    | tapered => rw [b1 hle]
    | round r => rw [b2 r hle]; exact hp.trail r (.inl hle)
    | blunt t => rw [b3 t hle]; exact hp.trail t (.inr hle)
  have hbd := (baseDrag_range f.mach h0).1
  have hs := hp.span
  have hr := hp.root
  have htp := hp.tip
  have hth := hp.thick
  have hmac := hp.mac
  have hmid := hp.mid
  have hpl : 0 < p.geom.planformArea := by unfold FinGeom.planformArea; positivity
  have har : 0 < p.geom.aspectRatio := by unfold FinGeom.aspectRatio; positivity
  have ht : 0 ≤ thick := by
    by_cases h1 : f.mach ≤ 1
    · rw [t1 h1]
      have := Real.rpow_nonneg (thickness_base p cfStar k f.mach hk h0 h1).1 (3 / 2 : ℝ)
      positivity
    · rw [t2 (not_le.1 h1)]; positivity
  apply div_pos _ hA
  have e1 : 0 ≤ lead * p.geom.span * Real.cos p.geom.sweep ^ 2 := by positivity
  have e2 : 0 ≤ baseDragCd f.mach * p.geom.span * back := by positivity
  have e3 : 0 ≤ thick * p.geom.planformArea := by positivity
  have e4 : 0 < cf * (2 * p.geom.planformArea) * (1 + 2 * p.thickness / p.mac) := by positivity
  linarith

/-- **C84.** The drag coefficient of a sensible fin is never negative. -/
theorem dragCd_nonneg (p : FinShape) (hp : p.Sensible) (cfStar k : ℝ) (s : Ship) (f : Flow) (hk : p.thicknessK cfStar = .ok k) (hA : 0 < s.aref)
    (h0 : 0 ≤ f.mach) (c : ℝ) (h : p.dragCd k s f = .ok c) : 0 ≤ c := by
  have hreg : ¬ (f.mach = 1 ∧ p.sonicRatio cfStar = 0) := by
    rintro ⟨h1, h2⟩
    have hb := (thickness_base p cfStar k f.mach hk h0 h1.le).2.2 ⟨h1, h2⟩
    unfold dragCd thicknessDrag at h
    dsimp only at h
    rw [if_neg (by simp [hA.ne', hp.mac.ne']), if_pos h1.le, hb, if_neg (lt_irrefl _), if_pos (Real.zero_rpow (by norm_num))] at h
    cases h
  obtain ⟨cf, lead, thick, back, hcf, hval, l1, l2, b1, b2, b3, t1, t2⟩ := dragCd_value p cfStar k s f hk hA.ne' hp.mac.ne' h0 hreg
  rw [hval] at h
  obtain rfl := Except.ok.inj h
  have hc : 0 ≤ cf := by
    rw [hcf]; exact friction_nonneg _ _ _ _ _ hp.mac hp.rough h0
  have hx := crossFlow_range f.mach h0
  have hl : 0 ≤ lead := by
    cases hle : p.lead with
    | round r =>
      rw [l1 r hle]
      have := hp.lead r (.inl hle)
      exact mul_nonneg hx.1 (by linarith)
    | blunt t =>
      rw [l2 t hle]
      exact mul_nonneg (by linarith [hx.2.2.2.1]) (hp.lead t (.inr hle))
  have hb : 0 ≤ back := by
    cases hle : p.trail with
    | tapered => rw [b1 hle]
    | round r => rw [b2 r hle]; exact hp.trail r (.inl hle)
    | blunt t => rw [b3 t hle]; exact hp.trail t (.inr hle)
  have hbd := (baseDrag_range f.mach h0).1
  have hs := hp.span
  have hr := hp.root
  have htp := hp.tip
  have hth := hp.thick
  have hmac := hp.mac
  have hmid := hp.mid
  have hpl : 0 < p.geom.planformArea := by unfold FinGeom.planformArea; positivity
  have har : 0 < p.geom.aspectRatio := by unfold FinGeom.aspectRatio; positivity
  have ht : 0 ≤ thick := by
    by_cases h1 : f.mach ≤ 1
    · rw [t1 h1]
      have := Real.rpow_nonneg (thickness_base p cfStar k f.mach hk h0 h1).1 (3 / 2 : ℝ)
      positivity
    · rw [t2 (not_le.1 h1)]; positivity
  apply div_nonneg _ hA.le
  have e1 : 0 ≤ lead * p.geom.span * Real.cos p.geom.sweep ^ 2 := by positivity
  have e2 : 0 ≤ baseDragCd f.mach * p.geom.span * back := by positivity
  have e3 : 0 ≤ thick * p.geom.planformArea := by positivity
  have e4 : 0 ≤ cf * (2 * p.geom.planformArea) * (1 + 2 * p.thickness / p.mac) := by positivity
  linarith

/-! ## Defects -/

/-- **C84** violated: a fin without thickness (a flat plate) cannot be prepared. -/
theorem flat_fin_violated (p : FinShape) (cfStar : ℝ) (h : p.thickness = 0) : p.thicknessK cfStar = .error .zeroDivision := by
  unfold thicknessK
  split
  · rfl
  · rw [h, zero_div, if_neg (lt_irrefl _), if_pos (by right; ring)]

/-- **C84.** The thickness drag at Mach 1, from the constant that was computed so that it should equal the sonic thickness drag
coefficient: exactly if the ratio in that constant is 1, -/
theorem sonic_match_iff (p : FinShape) (cfStar k : ℝ) (hk : p.thicknessK cfStar = .ok k) (hc : 0 < cfStar)
    (hX : p.sonicRatio cfStar ≠ 0) :
    ∃ t, p.thicknessDrag k cfStar 1 = .ok t ∧
      t = 4 * cfStar * (p.thickness / p.geom.rootChord * Real.cos p.geom.midChordSweep +
        30 * (p.thickness / p.geom.rootChord) ^ 4 * Real.cos p.geom.midChordSweep ^ 2 / |p.sonicRatio cfStar|) ∧
      (t = p.cdSonic ↔ p.sonicRatio cfStar = 1) := by
  obtain ⟨h1, h2, h3, h4, h5, rfl⟩ := (thicknessK_ok_iff ..).1 hk
  set r := p.thickness / p.geom.rootChord with hr
  set c := Real.cos p.geom.midChordSweep with hcos
  set X := p.sonicRatio cfStar with hXdef
  have hXe : X = (p.cdSonic / cfStar - 4 * c * r) / (120 * c ^ 2 * r ^ 4) := rfl
  have hpow : ((X ^ 2) ^ (1 / 3 : ℝ)) ^ (3 / 2 : ℝ) = |X| := by
    rw [← Real.rpow_mul (sq_nonneg _), show (1 / 3 : ℝ) * (3 / 2) = 1 / 2 by norm_num, ← Real.sqrt_eq_rpow, Real.sqrt_sq_eq_abs]
  have hbase : c ^ 2 + (X ^ 2) ^ (1 / 3 : ℝ) - 1 ^ 2 * c ^ 2 = (X ^ 2) ^ (1 / 3 : ℝ) := by ring
  have hnn : 0 ≤ (X ^ 2) ^ (1 / 3 : ℝ) := Real.rpow_nonneg (sq_nonneg _) _
  have habs : 0 < |X| := abs_pos.2 hX
  refine ⟨_, ?_, rfl, ?_⟩
  · unfold thicknessDrag
    rw [if_pos le_rfl]
    dsimp only
    rw [← hcos, ← hr, hbase, if_neg (not_lt.2 hnn), hpow, if_neg habs.ne']
  · have hden : 0 < 120 * c ^ 2 * r ^ 4 := by positivity
    have hcd : p.cdSonic = cfStar * (X * (120 * c ^ 2 * r ^ 4) + 4 * c * r) := by
      rw [hXe]; field_simp; ring
    rw [hcd]
    have : 4 * cfStar * (r * c + 30 * r ^ 4 * c ^ 2 / |X|) = cfStar * (1 / |X| * (120 * c ^ 2 * r ^ 4) + 4 * c * r) := by
      field_simp; ring
    rw [this]
    constructor
    · intro h
      have h := mul_left_cancel₀ hc.ne' h
      have h : 1 / |X| * (120 * c ^ 2 * r ^ 4) = X * (120 * c ^ 2 * r ^ 4) := by linarith
      have h := mul_right_cancel₀ hden.ne' h
      have hpos : 0 < X := by rw [← h]; positivity
      rw [abs_of_pos hpos] at h
      have : X * X = 1 := by rw [div_eq_iff hpos.ne'] at h; linarith
      nlinarith
    · intro h
      rw [h]; norm_num

/-- with the ratio's inverse in the constant it would be met for every fin with a positive ratio -/
theorem sonic_intended (p : FinShape) (cfStar k : ℝ) (hk : p.thicknessK cfStar = .ok k) (hc : 0 < cfStar) (hX : 0 < p.sonicRatio cfStar) :
    p.thicknessDrag (Real.cos p.geom.midChordSweep ^ 2 + (p.sonicRatio cfStar ^ 2) ^ (-(1 / 3) : ℝ)) cfStar 1 = .ok p.cdSonic := by
  obtain ⟨h1, h2, h3, h4, h5, -⟩ := (thicknessK_ok_iff ..).1 hk
  set r := p.thickness / p.geom.rootChord with hr
  set c := Real.cos p.geom.midChordSweep with hcos
  set X := p.sonicRatio cfStar with hXdef
  have hXe : X = (p.cdSonic / cfStar - 4 * c * r) / (120 * c ^ 2 * r ^ 4) := rfl
  have hpow : ((X ^ 2) ^ (-(1 / 3) : ℝ)) ^ (3 / 2 : ℝ) = X⁻¹ := by
    rw [← Real.rpow_mul (sq_nonneg _), show (-(1 / 3) : ℝ) * (3 / 2) = -(1 / 2) by norm_num, Real.rpow_neg (sq_nonneg _), ← Real.sqrt_eq_rpow,
      Real.sqrt_sq hX.le]
  have hbase : c ^ 2 + (X ^ 2) ^ (-(1 / 3) : ℝ) - 1 ^ 2 * c ^ 2 = (X ^ 2) ^ (-(1 / 3) : ℝ) := by ring
  have hnn : 0 ≤ (X ^ 2) ^ (-(1 / 3) : ℝ) := Real.rpow_nonneg (sq_nonneg _) _
  unfold thicknessDrag
  rw [if_pos le_rfl]
  dsimp only
  rw [← hcos, ← hr, hbase, if_neg (not_lt.2 hnn), hpow, if_neg (inv_ne_zero hX.ne')]
  congr 1
  have hden : 0 < 120 * c ^ 2 * r ^ 4 := by positivity
  have hcd : p.cdSonic = cfStar * (X * (120 * c ^ 2 * r ^ 4) + 4 * c * r) := by
    rw [hXe]; field_simp; ring
  rw [hcd]
  field_simp
  ring

/-- a square fin of 8 cm, 1 cm thick, without sweep -/
noncomputable def exFin : FinShape := ⟨⟨4, 0, 0, 0, 0.08, 0.08, 0.08, 0.05, 10⟩, 0.01, 0, .round 0.001, .tapered, 0.08⟩

theorem exFin_mid : exFin.geom.midChordSweep = 0 := by
  unfold FinGeom.midChordSweep FinGeom.trailingEdgeSweep
  simp [exFin]

theorem exFin_sensible : exFin.Sensible where
  span := by norm_num [exFin]
  root := by norm_num [exFin]
  tip := by norm_num [exFin]
  thick := by norm_num [exFin]
  rough := by norm_num [exFin]
  mac := by norm_num [exFin]
  mid := by rw [exFin_mid]; simp
  lead := by
    rintro r (h | h)
    · have h : LeadEdge.round 0.001 = .round r := h
      cases h; norm_num
    · have h : LeadEdge.round 0.001 = .blunt r := h
      cases h
  trail := by
    rintro r (h | h)
    · have h : TrailEdge.tapered = .round r := h
      cases h
    · have h : TrailEdge.tapered = .blunt r := h
      cases h

theorem exFin_ar : exFin.geom.aspectRatio = 4 := by
  norm_num [FinGeom.aspectRatio, FinGeom.planformArea, exFin]

theorem exFin_sigma : exFin.sigma = 1 := by
  unfold sigma
  rw [exFin_ar]
  have : exFin.thickness / exFin.geom.rootChord = (1 / 2 : ℝ) ^ (3 : ℝ) := by
    rw [show (3 : ℝ) = ((3 : ℕ) : ℝ) by norm_num, Real.rpow_natCast]; norm_num [exFin]
  rw [this, ← Real.rpow_mul (by norm_num)]
  norm_num

theorem exFin_cdSonic : 0.06 < exFin.cdSonic ∧ exFin.cdSonic < 0.07 := by
  unfold cdSonic
  rw [exFin_sigma]
  have : exFin.thickness / exFin.geom.rootChord = (1 / 2 : ℝ) ^ (3 : ℝ) := by
    rw [show (3 : ℝ) = ((3 : ℕ) : ℝ) by norm_num, Real.rpow_natCast]; norm_num [exFin]
  rw [this, ← Real.rpow_mul (by norm_num), show (3 : ℝ) * (5 / 3) = ((5 : ℕ) : ℝ) by norm_num, Real.rpow_natCast]
  have h1 : 0.87 < Real.sqrt ((1 - 1.43 : ℝ) ^ 2 + 0.578) := Real.lt_sqrt_of_sq_lt (by norm_num)
  have h2 : Real.sqrt ((1 - 1.43 : ℝ) ^ 2 + 0.578) < 0.88 := by
    rw [Real.sqrt_lt' (by norm_num)]; norm_num
  constructor <;> nlinarith

theorem exFin_ratio : 100 < exFin.sonicRatio 0.003 := by
  unfold sonicRatio
  rw [exFin_mid, Real.cos_zero]
  have h := exFin_cdSonic.1
  have hr : exFin.thickness / exFin.geom.rootChord = 1 / 8 := by norm_num [exFin]
  rw [hr, lt_div_iff₀ (by norm_num)]
  have : 0.06 / 0.003 < exFin.cdSonic / 0.003 := div_lt_div_of_pos_right h (by norm_num)
  norm_num at this ⊢
  linarith

theorem exFin_k : ∃ k, exFin.thicknessK 0.003 = .ok k := by
  refine ⟨_, (thicknessK_ok_iff ..).2 ⟨?_, ?_, ?_, ?_, ?_, rfl⟩⟩
  · norm_num [FinGeom.planformArea, exFin]
  · norm_num [exFin]
  · norm_num [exFin]
  · norm_num
  · rw [exFin_mid]; simp

/-- **C84** violated: for an ordinary fin the thickness drag at Mach 1 is not the sonic thickness drag coefficient but less than a
twentieth of it, and just above Mach 1 it jumps to more than fifty times that value. -/
theorem thickness_violated : ∃ k t t', exFin.thicknessK 0.003 = .ok k ∧ exFin.thicknessDrag k 0.003 1 = .ok t ∧
    20 * t < exFin.cdSonic ∧ (∀ mach : ℝ, 1 < mach → exFin.thicknessDrag k 0.003 mach = .ok t') ∧ 50 * t < t' := by
  obtain ⟨k, hk⟩ := exFin_k
  have hX := exFin_ratio
  obtain ⟨t, ht, hval, -⟩ := sonic_match_iff exFin 0.003 k hk (by norm_num) (by linarith)
  have hr : exFin.thickness / exFin.geom.rootChord = 1 / 8 := by norm_num [exFin]
  rw [hr, exFin_mid, Real.cos_zero, abs_of_pos (by linarith)] at hval
  have htb : t < 0.00151 := by
    rw [hval]
    have : 30 * (1 / 8 : ℝ) ^ 4 * 1 ^ 2 / exFin.sonicRatio 0.003 < 30 * (1 / 8 : ℝ) ^ 4 * 1 ^ 2 / 100 :=
      div_lt_div_of_pos_left (by norm_num) (by norm_num) hX
    norm_num at this ⊢
    linarith
  refine ⟨k, t, 2.3 * 4 * (1 / 8) ^ 2, hk, ht, ?_, ?_, ?_⟩
  · have := exFin_cdSonic.1
    linarith
  · intro m hm
    unfold thicknessDrag
    rw [if_neg (not_le.2 hm), if_neg exFin_sensible.mac.ne', exFin_ar]
    congr 2
    norm_num [exFin]
  · norm_num at htb ⊢
    linarith

/-- hypotheses of `dragCd_value` and `dragCd_pos` -/
example : ∃ k c, exFin.thicknessK 0.003 = .ok k ∧ exFin.dragCd k ⟨0.0078, some 20, true⟩ ⟨⟨0, 0, -170⟩, 1.2, 0.5, 1e7, 0⟩ = .ok c ∧ 0 < c := by
  obtain ⟨k, hk⟩ := exFin_k
  obtain ⟨cf, l, t, b, -, h, -⟩ := dragCd_value exFin 0.003 k ⟨0.0078, some 20, true⟩ ⟨⟨0, 0, -170⟩, 1.2, 0.5, 1e7, 0⟩ hk (by norm_num)
    exFin_sensible.mac.ne' (by norm_num) (by norm_num)
  exact ⟨k, _, hk, h, dragCd_pos exFin exFin_sensible 0.003 k _ _ hk (by norm_num) (by norm_num) (by norm_num [exFin]) _ h⟩

end FinShape
end Mapleaf.Rocket
