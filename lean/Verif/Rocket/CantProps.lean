import Verif.Rocket.FinPowerProps
import Verif.Motion.StateModel
import Mathlib.Analysis.Calculus.MeanValue
import Mathlib.Analysis.SpecialFunctions.Trigonometric.Arctan

/-!
# C109: canted fins spin the rocket, in the direction the definition file promises and no faster than the air turns them

SimDefinitionTemplate.mapleaf:524: "Positive values will induce moments in (local frame) negZ direction. Negative values will induce moments
in the (local frame) posZ direction". `delta` is `finCantAngle` in degrees, `w` the roll rate, `vz` the axial air speed at the fin (negative in
forward flight).
-/

namespace Mapleaf.Rocket
open Mapleaf.Motion V3

theorem rawAOA_zero (s : ℝ) : rawAOA 0 s = 0 := by
  unfold rawAOA
  split
  · rw [if_neg (by norm_num)]; simp
  · rfl

namespace FinP

/-- **C109.** The rolling moment of a canted fin in axial flow, about any point of the axis. Slice by slice the normal force acts on the
lever `radius - (1 - cos delta) * cpRadius`; drag along the canted chord adds a moment in the other direction. -/
theorem cant_moment (p : FinP) (h : p.Ok) (mach q aref vz w delta cpx cd : ℝ) (hm : 0 ≤ mach) (f : FMS ℝ)
    (hf : p.force mach q aref ⟨0, 0, vz⟩ w delta cpx cd = .ok f) (z : ℝ) :
    ∃ mid ∈ p.slices, (f.momentAbout ⟨0, 0, z⟩).z =
      q * (Real.sin (delta * Real.pi / 180) * p.cpRadius * (dragToAxial (rawAOA
          (Real.cos (delta * Real.pi / 180) * (mid.radius * w) - Real.sin (delta * Real.pi / 180) * vz)
          (Real.sqrt ((mid.radius * w) ^ 2 + vz ^ 2))) * cd * aref)) -
      q * (p.slices.map fun s => p.law mach s (rawAOA
          (Real.cos (delta * Real.pi / 180) * (s.radius * w) - Real.sin (delta * Real.pi / 180) * vz)
          (Real.sqrt ((s.radius * w) ^ 2 + vz ^ 2))) * (s.radius - (1 - Real.cos (delta * Real.pi / 180)) * p.cpRadius)).sum := by
  set c := Real.cos (delta * Real.pi / 180) with hc
  set d := Real.sin (delta * Real.pi / 180) with hd
  obtain ⟨r, hr⟩ := deflected_normal p h delta
  rw [← hc, ← hd] at hr
  unfold force at hf
  rw [hr] at hf
  simp only at hf
  rw [normalForce_law p h _ _ w mach hm] at hf
  simp only at hf
  rcases hmid : p.slices[(GNC.pyRound ((p.slices.length : ℝ) / 2)).toNat]? with _ | mid
  · rw [hmid] at hf; cases hf
  rw [hmid] at hf
  simp only at hf
  have ea := turned_aoa p h p.spanwise h.sz h.unit vz w c d
  have hp : p.turned p.spanwise = p := rfl
  rw [hp] at ea
  rw [ea] at hf
  obtain rfl := Except.ok.inj hf
  refine ⟨mid, List.mem_of_getElem? hmid, ?_⟩
  have hsum : (p.slices.map fun s => p.law mach s (rawAOA (c * (s.radius * w) - d * vz) (Real.sqrt ((s.radius * w) ^ 2 + vz ^ 2))) *
      (s.radius - (1 - c) * p.cpRadius)).sum =
      (p.slices.map fun s => p.law mach s (rawAOA (c * (s.radius * w) - d * vz) (Real.sqrt ((s.radius * w) ^ 2 + vz ^ 2))) * s.radius).sum -
      (1 - c) * p.cpRadius * (p.slices.map fun s => p.law mach s (rawAOA (c * (s.radius * w) - d * vz)
        (Real.sqrt ((s.radius * w) ^ 2 + vz ^ 2)))).sum := by
    rw [← List.sum_map_mul_left]
    induction p.slices with
    | nil => simp
    | cons a l ih => simp only [List.map_cons, List.sum_cons]; rw [ih]; ring
  rw [hsum]
  generalize (p.slices.map fun s => p.law mach s (rawAOA (c * (s.radius * w) - d * vz) (Real.sqrt ((s.radius * w) ^ 2 + vz ^ 2))) * s.radius).sum = A
  generalize (p.slices.map fun s => p.law mach s (rawAOA (c * (s.radius * w) - d * vz) (Real.sqrt ((s.radius * w) ^ 2 + vz ^ 2)))).sum = B
  generalize dragToAxial (rawAOA (c * (mid.radius * w) - d * vz) (Real.sqrt ((mid.radius * w) ^ 2 + vz ^ 2))) = D
  simp only [FMS.momentAbout, FMS.make, Option.getD_some, cpSpanwise, cross, add_x, add_y, add_z, smul_x, smul_y, smul_z, sub_x, sub_y, sub_z,
    h.px, h.py, h.sz]
  have e := h.unit
  linear_combination (-(B * q * c * p.cpRadius) + D * cd * aref * q * d * p.cpRadius) * e

/-- **C109.** In forward flight at speed `V` the angle of attack of a slice is the cant plus the angle of its helix, `atan (radius * w / V)`. -/
theorem cant_aoa (r V w delta : ℝ) (hV : 0.1 ≤ V) (hlo : -90 ≤ delta + Real.arctan (r * w / V) * 180 / Real.pi)
    (hhi : delta + Real.arctan (r * w / V) * 180 / Real.pi ≤ 90)
    (hs : Real.sin (delta * Real.pi / 180 + Real.arctan (r * w / V)) ≤ 1 - 1e-14) :
    rawAOA (Real.cos (delta * Real.pi / 180) * (r * w) - Real.sin (delta * Real.pi / 180) * -V) (Real.sqrt ((r * w) ^ 2 + (-V) ^ 2)) =
      delta * Real.pi / 180 + Real.arctan (r * w / V) := by
  have hV0 : 0 < V := by linarith
  have hpi := Real.pi_pos
  set θ := Real.arctan (r * w / V) with hθ
  set L := Real.sqrt ((r * w) ^ 2 + (-V) ^ 2) with hL
  have hL2 : L ^ 2 = (r * w) ^ 2 + V ^ 2 := by rw [hL, Real.sq_sqrt (by positivity)]; ring
  have hLV : V ≤ L := by rw [hL]; apply Real.le_sqrt_of_sq_le; nlinarith [sq_nonneg (r * w)]
  have hL0 : 0 < L := by linarith
  have hcosθ : Real.cos θ = V / L := by
    rw [hθ, Real.cos_arctan]
    have : Real.sqrt (1 + (r * w / V) ^ 2) = L / V := by
      rw [Real.sqrt_eq_iff_eq_sq (by positivity) (by positivity)]
      rw [div_pow, div_pow, hL2]; field_simp; ring
    rw [this]; field_simp
  have hsinθ : Real.sin θ = r * w / L := by
    have ht : Real.tan θ = r * w / V := Real.tan_arctan _
    have hc : Real.cos θ ≠ 0 := by rw [hcosθ]; positivity
    rw [Real.tan_eq_sin_div_cos, div_eq_iff hc, hcosθ] at ht
    rw [ht]; field_simp
  have key : (Real.cos (delta * Real.pi / 180) * (r * w) - Real.sin (delta * Real.pi / 180) * -V) * (1 / L) =
      Real.sin (delta * Real.pi / 180 + θ) := by
    rw [Real.sin_add, hcosθ, hsinθ]; field_simp; ring
  unfold rawAOA
  rw [if_pos (by linarith : L ≥ 0.1), key, if_neg]
  · apply Real.arcsin_sin
    · have := mul_le_mul_of_nonneg_right hlo hpi.le
      have e : (delta + θ * 180 / Real.pi) * Real.pi = delta * Real.pi + θ * 180 := by field_simp
      rw [e] at this; linarith
    · have := mul_le_mul_of_nonneg_right hhi hpi.le
      have e : (delta + θ * 180 / Real.pi) * Real.pi = delta * Real.pi + θ * 180 := by field_simp
      rw [e] at this; linarith
  · rw [not_lt, abs_sub_comm, abs_of_nonneg (by norm_num at hs ⊢; linarith)]; linarith

/-- **C109.** The direction of the push. If the air meets all slices from the side the normal points away from, the fin turns the rocket in
the negative sense, but for the drag along its chord, and the other way round. -/
theorem cant_push_partial (p : FinP) (h : p.Ok) (mach q aref vz w delta cpx cd : ℝ) (hm0 : 0 ≤ mach)
    (hm : mach ≤ 0.8 ∨ 1.4 ≤ mach ∨ ∀ s ∈ p.slices, |p.outer - s.radius| ≤ 3 * s.len) (hq : 0 ≤ q)
    (hr : ∀ s ∈ p.slices, (1 - Real.cos (delta * Real.pi / 180)) * p.cpRadius ≤ s.radius)
    (f : FMS ℝ) (hf : p.force mach q aref ⟨0, 0, vz⟩ w delta cpx cd = .ok f) (z : ℝ) :
    ∃ a : ℝ, 0 < a ∧
    ((∀ s ∈ p.slices, 0 ≤ Real.cos (delta * Real.pi / 180) * (s.radius * w) - Real.sin (delta * Real.pi / 180) * vz) →
      (f.momentAbout ⟨0, 0, z⟩).z ≤ q * (Real.sin (delta * Real.pi / 180) * p.cpRadius * (a * cd * aref)) ∧
      (0 < q → (∃ s ∈ p.slices, 0 < s.area ∧ (1 - Real.cos (delta * Real.pi / 180)) * p.cpRadius < s.radius ∧
        0 < Real.cos (delta * Real.pi / 180) * (s.radius * w) - Real.sin (delta * Real.pi / 180) * vz ∧
        0.1 ≤ Real.sqrt ((s.radius * w) ^ 2 + vz ^ 2)) →
        (f.momentAbout ⟨0, 0, z⟩).z < q * (Real.sin (delta * Real.pi / 180) * p.cpRadius * (a * cd * aref)))) ∧
    ((∀ s ∈ p.slices, Real.cos (delta * Real.pi / 180) * (s.radius * w) - Real.sin (delta * Real.pi / 180) * vz ≤ 0) →
      q * (Real.sin (delta * Real.pi / 180) * p.cpRadius * (a * cd * aref)) ≤ (f.momentAbout ⟨0, 0, z⟩).z ∧
      (0 < q → (∃ s ∈ p.slices, 0 < s.area ∧ (1 - Real.cos (delta * Real.pi / 180)) * p.cpRadius < s.radius ∧
        Real.cos (delta * Real.pi / 180) * (s.radius * w) - Real.sin (delta * Real.pi / 180) * vz < 0 ∧
        0.1 ≤ Real.sqrt ((s.radius * w) ^ 2 + vz ^ 2)) →
        q * (Real.sin (delta * Real.pi / 180) * p.cpRadius * (a * cd * aref)) < (f.momentAbout ⟨0, 0, z⟩).z)) := by
  obtain ⟨mid, -, e⟩ := cant_moment p h mach q aref vz w delta cpx cd hm0 f hf z
  set c := Real.cos (delta * Real.pi / 180) with hc
  set d := Real.sin (delta * Real.pi / 180) with hd
  have hcd : c ^ 2 + d ^ 2 = 1 := Real.cos_sq_add_sin_sq _
  have hbound : ∀ r : ℝ, |c * (r * w) - d * vz| ≤ Real.sqrt ((r * w) ^ 2 + vz ^ 2) := by
    intro r
    apply Real.abs_le_sqrt
    nlinarith [sq_nonneg (d * (r * w) + c * vz)]
  refine ⟨_, (dragToAxial_range (rawAOA (c * (mid.radius * w) - d * vz) (Real.sqrt ((mid.radius * w) ^ 2 + vz ^ 2)))).1, ?_, ?_⟩
  · intro hx
    have nn : ∀ s ∈ p.slices, 0 ≤ p.law mach s (rawAOA (c * (s.radius * w) - d * vz) (Real.sqrt ((s.radius * w) ^ 2 + vz ^ 2))) *
        (s.radius - (1 - c) * p.cpRadius) := by
      intro s hs
      apply mul_nonneg _ (by have := hr s hs; linarith)
      obtain ⟨-, -, cf, hcf⟩ := law_mono p h mach s hs (hm.imp_right (Or.imp_right fun h => h s hs))
      obtain ⟨e1, h1, -⟩ := hcf (rawAOA (c * (s.radius * w) - d * vz) (Real.sqrt ((s.radius * w) ^ 2 + vz ^ 2)))
      rw [e1]
      apply mul_nonneg _ h1
      rcases (hx s hs).eq_or_lt with h0 | h0
      · rw [← h0, rawAOA_zero]
      · exact nonneg_of_mul_nonneg_left (rawAOA_sign _ _ (Real.sqrt_nonneg _) (hbound s.radius)).1 h0
    have hsum : 0 ≤ (p.slices.map fun s => p.law mach s (rawAOA (c * (s.radius * w) - d * vz) (Real.sqrt ((s.radius * w) ^ 2 + vz ^ 2))) *
        (s.radius - (1 - c) * p.cpRadius)).sum := by
      have := sum_map_le p.slices (fun _ => 0) _ nn
      simpa using this
    refine ⟨by rw [e]; have := mul_nonneg hq hsum; linarith, ?_⟩
    rintro hq0 ⟨s, hs, ha, hrs, hxs, hL⟩
    have pos : 0 < p.law mach s (rawAOA (c * (s.radius * w) - d * vz) (Real.sqrt ((s.radius * w) ^ 2 + vz ^ 2))) *
        (s.radius - (1 - c) * p.cpRadius) := by
      apply mul_pos _ (by linarith)
      obtain ⟨-, -, cf, hcf⟩ := law_mono p h mach s hs (hm.imp_right (Or.imp_right fun h => h s hs))
      obtain ⟨e1, -, h1⟩ := hcf (rawAOA (c * (s.radius * w) - d * vz) (Real.sqrt ((s.radius * w) ^ 2 + vz ^ 2)))
      rw [e1]
      exact mul_pos (pos_of_mul_pos_left ((rawAOA_sign _ _ (Real.sqrt_nonneg _) (hbound s.radius)).2 hL hxs.ne') hxs.le) (h1 ha)
    have hlt := sum_map_lt p.slices (fun _ => 0) _ nn s hs pos
    have hlt : 0 < (p.slices.map fun s => p.law mach s (rawAOA (c * (s.radius * w) - d * vz) (Real.sqrt ((s.radius * w) ^ 2 + vz ^ 2))) *
        (s.radius - (1 - c) * p.cpRadius)).sum := by simpa using hlt
    rw [e]; have := mul_pos hq0 hlt; linarith
  · intro hx
    have np : ∀ s ∈ p.slices, p.law mach s (rawAOA (c * (s.radius * w) - d * vz) (Real.sqrt ((s.radius * w) ^ 2 + vz ^ 2))) *
        (s.radius - (1 - c) * p.cpRadius) ≤ 0 := by
      intro s hs
      apply mul_nonpos_of_nonpos_of_nonneg _ (by have := hr s hs; linarith)
      obtain ⟨-, -, cf, hcf⟩ := law_mono p h mach s hs (hm.imp_right (Or.imp_right fun h => h s hs))
      obtain ⟨e1, h1, -⟩ := hcf (rawAOA (c * (s.radius * w) - d * vz) (Real.sqrt ((s.radius * w) ^ 2 + vz ^ 2)))
      rw [e1]
      apply mul_nonpos_of_nonpos_of_nonneg _ h1
      rcases (hx s hs).eq_or_lt with h0 | h0
      · rw [h0, rawAOA_zero]
      · have := (rawAOA_sign _ _ (Real.sqrt_nonneg _) (hbound s.radius)).1
        by_contra hcon
        have := mul_neg_of_pos_of_neg (not_le.1 hcon) h0
        linarith
    have hsum : (p.slices.map fun s => p.law mach s (rawAOA (c * (s.radius * w) - d * vz) (Real.sqrt ((s.radius * w) ^ 2 + vz ^ 2))) *
        (s.radius - (1 - c) * p.cpRadius)).sum ≤ 0 := by
      have := sum_map_le p.slices _ (fun _ => 0) np
      simpa using this
    refine ⟨by rw [e]; have := mul_nonpos_of_nonneg_of_nonpos hq hsum; linarith, ?_⟩
    rintro hq0 ⟨s, hs, ha, hrs, hxs, hL⟩
    have neg : p.law mach s (rawAOA (c * (s.radius * w) - d * vz) (Real.sqrt ((s.radius * w) ^ 2 + vz ^ 2))) *
        (s.radius - (1 - c) * p.cpRadius) < 0 := by
      apply mul_neg_of_neg_of_pos _ (by linarith)
      obtain ⟨-, -, cf, hcf⟩ := law_mono p h mach s hs (hm.imp_right (Or.imp_right fun h => h s hs))
      obtain ⟨e1, -, h1⟩ := hcf (rawAOA (c * (s.radius * w) - d * vz) (Real.sqrt ((s.radius * w) ^ 2 + vz ^ 2)))
      rw [e1]
      apply mul_neg_of_neg_of_pos _ (h1 ha)
      have := (rawAOA_sign _ _ (Real.sqrt_nonneg _) (hbound s.radius)).2 hL hxs.ne
      by_contra hcon
      have := mul_nonpos_of_nonneg_of_nonpos (not_lt.1 hcon) hxs.le
      linarith
    have hlt := sum_map_lt p.slices _ (fun _ => 0) np s hs neg
    have hlt : (p.slices.map fun s => p.law mach s (rawAOA (c * (s.radius * w) - d * vz) (Real.sqrt ((s.radius * w) ^ 2 + vz ^ 2))) *
        (s.radius - (1 - c) * p.cpRadius)).sum < 0 := by simpa using hlt
    rw [e]; have := mul_neg_of_pos_of_neg hq0 hlt; linarith

end FinP

end Mapleaf.Rocket
