import Verif.Rocket.FinForceProps
import Verif.GNC.GncProps
import Verif.Motion.ForceProps

/-!
# C42, C45: what fins do to a rotating rocket
-/

namespace Mapleaf.Rocket
open Mapleaf.Motion V3

theorem sum_map_le {α : Type} (l : List α) (f g : α → ℝ) (h : ∀ x ∈ l, f x ≤ g x) : (l.map f).sum ≤ (l.map g).sum := by
  induction l with
  | nil => simp
  | cons a l ih =>
    simp only [List.map_cons, List.sum_cons]
    exact add_le_add (h a (by simp)) (ih fun x hx => h x (by simp [hx]))

theorem sum_map_lt {α : Type} (l : List α) (f g : α → ℝ) (h : ∀ x ∈ l, f x ≤ g x) (y : α) (hy : y ∈ l) (hlt : f y < g y) :
    (l.map f).sum < (l.map g).sum := by
  induction l with
  | nil => simp at hy
  | cons a l ih =>
    simp only [List.map_cons, List.sum_cons]
    rcases List.mem_cons.1 hy with rfl | hy'
    · exact add_lt_add_of_lt_of_le hlt (sum_map_le l f g fun x hx => h x (by simp [hx]))
    · exact add_lt_add_of_le_of_lt (h a (by simp)) (ih (fun x hx => h x (by simp [hx])) hy')

namespace FinP

/-- the middle slice used for the drag direction always exists -/
theorem middle_slice (n : Nat) (hn : n ≠ 0) : (GNC.pyRound ((n : ℝ) / 2)).toNat < n := by
  have h := GNC.pyRound_close ((n : ℝ) / 2)
  rw [abs_le] at h
  by_cases h1 : n = 1
  · subst h1
    have : GNC.pyRound ((1 : ℕ) / 2 : ℝ) = 0 := by
      unfold GNC.pyRound
      have hf : ⌊((1 : ℕ) / 2 : ℝ)⌋ = 0 := by rw [Int.floor_eq_iff]; norm_num
      rw [hf]; norm_num
    rw [this]; norm_num
  · have h2 : 2 ≤ n := by omega
    have h3 : ((GNC.pyRound ((n : ℝ) / 2) : ℤ) : ℝ) < n := by
      have : (2 : ℝ) ≤ n := by exact_mod_cast h2
      linarith [h.1]
    have h4 : GNC.pyRound ((n : ℝ) / 2) < n := by exact_mod_cast h3
    omega

/-- **C45.** A usable fin can be evaluated in every flight condition, transonic included. -/
theorem force_defined (p : FinP) (h : p.Ok) (mach q aref : ℝ) (airVel : V3 ℝ) (w delta cpx cd : ℝ) (hm : 0 ≤ mach) :
    ∃ f, p.force mach q aref airVel w delta cpx cd = .ok f :=
  force_total p h mach q aref airVel w delta cpx cd hm (middle_slice _ (by simpa using h.slices))

theorem aoa_undeflected (p : FinP) (h : p.Ok) (airVel : V3 ℝ) (w : ℝ) (s : FinSlice) :
    p.aoa airVel p.normal0 w s = rawAOA (dot p.normal0 airVel + s.radius * w)
      (Real.sqrt ((dot p.normal0 airVel + s.radius * w) ^ 2 + ((dot p.spanwise airVel) ^ 2 + airVel.z ^ 2))) := by
  unfold aoa
  rw [aoa_raw _ _ _ _ _ h.stall, (slice_vel p h airVel w s).1, (slice_vel p h airVel w s).2]

/-- the force law times the speed across the fin is never negative -/
theorem law_power (p : FinP) (h : p.Ok) (mach : ℝ) (hm : mach ≤ 0.8 ∨ 1.4 ≤ mach ∨ ∀ s ∈ p.slices, |p.outer - s.radius| ≤ 3 * s.len)
    (s : FinSlice) (hs : s ∈ p.slices) (x c : ℝ) (hc : 0 ≤ c) : 0 ≤ p.law mach s (rawAOA x (Real.sqrt (x ^ 2 + c))) * x ∧
    (0.1 ≤ Real.sqrt (x ^ 2 + c) → x ≠ 0 → 0 < s.area → 0 < p.law mach s (rawAOA x (Real.sqrt (x ^ 2 + c))) * x) := by
  obtain ⟨-, -, cf, hcf⟩ := law_mono p h mach s hs (hm.imp_right (Or.imp_right fun h => h s hs))
  obtain ⟨e, h1, h2⟩ := hcf (rawAOA x (Real.sqrt (x ^ 2 + c)))
  have hx : |x| ≤ Real.sqrt (x ^ 2 + c) := by
    rw [← Real.sqrt_sq_eq_abs]; exact Real.sqrt_le_sqrt (by linarith)
  obtain ⟨s1, s2⟩ := rawAOA_sign x _ (Real.sqrt_nonneg _) hx
  rw [e]
  have e' : rawAOA x (Real.sqrt (x ^ 2 + c)) * cf (rawAOA x (Real.sqrt (x ^ 2 + c))) * x =
      rawAOA x (Real.sqrt (x ^ 2 + c)) * x * cf (rawAOA x (Real.sqrt (x ^ 2 + c))) := by ring
  rw [e']
  exact ⟨mul_nonneg s1 h1, fun a b c => mul_pos (s2 a b) (h2 c)⟩

/-- **C42.** In axial flow the roll moment of an undeflected fin, about any point of the axis, never feeds the roll; it takes energy from
it as soon as one slice off the axis with positive area sees 0.1 m/s. Between Mach 0.8 and 1.4 this is for fins none of whose slices is
more than three times its length away from the tip (false otherwise, see `roll_transonic_violated`). -/
theorem roll_power_partial (p : FinP) (h : p.Ok) (mach q aref vz w cpx cd : ℝ) (hm0 : 0 ≤ mach)
    (hm : mach ≤ 0.8 ∨ 1.4 ≤ mach ∨ ∀ s ∈ p.slices, |p.outer - s.radius| ≤ 3 * s.len)
    (hq : 0 ≤ q) (f : FMS ℝ) (hf : p.force mach q aref ⟨0, 0, vz⟩ w 0 cpx cd = .ok f) (z : ℝ) :
    (f.momentAbout ⟨0, 0, z⟩).z * w ≤ 0 ∧
    (0 < q → w ≠ 0 → (∃ s ∈ p.slices, 0 < s.area ∧ 0 < s.radius ∧ 0.1 ≤ Real.sqrt ((s.radius * w) ^ 2 + vz ^ 2)) →
      (f.momentAbout ⟨0, 0, z⟩).z * w < 0) := by
  have e := roll_moment p h mach q aref ⟨0, 0, vz⟩ w cpx cd hm0 f hf z
  have e' : (f.momentAbout ⟨0, 0, z⟩).z = (f.getAt ⟨0, 0, z⟩).moment.z := rfl
  rw [e', e]
  have hd : dot p.normal0 (⟨0, 0, vz⟩ : V3 ℝ) = 0 := by simp [dot, normal0]
  have hd2 : dot p.spanwise (⟨0, 0, vz⟩ : V3 ℝ) = 0 := by simp [dot, h.sz]
  have ha : ∀ s : FinSlice, p.aoa ⟨0, 0, vz⟩ p.normal0 w s = rawAOA (s.radius * w) (Real.sqrt ((s.radius * w) ^ 2 + vz ^ 2)) := by
    intro s; rw [aoa_undeflected p h, hd, hd2]; simp
  have hsum : (p.slices.map fun s => p.law mach s (p.aoa ⟨0, 0, vz⟩ p.normal0 w s) * s.radius).sum * w =
      (p.slices.map fun s => p.law mach s (rawAOA (s.radius * w) (Real.sqrt ((s.radius * w) ^ 2 + vz ^ 2))) * (s.radius * w)).sum := by
    rw [← List.sum_map_mul_right]
    congr 1
    apply List.map_congr_left
    intro s _
    rw [ha s]; ring
  have e2 : -(q * (p.slices.map fun s => p.law mach s (p.aoa ⟨0, 0, vz⟩ p.normal0 w s) * s.radius).sum) * w =
      -(q * (p.slices.map fun s => p.law mach s (rawAOA (s.radius * w) (Real.sqrt ((s.radius * w) ^ 2 + vz ^ 2))) * (s.radius * w)).sum) := by
    rw [← hsum]; ring
  rw [e2]
  constructor
  · rw [neg_nonpos]
    refine mul_nonneg hq ?_
    have := sum_map_le p.slices (fun _ => 0) (fun s => p.law mach s (rawAOA (s.radius * w) (Real.sqrt ((s.radius * w) ^ 2 + vz ^ 2))) *
      (s.radius * w)) fun s hs => (law_power p h mach hm s hs _ _ (sq_nonneg vz)).1
    simpa using this
  · rintro hq0 hw ⟨s, hs, hsa, hsr, hsp⟩
    rw [neg_lt_zero]
    refine mul_pos hq0 ?_
    have := sum_map_lt p.slices (fun _ => 0) (fun s => p.law mach s (rawAOA (s.radius * w) (Real.sqrt ((s.radius * w) ^ 2 + vz ^ 2))) *
      (s.radius * w)) (fun s hs => (law_power p h mach hm s hs _ _ (sq_nonneg vz)).1) s hs
      ((law_power p h mach hm s hs _ _ (sq_nonneg vz)).2 hsp (by positivity) hsa)
    simpa using this

/-- **C42.** In any flow, a faster roll never increases an undeflected fin's roll moment, as long as every slice sees at least 0.1 m/s.
Between Mach 0.8 and 1.4 for fins as above. -/
theorem roll_antitone_partial (p : FinP) (h : p.Ok) (mach q aref : ℝ) (airVel : V3 ℝ) (w w' cpx cd : ℝ) (hm0 : 0 ≤ mach)
    (hm : mach ≤ 0.8 ∨ 1.4 ≤ mach ∨ ∀ s ∈ p.slices, |p.outer - s.radius| ≤ 3 * s.len) (hq : 0 ≤ q) (hw : w ≤ w')
    (hv : ∀ s ∈ p.slices, 0.1 ≤ (airVel + s.radius • p.tangential w).length ∧ 0.1 ≤ (airVel + s.radius • p.tangential w').length)
    (f f' : FMS ℝ) (hf : p.force mach q aref airVel w 0 cpx cd = .ok f) (hf' : p.force mach q aref airVel w' 0 cpx cd = .ok f') (z : ℝ) :
    (f'.momentAbout ⟨0, 0, z⟩).z ≤ (f.momentAbout ⟨0, 0, z⟩).z := by
  have e : (f.momentAbout ⟨0, 0, z⟩).z = _ := roll_moment p h mach q aref airVel w cpx cd hm0 f hf z
  have e' : (f'.momentAbout ⟨0, 0, z⟩).z = _ := roll_moment p h mach q aref airVel w' cpx cd hm0 f' hf' z
  rw [e, e', neg_le_neg_iff]
  refine mul_le_mul_of_nonneg_left (sum_map_le _ _ _ fun s hs => ?_) hq
  obtain ⟨-, hr, -⟩ := h.areas s hs
  refine mul_le_mul_of_nonneg_right ((law_mono p h mach s hs (hm.imp_right (Or.imp_right fun h => h s hs))).1 ?_) hr
  rw [aoa_undeflected p h, aoa_undeflected p h]
  have h1 := (hv s hs).1
  have h2 := (hv s hs).2
  rw [(slice_vel p h airVel w s).2] at h1
  rw [(slice_vel p h airVel w' s).2] at h2
  exact rawAOA_mono _ _ _ (by positivity) (by nlinarith [mul_le_mul_of_nonneg_left hw hr]) h1 h2

/-- **C42.** Pitch and yaw in axial flow, without fin drag: the power of one undeflected fin is governed by two lever arms about the centre
of gravity: that of the root (where the code measures the air velocity) and that of the centre of pressure (where it applies the force).
It takes energy when they lie on the same side, and feeds the rotation when they do not. Between Mach 0.8 and 1.4 for fins as above. -/
theorem pitch_power_partial (p : FinP) (h : p.Ok) (mach q aref vz wx wy cgz cpx : ℝ) (hm0 : 0 ≤ mach)
    (hm : mach ≤ 0.8 ∨ 1.4 ≤ mach ∨ ∀ s ∈ p.slices, |p.outer - s.radius| ≤ 3 * s.len)
    (hq : 0 ≤ q) (f : FMS ℝ)
    (hf : p.force mach q aref (finAirVel ⟨0, 0, vz⟩ ⟨wx, wy, 0⟩ p.position ⟨0, 0, cgz⟩) 0 0 cpx 0 = .ok f) :
    (0 ≤ (p.position.z - cgz) * (p.position.z - cpx - cgz) → dot (f.momentAbout ⟨0, 0, cgz⟩) ⟨wx, wy, 0⟩ ≤ 0) ∧
    ((p.position.z - cgz) * (p.position.z - cpx - cgz) < 0 → 0 ≤ dot (f.momentAbout ⟨0, 0, cgz⟩) ⟨wx, wy, 0⟩) ∧
    ((p.position.z - cgz) * (p.position.z - cpx - cgz) < 0 → 0 < q → 0.1 ≤ |vz| → p.spanwise.x * wx + p.spanwise.y * wy ≠ 0 →
      (∃ s ∈ p.slices, 0 < s.area) → 0 < dot (f.momentAbout ⟨0, 0, cgz⟩) ⟨wx, wy, 0⟩) := by
  obtain ⟨a, e1, -, e2, e3⟩ := force_undeflected p h mach q aref _ 0 cpx 0 hm0 f hf
  set V := finAirVel (⟨0, 0, vz⟩ : V3 ℝ) ⟨wx, wy, 0⟩ p.position ⟨0, 0, cgz⟩ with hV
  set u := p.spanwise.x * wx + p.spanwise.y * wy with hu
  have hVe : V = ⟨-(wy * (p.position.z - cgz)), wx * (p.position.z - cgz), vz⟩ := by
    rw [hV]
    unfold finAirVel
    ext <;> simp [cross, h.px, h.py]
  have hd : dot p.normal0 V = -(p.position.z - cgz) * u := by
    rw [hVe]; simp only [dot, normal0]; ring
  have ha : ∀ s : FinSlice, p.aoa V p.normal0 0 s =
      rawAOA (-(p.position.z - cgz) * u) (Real.sqrt ((-(p.position.z - cgz) * u) ^ 2 + ((dot p.spanwise V) ^ 2 + vz ^ 2))) := by
    intro s
    rw [aoa_undeflected p h, hd]
    have : V.z = vz := by rw [hVe]
    rw [this, mul_zero, add_zero]
  set S := (p.slices.map fun s => p.law mach s (p.aoa V p.normal0 0 s)).sum with hS
  have hpow : dot (f.momentAbout ⟨0, 0, cgz⟩) ⟨wx, wy, 0⟩ = q * ((p.position.z - cpx - cgz) * u * S) := by
    have : f.momentAbout ⟨0, 0, cgz⟩ = f.moment + cross (f.loc - ⟨0, 0, cgz⟩) f.force := rfl
    rw [this, e1, e2, e3]
    simp only [dot, cross, normal0, add_x, add_y, add_z, sub_x, sub_y, sub_z, smul_x, smul_y, smul_z, h.sz]
    rw [hu]
    ring
  have hSS : 0 ≤ S * (-(p.position.z - cgz) * u) ∧ (0.1 ≤ |vz| → (p.position.z - cgz) * u ≠ 0 → (∃ s ∈ p.slices, 0 < s.area) →
      0 < S * (-(p.position.z - cgz) * u)) := by
    have hlp := fun s hs => law_power p h mach hm s hs (-(p.position.z - cgz) * u) ((dot p.spanwise V) ^ 2 + vz ^ 2) (by positivity)
    rw [hS, ← List.sum_map_mul_right]
    constructor
    · have := sum_map_le p.slices (fun _ => 0) (fun s => p.law mach s (p.aoa V p.normal0 0 s) * (-(p.position.z - cgz) * u))
        fun s hs => by rw [ha s]; exact (hlp s hs).1
      simpa using this
    · rintro hvz hne ⟨s, hs, hsa⟩
      have hsp : 0.1 ≤ Real.sqrt ((-(p.position.z - cgz) * u) ^ 2 + ((dot p.spanwise V) ^ 2 + vz ^ 2)) := by
        refine hvz.trans ?_
        rw [← Real.sqrt_sq_eq_abs]
        exact Real.sqrt_le_sqrt (by nlinarith [sq_nonneg (-(p.position.z - cgz) * u), sq_nonneg (dot p.spanwise V)])
      have := sum_map_lt p.slices (fun _ => 0) (fun s => p.law mach s (p.aoa V p.normal0 0 s) * (-(p.position.z - cgz) * u))
        (fun s hs => by rw [ha s]; exact (hlp s hs).1) s hs (by
          show 0 < p.law mach s (p.aoa V p.normal0 0 s) * (-(p.position.z - cgz) * u)
          rw [ha s]; exact (hlp s hs).2 hsp (by rw [neg_mul]; exact neg_ne_zero.2 hne) hsa)
      simpa using this
  rw [hpow]
  set zr := p.position.z - cgz
  set zc := p.position.z - cpx - cgz
  -- `u * S` has the sign of `-zr`
  have key : ∀ X : ℝ, X = zc * u * S → X * zr ^ 2 = -(zr * zc) * (S * (-zr * u)) := by intro X hX; rw [hX]; ring
  have k := key _ rfl
  refine ⟨fun hz => ?_, fun hz => ?_, fun hz hq0 hvz hu0 hA => ?_⟩
  · refine mul_nonpos_of_nonneg_of_nonpos hq ?_
    by_cases hzr : zr = 0
    · have : S = 0 := by
        rw [hS]
        have : ∀ s ∈ p.slices, p.law mach s (p.aoa V p.normal0 0 s) = 0 := by
          intro s hs
          rw [ha s, hzr]
          obtain ⟨-, -, cf, hcf⟩ := law_mono p h mach s hs (hm.imp_right (Or.imp_right fun h => h s hs))
          rw [(hcf _).1]
          have : rawAOA (-0 * u) (Real.sqrt ((-0 * u) ^ 2 + ((dot p.spanwise V) ^ 2 + vz ^ 2))) = 0 := by
            unfold rawAOA
            split
            · rw [if_neg (by norm_num)]; simp
            · rfl
          rw [this, zero_mul]
        rw [List.map_congr_left this]; simp
      rw [this, mul_zero]
    · have hzr2 : 0 < zr ^ 2 := by positivity
      by_contra hc
      have := mul_pos (not_le.1 hc) hzr2
      rw [k] at this
      nlinarith [mul_nonneg hz hSS.1]
  · refine mul_nonneg hq ?_
    have hzr2 : 0 < zr ^ 2 := by
      have : zr ≠ 0 := by rintro h0; rw [h0] at hz; simp at hz
      positivity
    by_contra hc
    have := mul_neg_of_neg_of_pos (not_le.1 hc) hzr2
    rw [k] at this
    nlinarith [mul_nonneg (neg_nonneg.2 hz.le) hSS.1]
  · refine mul_pos hq0 ?_
    have hzr : zr ≠ 0 := by rintro h0; rw [h0] at hz; simp at hz
    have hzr2 : 0 < zr ^ 2 := by positivity
    by_contra hc
    have h1 := mul_nonpos_of_nonpos_of_nonneg (not_lt.1 hc) hzr2.le
    rw [k] at h1
    have h2 := mul_pos (neg_pos.2 hz) (hSS.2 hvz (mul_ne_zero hzr hu0) hA)
    linarith

/-- a copy of the fin in another direction -/
def turned (p : FinP) (s : V3 ℝ) : FinP := { p with spanwise := s }

theorem turned_ok (p : FinP) (h : p.Ok) (s : V3 ℝ) (hz : s.z = 0) (hu : s.x ^ 2 + s.y ^ 2 = 1) : (p.turned s).Ok :=
  ⟨hz, hu, h.slices, h.areas, h.stall, h.span, h.planform, h.cp, h.px, h.py⟩

theorem turned_aoa (p : FinP) (h : p.Ok) (s : V3 ℝ) (hz : s.z = 0) (hu : s.x ^ 2 + s.y ^ 2 = 1) (vz w c d : ℝ) :
    (p.turned s).aoa ⟨0, 0, vz⟩ ⟨c * s.y, -(c * s.x), -d⟩ w =
      fun sl => rawAOA (c * (sl.radius * w) - d * vz) (Real.sqrt ((sl.radius * w) ^ 2 + vz ^ 2)) := by
  funext sl
  unfold aoa
  rw [aoa_raw _ _ _ _ _ (turned_ok p h s hz hu).stall]
  congr 1
  · simp only [turned, dot, tangential, cross, add_x, add_y, add_z, smul_x, smul_y, smul_z, hz]
    linear_combination (c * sl.radius * w) * hu
  · unfold V3.length
    congr 1
    simp only [turned, tangential, cross, add_x, add_y, add_z, smul_x, smul_y, smul_z, hz]
    linear_combination (w ^ 2 * sl.radius ^ 2) * hu

/-- in axial flow the force of a fin turns with the fin -/
theorem turned_force (p : FinP) (h : p.Ok) (mach q aref vz w delta cpx cd : ℝ) (hm : 0 ≤ mach) :
    ∃ A B m : ℝ, ∀ s : V3 ℝ, s.z = 0 → s.x ^ 2 + s.y ^ 2 = 1 → (p.turned s).force mach q aref ⟨0, 0, vz⟩ w delta cpx cd =
      .ok ⟨⟨A * s.y, -(A * s.x), B⟩, ⟨p.cpRadius * s.x, p.cpRadius * s.y, p.position.z - cpx⟩, ⟨0, 0, m⟩⟩ := by
  set c := Real.cos (delta * Real.pi / 180) with hc
  set d := Real.sin (delta * Real.pi / 180) with hd
  have same : ∀ s s' : V3 ℝ, s.z = 0 → s.x ^ 2 + s.y ^ 2 = 1 → s'.z = 0 → s'.x ^ 2 + s'.y ^ 2 = 1 →
      (p.turned s).normalForce ⟨0, 0, vz⟩ ⟨c * s.y, -(c * s.x), -d⟩ w mach =
        (p.turned s').normalForce ⟨0, 0, vz⟩ ⟨c * s'.y, -(c * s'.x), -d⟩ w mach := by
    intro s s' h1 h2 h3 h4
    have ea : (p.turned s).aoa ⟨0, 0, vz⟩ ⟨c * s.y, -(c * s.x), -d⟩ w = (p.turned s').aoa ⟨0, 0, vz⟩ ⟨c * s'.y, -(c * s'.x), -d⟩ w := by
      rw [turned_aoa p h s h1 h2, turned_aoa p h s' h3 h4]
    have el : (p.turned s).cpSpanwise.length = (p.turned s').cpSpanwise.length := by
      rw [cpSpanwise_length _ (turned_ok p h s h1 h2), cpSpanwise_length _ (turned_ok p h s' h3 h4)]; rfl
    have es : (p.turned s).subsonic ⟨0, 0, vz⟩ ⟨c * s.y, -(c * s.x), -d⟩ w =
        (p.turned s').subsonic ⟨0, 0, vz⟩ ⟨c * s'.y, -(c * s'.x), -d⟩ w := by
      funext m; unfold subsonic; rw [ea, el]; rfl
    have ep : (p.turned s).supersonic ⟨0, 0, vz⟩ ⟨c * s.y, -(c * s.x), -d⟩ w =
        (p.turned s').supersonic ⟨0, 0, vz⟩ ⟨c * s'.y, -(c * s'.x), -d⟩ w := by
      funext m; unfold supersonic; rw [ea, el]; rfl
    unfold normalForce
    rw [es, ep]
  obtain ⟨f0, hf0⟩ := force_defined p h mach q aref ⟨0, 0, vz⟩ w delta cpx cd hm
  have hp : p.turned p.spanwise = p := rfl
  obtain ⟨r, hr⟩ := deflected_normal p h delta
  rw [← hc, ← hd] at hr
  unfold force at hf0
  rw [hr] at hf0
  simp only at hf0
  rcases hn : p.normalForce ⟨0, 0, vz⟩ ⟨c * p.spanwise.y, -(c * p.spanwise.x), -d⟩ w mach with e | ⟨f, m⟩
  · rw [hn] at hf0; cases hf0
  rcases hmid : p.slices[(GNC.pyRound ((p.slices.length : ℝ) / 2)).toNat]? with _ | mid
  · rw [hn, hmid] at hf0; cases hf0
  set ax := dragToAxial (rawAOA (c * (mid.radius * w) - d * vz) (Real.sqrt ((mid.radius * w) ^ 2 + vz ^ 2))) * cd * aref * q with hax
  refine ⟨f * q * c - d * ax, -(d * (f * q)) - c * ax, m * q, fun s hz hu => ?_⟩
  obtain ⟨r', hr'⟩ := deflected_normal (p.turned s) (turned_ok p h s hz hu) delta
  rw [← hc, ← hd] at hr'
  have hr2 : (Quat.axisAngle (p.turned s).spanwise (delta * Real.pi / 180)).rotate (p.turned s).normal0 =
      .ok (⟨c * s.y, -(c * s.x), -d⟩, r') := hr'
  unfold force
  rw [hr2]
  simp only
  rw [same s p.spanwise hz hu h.sz h.unit, hp, hn]
  simp only
  have hsl : (p.turned s).slices = p.slices := rfl
  rw [hsl, hmid]
  simp only
  rw [turned_aoa p h s hz hu]
  simp only [← hax]
  unfold FMS.make
  simp only [Option.getD_some, Except.ok.injEq, FMS.mk.injEq, and_true]
  constructor
  · ext
    · simp only [turned, cross, add_x, smul_x, hz]; ring
    · simp only [turned, cross, add_y, smul_y, hz]; ring
    · simp only [turned, cross, add_z, smul_z]
      linear_combination (-(c * ax)) * hu
  · ext
    · simp only [turned, cpSpanwise, add_x, smul_x, sub_x, h.px]; ring
    · simp only [turned, cpSpanwise, add_y, smul_y, sub_y, h.py]; ring
    · simp only [turned, cpSpanwise, add_z, smul_z, sub_z, hz]; ring

end FinP

theorem foldl_fms (l : List (FMS ℝ)) (t : FMS ℝ) :
    (l.foldl FMS.add t).loc = t.loc ∧ (l.foldl FMS.add t).force = t.force + (l.map FMS.force).sum ∧
    (l.foldl FMS.add t).moment = t.moment + (l.map fun f => f.momentAbout t.loc).sum := by
  induction l generalizing t with
  | nil => simp
  | cons a l ih =>
    obtain ⟨h1, h2, h3⟩ := ih (t.add a)
    have hl : (t.add a).loc = t.loc := rfl
    rw [List.foldl_cons, h1, h2, h3, hl]
    refine ⟨rfl, ?_, ?_⟩
    · rw [List.map_cons, List.sum_cons, ← add_assoc]; rfl
    · rw [List.map_cons, List.sum_cons, ← add_assoc]; rfl

/-- **C45.** The force of a fin set: the sum over the fins at the position of the set, with the interference factor on the lateral force and on the
moment about lateral axes, but not on the axial force and the rolling moment. -/
theorem finSet_sum (position : V3 ℝ) (k : ℝ) (fins : List (FMS ℝ)) :
    (finSetForce position k fins).loc = position ∧
    (finSetForce position k fins).force =
      ⟨k * (fins.map fun f => f.force.x).sum, k * (fins.map fun f => f.force.y).sum, (fins.map fun f => f.force.z).sum⟩ ∧
    (finSetForce position k fins).momentAbout position =
      ⟨k * (fins.map fun f => (f.momentAbout position).x).sum, k * (fins.map fun f => (f.momentAbout position).y).sum,
        (fins.map fun f => (f.momentAbout position).z).sum⟩ := by
  obtain ⟨e1, e2, e3⟩ := foldl_fms fins (FMS.make 0 (some position) none)
  have ml : (FMS.make (0 : V3 ℝ) (some position) none).loc = position := rfl
  have mf : (FMS.make (0 : V3 ℝ) (some position) none).force = 0 := rfl
  have mm : (FMS.make (0 : V3 ℝ) (some position) none).moment = 0 := rfl
  rw [ml] at e1 e3
  rw [mf, zero_add] at e2
  rw [mm, zero_add] at e3
  refine ⟨e1, ?_, ?_⟩
  · unfold finSetForce
    apply V3.ext' <;> simp only [e2, Inertia.sum_x, Inertia.sum_y, Inertia.sum_z, List.map_map, Function.comp_def]
    · ring
    · ring
  · unfold finSetForce FMS.momentAbout
    apply V3.ext' <;> simp only [e1, e2, e3, V3.cross, add_x, add_y, add_z, sub_x, sub_y, sub_z, Inertia.sum_x, Inertia.sum_y, Inertia.sum_z, List.map_map,
      Function.comp_def, FMS.momentAbout] <;> ring

/-- **C45.** In axial flow, at any Mach number, roll rate and common deflection, two or more equally spaced equal fins push neither
sideways nor about a lateral axis. -/
theorem finSet_axial (g : FinGeom) (hn : 2 ≤ g.numFins) (dirs : List (V3 ℝ)) (hd : g.directions = .ok dirs) (p : FinP) (h : p.Ok)
    (mach q aref vz w delta cpx cd k : ℝ) (hm : 0 ≤ mach) :
    ∃ fins : List (FMS ℝ), dirs.map (fun s => (p.turned s).force mach q aref ⟨0, 0, vz⟩ w delta cpx cd) = fins.map .ok ∧
      fins.length = g.numFins ∧
      (finSetForce p.position k fins).force.x = 0 ∧ (finSetForce p.position k fins).force.y = 0 ∧
      ∀ z, ((finSetForce p.position k fins).momentAbout ⟨0, 0, z⟩).x = 0 ∧ ((finSetForce p.position k fins).momentAbout ⟨0, 0, z⟩).y = 0 := by
  have hsum := directions_cancel g hn dirs hd
  have h0 : g.numFins ≠ 0 := by omega
  obtain ⟨hl, hunit, -⟩ := (directions_spec g).2 h0
  rw [hd] at hl
  have hl := Except.ok.inj hl
  obtain ⟨A, B, m, hf⟩ := FinP.turned_force p h mach q aref vz w delta cpx cd hm
  set F : V3 ℝ → FMS ℝ := fun s => ⟨⟨A * s.y, -(A * s.x), B⟩, ⟨p.cpRadius * s.x, p.cpRadius * s.y, p.position.z - cpx⟩, ⟨0, 0, m⟩⟩ with hF
  have hmem : ∀ s ∈ dirs, s.z = 0 ∧ s.x ^ 2 + s.y ^ 2 = 1 := by
    intro s hs
    rw [hl] at hs
    obtain ⟨i, -, rfl⟩ := List.mem_map.1 hs
    exact hunit i
  have sx : (dirs.map fun s : V3 ℝ => s.x).sum = 0 := by
    rw [← Inertia.sum_x, hsum]; rfl
  have sy : (dirs.map fun s : V3 ℝ => s.y).sum = 0 := by
    rw [← Inertia.sum_y, hsum]; rfl
  obtain ⟨e1, e2, e3⟩ := foldl_fms (dirs.map F) (FMS.make 0 (some p.position) none)
  have lin : ∀ (l : List (V3 ℝ)) (a b : ℝ), (l.map fun s => a * s.x + b * s.y).sum =
      a * (l.map fun s : V3 ℝ => s.x).sum + b * (l.map fun s : V3 ℝ => s.y).sum := by
    intro l a b
    rw [List.sum_map_add, List.sum_map_mul_left, List.sum_map_mul_left]
  have lin0 : ∀ a b : ℝ, (dirs.map fun s => a * s.x + b * s.y).sum = 0 := by intro a b; rw [lin, sx, sy]; ring
  have fx : ((dirs.map F).foldl FMS.add (FMS.make 0 (some p.position) none)).force.x = 0 := by
    rw [e2, add_x, Inertia.sum_x, List.map_map, List.map_map]
    have : (dirs.map (((fun x : V3 ℝ => x.x) ∘ FMS.force) ∘ F)) = dirs.map fun s => 0 * s.x + A * s.y := by
      apply List.map_congr_left; intro s _; simp [hF]
    rw [this, lin0]; simp [FMS.make]
  have fy : ((dirs.map F).foldl FMS.add (FMS.make 0 (some p.position) none)).force.y = 0 := by
    rw [e2, add_y, Inertia.sum_y, List.map_map, List.map_map]
    have : (dirs.map (((fun x : V3 ℝ => x.y) ∘ FMS.force) ∘ F)) = dirs.map fun s => (-A) * s.x + 0 * s.y := by
      apply List.map_congr_left; intro s _; simp [hF]
    rw [this, lin0]; simp [FMS.make]
  have ml : (FMS.make (0 : V3 ℝ) (some p.position) none).loc = p.position := rfl
  have mx : ((dirs.map F).foldl FMS.add (FMS.make 0 (some p.position) none)).moment.x = 0 := by
    rw [e3, add_x, Inertia.sum_x, List.map_map, List.map_map, ml]
    have : (dirs.map (((fun x : V3 ℝ => x.x) ∘ (fun f : FMS ℝ => f.momentAbout p.position)) ∘ F)) =
        dirs.map fun s => ((-cpx) * A) * s.x + (p.cpRadius * B) * s.y := by
      apply List.map_congr_left; intro s _; simp [hF, FMS.momentAbout, cross, h.py]; ring
    rw [this, lin0]; simp [FMS.make]
  have my : ((dirs.map F).foldl FMS.add (FMS.make 0 (some p.position) none)).moment.y = 0 := by
    rw [e3, add_y, Inertia.sum_y, List.map_map, List.map_map, ml]
    have : (dirs.map (((fun x : V3 ℝ => x.y) ∘ (fun f : FMS ℝ => f.momentAbout p.position)) ∘ F)) =
        dirs.map fun s => (-(p.cpRadius * B)) * s.x + ((-cpx) * A) * s.y := by
      apply List.map_congr_left; intro s _; simp [hF, FMS.momentAbout, cross, h.px]; ring
    rw [this, lin0]; simp [FMS.make]
  refine ⟨dirs.map F, ?_, by rw [hl]; simp, ?_, ?_, ?_⟩
  · rw [List.map_map]
    apply List.map_congr_left
    intro s hs
    exact hf s (hmem s hs).1 (hmem s hs).2
  · unfold finSetForce; simp only; rw [fx, zero_mul]
  · unfold finSetForce; simp only; rw [fy, zero_mul]
  · intro z
    unfold finSetForce FMS.momentAbout
    simp only [add_x, add_y, cross, e1, ml, sub_x, sub_y, sub_z, fx, fy, mx, my, h.px, h.py]
    constructor <;> ring

/-- a flat square fin at the back, one metre behind the centre of gravity -/
noncomputable def exFinP : FinP where
  spanwise := ⟨1, 0, 0⟩
  slices := [⟨0.01, 0.1, 0, 0.1⟩, ⟨0.01, 0.2, 0, 0.1⟩]
  stall := 30
  span := 0.2
  planform := 0.02
  midSweep := 0
  tipPosition := 0
  cpRadius := 0.15
  position := ⟨0, 0, -1⟩

theorem exFinP_ok : exFinP.Ok where
  sz := rfl
  unit := by norm_num [exFinP]
  slices := by simp [exFinP]
  areas := by
    intro s hs
    simp only [exFinP, List.mem_cons, List.not_mem_nil, or_false] at hs
    rcases hs with rfl | rfl <;> norm_num
  stall := by
    have := Real.pi_le_four
    simp only [exFinP]; linarith
  span := by norm_num [exFinP]
  planform := by norm_num [exFinP]
  cp := by norm_num [exFinP]
  px := rfl
  py := rfl

/-- a spinning rocket in subsonic flight: the fin's roll moment is defined and strictly opposes the spin -/
example : ∃ f, exFinP.force 0.5 1000 0.01 ⟨0, 0, -170⟩ 10 0 0.05 0.01 = .ok f ∧ (f.momentAbout ⟨0, 0, 0⟩).z * 10 < 0 := by
  obtain ⟨f, hf⟩ := exFinP.force_defined exFinP_ok 0.5 1000 0.01 ⟨0, 0, -170⟩ 10 0 0.05 0.01 (by norm_num)
  refine ⟨f, hf, (exFinP.roll_power_partial exFinP_ok 0.5 1000 0.01 (-170) 10 0.05 0.01 (by norm_num) (by norm_num) (by norm_num) f hf 0).2
    (by norm_num) (by norm_num) ⟨⟨0.01, 0.1, 0, 0.1⟩, by simp [exFinP], by norm_num, by norm_num, ?_⟩⟩
  apply Real.le_sqrt_of_sq_le; norm_num

/-- a supersonic one -/
example : ∃ f, exFinP.force 2 1000 0.01 ⟨0, 0, -680⟩ 10 0 0.05 0.01 = .ok f ∧ (f.momentAbout ⟨0, 0, 0⟩).z * 10 < 0 := by
  obtain ⟨f, hf⟩ := exFinP.force_defined exFinP_ok 2 1000 0.01 ⟨0, 0, -680⟩ 10 0 0.05 0.01 (by norm_num)
  refine ⟨f, hf, (exFinP.roll_power_partial exFinP_ok 2 1000 0.01 (-680) 10 0.05 0.01 (by norm_num) (by norm_num) (by norm_num) f hf 0).2
    (by norm_num) (by norm_num) ⟨⟨0.01, 0.1, 0, 0.1⟩, by simp [exFinP], by norm_num, by norm_num, ?_⟩⟩
  apply Real.le_sqrt_of_sq_le; norm_num

/-- **C42** violated: with the centre of gravity between the fin's leading edge and its centre of pressure (here 2 cm behind the leading
edge, centre of pressure 5 cm behind) the fin feeds pitching. -/
theorem fin_pitch_violated : ∃ f, exFinP.force 0.5 1000 0.01 (finAirVel ⟨0, 0, -170⟩ ⟨1, 0, 0⟩ exFinP.position ⟨0, 0, -1.02⟩) 0 0 0.05 0 = .ok f ∧
    0 < dot (f.momentAbout ⟨0, 0, -1.02⟩) ⟨1, 0, 0⟩ := by
  obtain ⟨f, hf⟩ := exFinP.force_defined exFinP_ok 0.5 1000 0.01 (finAirVel ⟨0, 0, -170⟩ ⟨1, 0, 0⟩ exFinP.position ⟨0, 0, -1.02⟩) 0 0 0.05 0
    (by norm_num)
  refine ⟨f, hf, (exFinP.pitch_power_partial exFinP_ok 0.5 1000 0.01 (-170) 1 0 (-1.02) 0.05 (by norm_num) (by norm_num) (by norm_num) f hf).2.2
    (by norm_num [exFinP]) (by norm_num) (by norm_num) (by norm_num [exFinP]) ⟨⟨0.01, 0.1, 0, 0.1⟩, by simp [exFinP], by norm_num⟩⟩

/-- the transonic range is covered for ordinary fins -/
example : ∃ f, exFinP.force 1.1 1000 0.01 ⟨0, 0, -370⟩ 10 0 0.05 0.01 = .ok f ∧ (f.momentAbout ⟨0, 0, 0⟩).z * 10 < 0 := by
  obtain ⟨f, hf⟩ := exFinP.force_defined exFinP_ok 1.1 1000 0.01 ⟨0, 0, -370⟩ 10 0 0.05 0.01 (by norm_num)
  refine ⟨f, hf, (exFinP.roll_power_partial exFinP_ok 1.1 1000 0.01 (-370) 10 0.05 0.01 (by norm_num) (Or.inr (Or.inr ?_)) (by norm_num)
    f hf 0).2 (by norm_num) (by norm_num) ⟨⟨0.01, 0.1, 0, 0.1⟩, by simp [exFinP], by norm_num, by norm_num, ?_⟩⟩
  · intro s hs
    have ho : exFinP.outer = 0.2 := by simp [FinP.outer, exFinP]
    rw [ho]
    simp only [exFinP, List.mem_cons, List.not_mem_nil, or_false] at hs
    rcases hs with rfl | rfl
    · norm_num [abs_le]
    · norm_num [abs_le]
  · rw [Real.le_sqrt' (by norm_num)]; norm_num

/-! ## Very slender swept fins feed the roll in the transonic range -/

/-- a fin whose leading edge lies on the Mach cone of Mach 1.4, a thousand times as long as its chord -/
noncomputable def slenderFin : FinP where
  spanwise := ⟨1, 0, 0⟩
  slices := [⟨1, 1, 1000 * Real.sqrt ((1.4 : ℝ) ^ 2 - 1), 1⟩, ⟨0, 1001, 0, 1⟩]
  stall := 30
  span := 0.1
  planform := 2
  midSweep := 0
  tipPosition := 0
  cpRadius := 1
  position := ⟨0, 0, -1⟩

theorem slenderFin_ok : slenderFin.Ok where
  sz := rfl
  unit := by norm_num [slenderFin]
  slices := by simp [slenderFin]
  areas := by
    intro s hs
    simp only [slenderFin, List.mem_cons, List.not_mem_nil, or_false] at hs
    rcases hs with rfl | rfl <;> norm_num
  stall := by
    have := Real.pi_le_four
    simp only [slenderFin]; linarith
  span := by norm_num [slenderFin]
  planform := by norm_num [slenderFin]
  cp := by norm_num [slenderFin]
  px := rfl
  py := rfl

theorem busemann_close : 0.95 * (busemann 1.4 (Real.sqrt ((1.4 : ℝ) ^ 2 - 1))).1 ≤
      (busemann (1.4 + 0.001) (Real.sqrt ((1.4 + 0.001 : ℝ) ^ 2 - 1))).1 ∧
    0.95 * (busemann 1.4 (Real.sqrt ((1.4 : ℝ) ^ 2 - 1))).2.2 ≤
      (busemann (1.4 + 0.001) (Real.sqrt ((1.4 + 0.001 : ℝ) ^ 2 - 1))).2.2 := by
  obtain ⟨h1, h2, h3⟩ := FinP.beta_bounds
  set b := Real.sqrt ((1.4 : ℝ) ^ 2 - 1) with hb
  set b' := Real.sqrt ((1.4 + 0.001 : ℝ) ^ 2 - 1) with hb'
  have hb0 : 0 < b := by linarith
  have hb0' : 0 < b' := by linarith
  have hbb : b' ≤ 1.002 * b := by linarith
  have e1 : b ^ 2 = (1.4 : ℝ) ^ 2 - 1 := Real.sq_sqrt (by norm_num)
  have e2 : b' ^ 2 = (1.4 + 0.001 : ℝ) ^ 2 - 1 := Real.sq_sqrt (by norm_num)
  have p1 : b ^ 7 = ((1.4 : ℝ) ^ 2 - 1) ^ 3 * b := by rw [← e1]; ring
  have p2 : b' ^ 7 = ((1.4 + 0.001 : ℝ) ^ 2 - 1) ^ 3 * b' := by rw [← e2]; ring
  constructor
  · simp only [busemann]
    rw [← mul_div_assoc, div_le_div_iff₀ hb0 hb0']
    linarith
  · simp only [busemann]
    rw [p1, p2, ← mul_div_assoc, div_le_div_iff₀ (by positivity) (by positivity)]
    norm_num at hbb ⊢
    linarith

/-- **C42 fails** between Mach 0.8 and 1.4 for very slender swept fins: the slope of the interpolation at Mach 1.4 comes from the Mach
cone correction, and the fin drives the roll at Mach 1.2. -/
theorem roll_transonic_violated : ∃ f, slenderFin.force 1.2 1 1 ⟨0, 0, -100⟩ 1 0 0 0 = .ok f ∧ 0 < (f.momentAbout ⟨0, 0, 0⟩).z * 1 := by
  obtain ⟨f, hf⟩ := slenderFin.force_defined slenderFin_ok 1.2 1 1 ⟨0, 0, -100⟩ 1 0 0 0 (by norm_num)
  refine ⟨f, hf, ?_⟩
  have e : (f.momentAbout ⟨0, 0, 0⟩).z = _ := FinP.roll_moment slenderFin slenderFin_ok 1.2 1 1 ⟨0, 0, -100⟩ 1 0 0 (by norm_num) f hf 0
  rw [e]
  have hsl : slenderFin.slices = [⟨1, 1, 1000 * Real.sqrt ((1.4 : ℝ) ^ 2 - 1), 1⟩, ⟨0, 1001, 0, 1⟩] := rfl
  have ho : slenderFin.outer = 1001 := by simp [FinP.outer, slenderFin]
  have hlaw : ∀ s a, slenderFin.law 1.2 s a = finBlend 1.2 (slenderFin.subLaw 0.8 s a) (slenderFin.supLaw 1.4 s a)
      (slenderFin.subLaw (0.8 + 0.001) s a) (slenderFin.supLaw (1.4 + 0.001) s a) := by
    intro s a; unfold FinP.law; rw [if_neg (by norm_num), if_pos (by norm_num)]
  set s1 : FinSlice := ⟨1, 1, 1000 * Real.sqrt ((1.4 : ℝ) ^ 2 - 1), 1⟩ with hs1
  set s2 : FinSlice := ⟨0, 1001, 0, 1⟩ with hs2
  have h2 : ∀ a, slenderFin.law 1.2 s2 a = 0 := by
    intro a; rw [hlaw]; simp [FinP.subLaw, FinP.supLaw, hs2, finBlend]
  rw [hsl]
  simp only [List.map_cons, List.map_nil, List.sum_cons, List.sum_nil, h2]
  have ha : slenderFin.aoa ⟨0, 0, -100⟩ slenderFin.normal0 1 s1 = rawAOA 1 (Real.sqrt (1 ^ 2 + 100 ^ 2)) := by
    rw [FinP.aoa_undeflected slenderFin slenderFin_ok]
    simp [slenderFin, FinP.normal0, dot, hs1]
  rw [ha]
  have hpos : 0 < rawAOA 1 (Real.sqrt (1 ^ 2 + 100 ^ 2)) := by
    have := (rawAOA_sign 1 (Real.sqrt (1 ^ 2 + 100 ^ 2)) (Real.sqrt_nonneg _) (by
      rw [abs_one, Real.le_sqrt' (by norm_num)]; norm_num)).2 (by rw [Real.le_sqrt' (by norm_num)]; norm_num) one_ne_zero
    linarith
  set a := rawAOA 1 (Real.sqrt (1 ^ 2 + 100 ^ 2))
  obtain ⟨b1, b2, b3⟩ := FinP.beta_bounds
  have b4 : 0.0011 ≤ Real.sqrt ((1.4 + 0.001 : ℝ) ^ 2 - 1) - Real.sqrt ((1.4 : ℝ) ^ 2 - 1) := by
    have q1 := Real.sq_sqrt (show (0 : ℝ) ≤ (1.4 : ℝ) ^ 2 - 1 by norm_num)
    have q2 : Real.sqrt ((1.4 : ℝ) ^ 2 - 1) + 0.0011 ≤ Real.sqrt ((1.4 + 0.001 : ℝ) ^ 2 - 1) := by
      rw [Real.le_sqrt' (by positivity)]
      have q3 : Real.sqrt ((1.4 : ℝ) ^ 2 - 1) ≤ 1 := by rw [Real.sqrt_le_left (by norm_num)]; norm_num
      nlinarith
    linarith
  have c1 : slenderFin.coneFactor 1.4 s1 = 0.5 := by
    unfold FinP.coneFactor
    rw [FinP.mach_slope _ (by norm_num), ho]
    unfold machConeFactor
    have : (1001 - s1.radius) * Real.sqrt ((1.4 : ℝ) ^ 2 - 1) + slenderFin.tipPosition - s1.le = 0 := by
      simp only [hs1, slenderFin]; ring
    rw [this]; norm_num
  have c2 : slenderFin.coneFactor (1.4 + 0.001) s1 = 1 := by
    unfold FinP.coneFactor
    rw [FinP.mach_slope _ (by norm_num), ho]
    unfold machConeFactor
    have : (1001 - s1.radius) * Real.sqrt ((1.4 + 0.001 : ℝ) ^ 2 - 1) + slenderFin.tipPosition - s1.le =
        1000 * (Real.sqrt ((1.4 + 0.001 : ℝ) ^ 2 - 1) - Real.sqrt ((1.4 : ℝ) ^ 2 - 1)) := by
      simp only [hs1, slenderFin]; ring
    rw [this, abs_of_nonneg (by linarith)]
    rw [min_eq_left (by simp only [hs1]; linarith)]
    norm_num
  obtain ⟨k1, k3⟩ := busemann_close
  obtain ⟨p1, p3⟩ := busemann_pos 1.4 (Real.sqrt ((1.4 : ℝ) ^ 2 - 1)) (by norm_num) (by linarith)
  have kk : 1 ≤ (busemann 1.4 (Real.sqrt ((1.4 : ℝ) ^ 2 - 1))).1 := by
    simp only [busemann]
    rw [le_div_iff₀ (by linarith)]
    have q3 : Real.sqrt ((1.4 : ℝ) ^ 2 - 1) ≤ 1 := by rw [Real.sqrt_le_left (by norm_num)]; norm_num
    linarith
  have cn0 := cnAlpha_pos 0.1 2 (Real.sqrt (1 - (0.8 : ℝ) ^ 2)) 0 (by norm_num) (by norm_num)
  have cn1 : cnAlpha 0.1 2 (Real.sqrt (1 - (0.8 + 0.001 : ℝ) ^ 2)) 0 ≤ 0.04 := by
    unfold cnAlpha
    dsimp only
    have h0 := Real.sqrt_nonneg (4 + (Real.sqrt (1 - (0.8 + 0.001 : ℝ) ^ 2) * (2 * 0.1 ^ 2 / 2) / Real.cos 0) ^ 2)
    rw [div_le_iff₀ (by linarith)]
    generalize Real.sqrt (4 + (Real.sqrt (1 - (0.8 + 0.001 : ℝ) ^ 2) * (2 * 0.1 ^ 2 / 2) / Real.cos 0) ^ 2) = r at h0 ⊢
    have := Real.pi_le_four
    have e : 2 * Real.pi * (2 * 0.1 ^ 2 / 2) = 0.02 * Real.pi := by ring
    rw [e]
    nlinarith
  rw [hlaw]
  have y1 : slenderFin.subLaw 0.8 s1 a = cnAlpha 0.1 2 (Real.sqrt (1 - (0.8 : ℝ) ^ 2)) 0 * a := by
    simp [FinP.subLaw, slenderFin, hs1]
  have y1p : slenderFin.subLaw (0.8 + 0.001) s1 a = cnAlpha 0.1 2 (Real.sqrt (1 - (0.8 + 0.001 : ℝ) ^ 2)) 0 * a := by
    simp [FinP.subLaw, slenderFin, hs1]
  have y2 : slenderFin.supLaw 1.4 s1 a = a * ((busemann 1.4 (Real.sqrt ((1.4 : ℝ) ^ 2 - 1))).1 +
      (busemann 1.4 (Real.sqrt ((1.4 : ℝ) ^ 2 - 1))).2.2 * a ^ 2) := by
    unfold FinP.supLaw
    rw [c1]
    have : s1.area = 1 := rfl
    rw [this]; norm_num; ring
  have y2p : slenderFin.supLaw (1.4 + 0.001) s1 a = 2 * a * ((busemann (1.4 + 0.001) (Real.sqrt ((1.4 + 0.001 : ℝ) ^ 2 - 1))).1 +
      (busemann (1.4 + 0.001) (Real.sqrt ((1.4 + 0.001 : ℝ) ^ 2 - 1))).2.2 * a ^ 2) := by
    unfold FinP.supLaw
    rw [c2]
    have : s1.area = 1 := rfl
    rw [this]; ring
  rw [y1, y1p, y2, y2p]
  set K := (busemann 1.4 (Real.sqrt ((1.4 : ℝ) ^ 2 - 1))).1
  set J := (busemann 1.4 (Real.sqrt ((1.4 : ℝ) ^ 2 - 1))).2.2
  set K' := (busemann (1.4 + 0.001) (Real.sqrt ((1.4 + 0.001 : ℝ) ^ 2 - 1))).1
  set J' := (busemann (1.4 + 0.001) (Real.sqrt ((1.4 + 0.001 : ℝ) ^ 2 - 1))).2.2
  set n := cnAlpha 0.1 2 (Real.sqrt (1 - (0.8 : ℝ) ^ 2)) 0
  set n' := cnAlpha 0.1 2 (Real.sqrt (1 - (0.8 + 0.001 : ℝ) ^ 2)) 0
  have r1 : s1.radius = 1 := rfl
  rw [r1]
  have fb : finBlend 1.2 (n * a) (a * (K + J * a ^ 2)) (n' * a) (2 * a * (K' + J' * a ^ 2)) =
      a * ((7 * n + 20 * (K + J * a ^ 2) + 1200 * (n' - n) - 2400 * (2 * (K' + J' * a ^ 2) - (K + J * a ^ 2))) / 27) := by
    unfold finBlend; norm_num; ring
  rw [fb]
  have ja : 0 ≤ J * a ^ 2 := by positivity
  have ja' : 0.95 * (J * a ^ 2) ≤ J' * a ^ 2 := by
    have := mul_le_mul_of_nonneg_right k3 (sq_nonneg a)
    linarith
  have neg : (7 * n + 20 * (K + J * a ^ 2) + 1200 * (n' - n) - 2400 * (2 * (K' + J' * a ^ 2) - (K + J * a ^ 2))) / 27 < 0 := by
    apply div_neg_of_neg_of_pos _ (by norm_num)
    linarith
  have := mul_neg_of_pos_of_neg hpos neg
  linarith

end Mapleaf.Rocket
