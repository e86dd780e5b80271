import Verif.Rocket.CantProps
import Verif.Motion.StateProps
import Mathlib.Analysis.Real.Pi.Bounds

/-!
# C109: a whole set of canted fins, and the spin it gives the rocket
-/

namespace Mapleaf.Rocket
open Mapleaf.Motion V3

/-- the rolling moment of a set is the sum over its fins; there is no interference factor on it -/
theorem finSet_roll (position : V3 ℝ) (hx : position.x = 0) (hy : position.y = 0) (k : ℝ) (fins : List (FMS ℝ)) (z : ℝ) :
    ((finSetForce position k fins).momentAbout ⟨0, 0, z⟩).z = (fins.map fun f => (f.momentAbout ⟨0, 0, z⟩).z).sum := by
  obtain ⟨h1, h2, h3⟩ := finSet_sum position k fins
  have hz : ((finSetForce position k fins).momentAbout ⟨0, 0, z⟩).z = ((finSetForce position k fins).momentAbout position).z := by
    simp only [FMS.momentAbout, add_z, cross, sub_x, sub_y, h1, hx, hy]
  rw [hz, h3]
  refine congrArg List.sum ?_
  apply List.map_congr_left
  intro f _
  simp only [FMS.momentAbout, add_z, cross, sub_x, sub_y, hx, hy]

/-- fins of the same shape in the directions `dirs`, in axial flow at forward speed `V` -/
def FinsAt (p : FinP) (dirs : List (V3 ℝ)) (mach q aref V w delta cpx cd : ℝ) (fins : List (FMS ℝ)) : Prop :=
  dirs.map (fun s => (p.turned s).force mach q aref ⟨0, 0, -V⟩ w delta cpx cd) = fins.map .ok

theorem finsAt_mem {p : FinP} {dirs : List (V3 ℝ)} {mach q aref V w delta cpx cd : ℝ} {fins : List (FMS ℝ)}
    (hf : FinsAt p dirs mach q aref V w delta cpx cd fins) :
    fins.length = dirs.length ∧ ∀ f ∈ fins, ∃ s ∈ dirs, (p.turned s).force mach q aref ⟨0, 0, -V⟩ w delta cpx cd = .ok f := by
  unfold FinsAt at hf
  constructor
  · have := congrArg List.length hf; simpa using this.symm
  · intro f hm
    have : (Except.ok f : Except PyErr (FMS ℝ)) ∈ fins.map .ok := List.mem_map_of_mem hm
    rw [← hf] at this
    obtain ⟨s, hs, e⟩ := List.mem_map.1 this
    exact ⟨s, hs, e⟩

/-- the fins never fail at a Mach number that is not negative -/
theorem finsAt_exists (p : FinP) (h : p.Ok) (dirs : List (V3 ℝ)) (hd : ∀ s ∈ dirs, s.z = 0 ∧ s.x ^ 2 + s.y ^ 2 = 1)
    (mach q aref V w delta cpx cd : ℝ) (hm0 : 0 ≤ mach) : ∃ fins, FinsAt p dirs mach q aref V w delta cpx cd fins := by
  obtain ⟨A, B, m, hf⟩ := FinP.turned_force p h mach q aref (-V) w delta cpx cd hm0
  refine ⟨dirs.map fun s => ⟨⟨A * s.y, -(A * s.x), B⟩, ⟨p.cpRadius * s.x, p.cpRadius * s.y, p.position.z - cpx⟩, ⟨0, 0, m⟩⟩, ?_⟩
  unfold FinsAt
  rw [List.map_map]
  exact List.map_congr_left fun s hs => hf s (hd s hs).1 (hd s hs).2

theorem cos_cant_pos (delta : ℝ) (h1 : -90 < delta) (h2 : delta < 90) : 0 < Real.cos (delta * Real.pi / 180) := by
  have := Real.pi_pos
  apply Real.cos_pos_of_mem_Ioo
  constructor
  · have := mul_lt_mul_of_pos_right h1 this; linarith
  · have := mul_lt_mul_of_pos_right h2 this; linarith

/-- **C109.** The rolling moment of a set of canted fins in forward flight. A slice at `radius` runs free of the air at the roll rate
`-(V / radius) * tan delta`. While no slice turns faster than that in the negative sense the set pushes in the negative sense, while no slice
turns slower it pushes in the positive sense: so there is no equilibrium outside. Drag along the canted chord only ever slows the spin. -/
theorem cant_set_partial (p : FinP) (h : p.Ok) (dirs : List (V3 ℝ)) (hd : ∀ s ∈ dirs, s.z = 0 ∧ s.x ^ 2 + s.y ^ 2 = 1)
    (mach q aref V w delta cpx cd k : ℝ) (hm0 : 0 ≤ mach)
    (hm : mach ≤ 0.8 ∨ 1.4 ≤ mach ∨ ∀ s ∈ p.slices, |p.outer - s.radius| ≤ 3 * s.len) (hq : 0 ≤ q) (hV : 0.1 ≤ V)
    (h1 : -90 < delta) (h2 : delta < 90) (hr : ∀ s ∈ p.slices, (1 - Real.cos (delta * Real.pi / 180)) * p.cpRadius < s.radius)
    (ha : 0 ≤ aref) (hcd : 0 ≤ cd)
    (fins : List (FMS ℝ)) (hf : FinsAt p dirs mach q aref V w delta cpx cd fins) (z : ℝ) :
    ((∀ s ∈ p.slices, -(V * Real.tan (delta * Real.pi / 180)) ≤ s.radius * w) → cd = 0 ∨ delta ≤ 0 →
      ((finSetForce p.position k fins).momentAbout ⟨0, 0, z⟩).z ≤ 0 ∧
      (0 < q → dirs ≠ [] → (∃ s ∈ p.slices, 0 < s.area ∧ -(V * Real.tan (delta * Real.pi / 180)) < s.radius * w) →
        ((finSetForce p.position k fins).momentAbout ⟨0, 0, z⟩).z < 0)) ∧
    ((∀ s ∈ p.slices, s.radius * w ≤ -(V * Real.tan (delta * Real.pi / 180))) → cd = 0 ∨ 0 ≤ delta →
      0 ≤ ((finSetForce p.position k fins).momentAbout ⟨0, 0, z⟩).z ∧
      (0 < q → dirs ≠ [] → (∃ s ∈ p.slices, 0 < s.area ∧ s.radius * w < -(V * Real.tan (delta * Real.pi / 180))) →
        0 < ((finSetForce p.position k fins).momentAbout ⟨0, 0, z⟩).z)) := by
  have hc := cos_cant_pos delta h1 h2
  obtain ⟨hlen, hmem⟩ := finsAt_mem hf
  have hpi := Real.pi_pos
  rw [finSet_roll p.position h.px h.py]
  have ht : Real.tan (delta * Real.pi / 180) * Real.cos (delta * Real.pi / 180) = Real.sin (delta * Real.pi / 180) :=
    Real.tan_mul_cos hc.ne'
  have hdrag0 : ∀ a : ℝ, 0 < a → cd = 0 ∨ delta ≤ 0 → q * (Real.sin (delta * Real.pi / 180) * p.cpRadius * (a * cd * aref)) ≤ 0 := by
    rintro a ha0 (e | e)
    · rw [e]; simp
    · have hs : Real.sin (delta * Real.pi / 180) ≤ 0 := by
        apply Real.sin_nonpos_of_nonpos_of_neg_pi_le
        · have := mul_le_mul_of_nonneg_right e hpi.le; linarith
        · have := mul_lt_mul_of_pos_right h1 hpi; linarith
      have := h.cp
      exact mul_nonpos_of_nonneg_of_nonpos hq (mul_nonpos_of_nonpos_of_nonneg (mul_nonpos_of_nonpos_of_nonneg hs h.cp) (by positivity))
  have hdrag1 : ∀ a : ℝ, 0 < a → cd = 0 ∨ 0 ≤ delta → 0 ≤ q * (Real.sin (delta * Real.pi / 180) * p.cpRadius * (a * cd * aref)) := by
    rintro a ha0 (e | e)
    · rw [e]; simp
    · have hs : 0 ≤ Real.sin (delta * Real.pi / 180) := by
        apply Real.sin_nonneg_of_nonneg_of_le_pi
        · positivity
        · have := mul_lt_mul_of_pos_right h2 hpi; linarith
      have := h.cp
      positivity
  have fast : ∀ r : ℝ, 0.1 ≤ Real.sqrt ((r * w) ^ 2 + (-V) ^ 2) := by
    intro r
    apply Real.le_sqrt_of_sq_le
    nlinarith [sq_nonneg (r * w)]
  have push := fun (f : FMS ℝ) (s : V3 ℝ) (hs : s ∈ dirs) (e : (p.turned s).force mach q aref ⟨0, 0, -V⟩ w delta cpx cd = .ok f) =>
    FinP.cant_push_partial (p.turned s) (FinP.turned_ok p h s (hd s hs).1 (hd s hs).2) mach q aref (-V) w delta cpx cd hm0 hm hq
      (fun s hs => (hr s hs).le) f e z
  have up : ∀ r : ℝ, Real.cos (delta * Real.pi / 180) * (r * w) - Real.sin (delta * Real.pi / 180) * -V =
      Real.cos (delta * Real.pi / 180) * (r * w - -(V * Real.tan (delta * Real.pi / 180))) := by
    intro r; rw [← ht]; ring
  constructor
  · intro hx hcase
    have le : ∀ f ∈ fins, (f.momentAbout ⟨0, 0, z⟩).z ≤ 0 := by
      intro f hfm
      obtain ⟨s0, hs0, e0⟩ := hmem f hfm
      obtain ⟨a, ha0, hA, -⟩ := push f s0 hs0 e0
      refine (hA fun s hs => ?_).1.trans (hdrag0 a ha0 hcase)
      rw [up]; exact mul_nonneg hc.le (by have := hx s hs; linarith)
    refine ⟨by simpa using sum_map_le fins _ (fun _ => 0) le, ?_⟩
    rintro hq0 hne ⟨s, hs, har, hlt⟩
    have hfne : fins ≠ [] := by rintro rfl; exact hne (List.length_eq_zero_iff.1 hlen.symm)
    obtain ⟨f, hfm⟩ := List.exists_mem_of_ne_nil fins hfne
    obtain ⟨s0, hs0, e0⟩ := hmem f hfm
    obtain ⟨a, ha0, hA, -⟩ := push f s0 hs0 e0
    have hlt1 : (f.momentAbout ⟨0, 0, z⟩).z < 0 := by
      refine ((hA fun s hs => ?_).2 hq0 ⟨s, hs, har, hr s hs, ?_, fast _⟩).trans_le (hdrag0 a ha0 hcase)
      · rw [up]; exact mul_nonneg hc.le (by have := hx s hs; linarith)
      · rw [up]; exact mul_pos hc (by linarith)
    simpa using sum_map_lt fins _ (fun _ => 0) le f hfm hlt1
  · intro hx hcase
    have le : ∀ f ∈ fins, 0 ≤ (f.momentAbout ⟨0, 0, z⟩).z := by
      intro f hfm
      obtain ⟨s0, hs0, e0⟩ := hmem f hfm
      obtain ⟨a, ha0, -, hA⟩ := push f s0 hs0 e0
      refine (hdrag1 a ha0 hcase).trans (hA fun s hs => ?_).1
      rw [up]; exact mul_nonpos_of_nonneg_of_nonpos hc.le (by have := hx s hs; linarith)
    refine ⟨by simpa using sum_map_le fins (fun _ => 0) _ le, ?_⟩
    rintro hq0 hne ⟨s, hs, har, hlt⟩
    have hfne : fins ≠ [] := by rintro rfl; exact hne (List.length_eq_zero_iff.1 hlen.symm)
    obtain ⟨f, hfm⟩ := List.exists_mem_of_ne_nil fins hfne
    obtain ⟨s0, hs0, e0⟩ := hmem f hfm
    obtain ⟨a, ha0, -, hA⟩ := push f s0 hs0 e0
    have hlt1 : 0 < (f.momentAbout ⟨0, 0, z⟩).z := by
      refine (hdrag1 a ha0 hcase).trans_lt ((hA fun s hs => ?_).2 hq0 ⟨s, hs, har, hr s hs, ?_, fast _⟩)
      · rw [up]; exact mul_nonpos_of_nonneg_of_nonpos hc.le (by have := hx s hs; linarith)
      · rw [up]; exact mul_neg_of_pos_of_neg hc (by linarith)
    simpa using sum_map_lt fins (fun _ => 0) _ le f hfm hlt1

/-- **C109.** A rocket that does not roll: every slice of every fin meets the air at the cant angle. The set's rolling moment has the sign
the template promises, negative for a positive cant, exactly if the lift's moment exceeds that of the drag along the chord. -/
theorem cant_start (p : FinP) (h : p.Ok) (dirs : List (V3 ℝ)) (hd : ∀ s ∈ dirs, s.z = 0 ∧ s.x ^ 2 + s.y ^ 2 = 1) (hne : dirs ≠ [])
    (mach q aref V delta cpx cd k : ℝ) (hm0 : 0 ≤ mach) (hq : 0 < q) (hV : 0.1 ≤ V) (h1 : -90 ≤ delta) (h2 : delta ≤ 89.999)
    (fins : List (FMS ℝ)) (hf : FinsAt p dirs mach q aref V 0 delta cpx cd fins) (z : ℝ) :
    ((finSetForce p.position k fins).momentAbout ⟨0, 0, z⟩).z = dirs.length * (q *
      (Real.sin (delta * Real.pi / 180) * p.cpRadius * (dragToAxial (delta * Real.pi / 180) * cd * aref) -
       (p.slices.map fun s => p.law mach s (delta * Real.pi / 180) *
          (s.radius - (1 - Real.cos (delta * Real.pi / 180)) * p.cpRadius)).sum)) ∧
    (((finSetForce p.position k fins).momentAbout ⟨0, 0, z⟩).z < 0 ↔
      Real.sin (delta * Real.pi / 180) * p.cpRadius * (dragToAxial (delta * Real.pi / 180) * cd * aref) <
        (p.slices.map fun s => p.law mach s (delta * Real.pi / 180) *
          (s.radius - (1 - Real.cos (delta * Real.pi / 180)) * p.cpRadius)).sum) := by
  obtain ⟨hlen, hmem⟩ := finsAt_mem hf
  have hpi := Real.pi_pos
  have hs : Real.sin (delta * Real.pi / 180) ≤ 1 - 1e-14 := by
    have hmono : Real.sin (delta * Real.pi / 180) ≤ Real.sin (89.999 * Real.pi / 180) := by
      apply Real.sin_le_sin_of_le_of_le_pi_div_two
      · have := mul_le_mul_of_nonneg_right h1 hpi.le; linarith
      · norm_num; linarith
      · have := mul_le_mul_of_nonneg_right h2 hpi.le; linarith
    refine hmono.trans ?_
    have e : (89.999 : ℝ) * Real.pi / 180 = Real.pi / 2 - Real.pi / 180000 := by ring
    rw [e, Real.sin_pi_div_two_sub]
    have hx1 : Real.pi / 180000 ≤ 1 := by have := Real.pi_le_four; linarith
    have hx0 : 0 ≤ Real.pi / 180000 := by positivity
    have hb := Real.cos_bound (x := Real.pi / 180000) (by rw [abs_of_nonneg hx0]; exact hx1)
    rw [abs_le] at hb
    have hb2 := hb.2
    rw [abs_of_nonneg hx0] at hb2
    have h3 : 1 / 60001 ≤ Real.pi / 180000 := by have := Real.pi_gt_three; rw [div_le_div_iff₀ (by norm_num) (by norm_num)]; linarith
    have h4 : Real.pi / 180000 ≤ 1 / 45000 := by have := Real.pi_le_four; linarith
    have h5 : (Real.pi / 180000) ^ 4 ≤ (1 / 45000) ^ 4 := by gcongr
    have h6 : (1 / 60001 : ℝ) ^ 2 ≤ (Real.pi / 180000) ^ 2 := by gcongr
    norm_num at h5 h6 ⊢
    linarith
  have ang : ∀ r : ℝ, rawAOA (Real.cos (delta * Real.pi / 180) * (r * 0) - Real.sin (delta * Real.pi / 180) * -V)
      (Real.sqrt ((r * 0) ^ 2 + (-V) ^ 2)) = delta * Real.pi / 180 := by
    intro r
    rw [FinP.cant_aoa r V 0 delta hV (by simpa using h1) (by simp; norm_num at h2; linarith) (by simpa using hs)]
    simp
  have each : ∀ f ∈ fins, (f.momentAbout ⟨0, 0, z⟩).z = q *
      (Real.sin (delta * Real.pi / 180) * p.cpRadius * (dragToAxial (delta * Real.pi / 180) * cd * aref) -
       (p.slices.map fun s => p.law mach s (delta * Real.pi / 180) *
          (s.radius - (1 - Real.cos (delta * Real.pi / 180)) * p.cpRadius)).sum) := by
    intro f hfm
    obtain ⟨s, hs, e⟩ := hmem f hfm
    obtain ⟨mid, -, em⟩ := FinP.cant_moment (p.turned s) (FinP.turned_ok p h s (hd s hs).1 (hd s hs).2) mach q aref (-V) 0 delta cpx cd hm0 f e z
    rw [em]
    simp only [ang]
    rw [← mul_sub]
    rfl
  have tot : ((finSetForce p.position k fins).momentAbout ⟨0, 0, z⟩).z = dirs.length * (q *
      (Real.sin (delta * Real.pi / 180) * p.cpRadius * (dragToAxial (delta * Real.pi / 180) * cd * aref) -
       (p.slices.map fun s => p.law mach s (delta * Real.pi / 180) *
          (s.radius - (1 - Real.cos (delta * Real.pi / 180)) * p.cpRadius)).sum)) := by
    rw [finSet_roll p.position h.px h.py, List.map_congr_left each, List.map_const', List.sum_replicate, nsmul_eq_mul, hlen]
  refine ⟨tot, ?_⟩
  rw [tot]
  have hn : (0 : ℝ) < dirs.length := by exact_mod_cast List.length_pos_of_ne_nil hne
  rw [← sub_neg (b := (List.sum _))]
  constructor
  · intro hlt
    by_contra hcon
    have : 0 ≤ (dirs.length : ℝ) * (q * _) := mul_nonneg hn.le (mul_nonneg hq.le (not_lt.1 hcon))
    linarith
  · intro hlt
    exact mul_neg_of_pos_of_neg hn (mul_neg_of_pos_of_neg hq hlt)

/-- **C109.** What the template says of `finCantAngle`: with negligible drag along the chord, a positive cant sets a rocket that does not roll
spinning in the negative sense and a negative cant in the positive sense. -/
theorem cant_template_partial (p : FinP) (h : p.Ok) (dirs : List (V3 ℝ)) (hd : ∀ s ∈ dirs, s.z = 0 ∧ s.x ^ 2 + s.y ^ 2 = 1) (hne : dirs ≠ [])
    (mach q aref V delta cpx k : ℝ) (hm0 : 0 ≤ mach)
    (hm : mach ≤ 0.8 ∨ 1.4 ≤ mach ∨ ∀ s ∈ p.slices, |p.outer - s.radius| ≤ 3 * s.len) (hq : 0 < q) (hV : 0.1 ≤ V)
    (h1 : -90 < delta) (h2 : delta < 90) (hr : ∀ s ∈ p.slices, (1 - Real.cos (delta * Real.pi / 180)) * p.cpRadius < s.radius)
    (har : ∃ s ∈ p.slices, 0 < s.area) (ha : 0 ≤ aref)
    (fins : List (FMS ℝ)) (hf : FinsAt p dirs mach q aref V 0 delta cpx 0 fins) (z : ℝ) :
    (0 < delta → ((finSetForce p.position k fins).momentAbout ⟨0, 0, z⟩).z < 0) ∧
    (delta < 0 → 0 < ((finSetForce p.position k fins).momentAbout ⟨0, 0, z⟩).z) := by
  obtain ⟨hA, hB⟩ := cant_set_partial p h dirs hd mach q aref V 0 delta cpx 0 k hm0 hm hq.le hV h1 h2 hr ha le_rfl fins hf z
  have hpi := Real.pi_pos
  have hV0 : 0 < V := by linarith
  obtain ⟨s, hs, hs0⟩ := har
  constructor
  · intro h0
    have ht : 0 < Real.tan (delta * Real.pi / 180) := by
      apply Real.tan_pos_of_pos_of_lt_pi_div_two
      · positivity
      · have := mul_lt_mul_of_pos_right h2 hpi; linarith
    have hVt := mul_pos hV0 ht
    exact (hA (fun s _ => by rw [mul_zero]; linarith) (Or.inl rfl)).2 hq hne ⟨s, hs, hs0, by rw [mul_zero]; linarith⟩
  · intro h0
    have ht : Real.tan (delta * Real.pi / 180) < 0 := by
      apply Real.tan_neg_of_neg_of_pi_div_two_lt
      · have := mul_neg_of_neg_of_pos h0 hpi; linarith
      · have := mul_lt_mul_of_pos_right h1 hpi; linarith
    have hVt := mul_neg_of_pos_of_neg hV0 ht
    exact (hB (fun s _ => by rw [mul_zero]; linarith) (Or.inl rfl)).2 hq hne ⟨s, hs, hs0, by rw [mul_zero]; linarith⟩

/-- a quantity that does not fall while it is below a level stays above it -/
theorem stays_above (w w' : ℝ → ℝ) (W : ℝ) (hd : ∀ t, 0 ≤ t → HasDerivAt w (w' t) t) (hp : ∀ t, 0 ≤ t → w t < W → 0 ≤ w' t)
    (h0 : W ≤ w 0) : ∀ t, 0 ≤ t → W ≤ w t := by
  intro t1 ht1
  by_contra hlt
  have hlt := not_le.1 hlt
  set S := {t | t ∈ Set.Icc 0 t1 ∧ W ≤ w t} with hS
  have hcont : ContinuousOn w (Set.Icc 0 t1) := fun t ht => (hd t ht.1).continuousAt.continuousWithinAt
  have hclosed : IsClosed S := hcont.preimage_isClosed_of_isClosed isClosed_Icc (isClosed_Ici (a := W))
  have hne : S.Nonempty := ⟨0, ⟨le_rfl, ht1⟩, h0⟩
  have hbdd : BddAbove S := ⟨t1, fun t ht => ht.1.2⟩
  obtain ⟨⟨hs0, hs1⟩, hsW⟩ := hclosed.csSup_mem hne hbdd
  set s := sSup S with hs
  have hmono : MonotoneOn w (Set.Icc s t1) := by
    apply monotoneOn_of_deriv_nonneg (convex_Icc s t1)
    · exact hcont.mono (Set.Icc_subset_Icc_left hs0)
    · intro t ht
      rw [interior_Icc] at ht
      exact (hd t (hs0.trans ht.1.le)).differentiableAt.differentiableWithinAt
    · intro t ht
      rw [interior_Icc] at ht
      rw [(hd t (hs0.trans ht.1.le)).deriv]
      apply hp t (hs0.trans ht.1.le)
      by_contra hcon
      have := le_csSup hbdd (show t ∈ S from ⟨⟨hs0.trans ht.1.le, ht.2.le⟩, not_lt.1 hcon⟩)
      exact absurd ht.1 (not_lt.2 this)
  have := hmono ⟨le_rfl, hs1⟩ ⟨hs1, le_rfl⟩ hs1
  linarith

theorem stays_below (w w' : ℝ → ℝ) (W : ℝ) (hd : ∀ t, 0 ≤ t → HasDerivAt w (w' t) t) (hp : ∀ t, 0 ≤ t → W < w t → w' t ≤ 0)
    (h0 : w 0 ≤ W) : ∀ t, 0 ≤ t → w t ≤ W := by
  intro t ht
  have := stays_above (fun t => -w t) (fun t => -w' t) (-W) (fun t ht => (hd t ht).neg) (fun t ht h => by
    have := hp t ht (by linarith); linarith) (by simpa using h0) t ht
  simpa using this

/-- a rocket flying straight ahead through still air with fins canted by `delta`: forward speed `V`, roll rate `w`, dynamic pressure `q` -/
structure Spin (p : FinP) (dirs : List (V3 ℝ)) (aref delta : ℝ) (V w q cd : ℝ → ℝ) where
  mach : ℝ → ℝ
  cpx : ℝ → ℝ
  k : ℝ → ℝ
  cg : ℝ → ℝ
  fins : ℝ → List (FMS ℝ)
  state : ℝ → RBState
  deriv : ℝ → RBDeriv
  force : ℝ → V3 ℝ
  i1 : ℝ → MassProps
  i2 : ℝ → MassProps
  mach_pos : ∀ t, 0 ≤ t → 0 ≤ mach t
  regime : ∀ t, 0 ≤ t → mach t ≤ 0.8 ∨ 1.4 ≤ mach t ∨ ∀ s ∈ p.slices, |p.outer - s.radius| ≤ 3 * s.len
  q_pos : ∀ t, 0 ≤ t → 0 ≤ q t
  V_pos : ∀ t, 0 ≤ t → 0.1 ≤ V t
  cd_pos : ∀ t, 0 ≤ t → 0 ≤ cd t
  flow : ∀ t, 0 ≤ t → FinsAt p dirs (mach t) (q t) aref (V t) (w t) delta (cpx t) (cd t) (fins t)
  rate : ∀ t, 0 ≤ t → (state t).angVel = ⟨0, 0, w t⟩
  inertia : ∀ t, 0 ≤ t → 0 < (i1 t).moi.z
  /-- the fins are all that turns the rocket: RigidBodies.py:88-115 -/
  motion : ∀ t, 0 ≤ t → rigidBodyDerivative (state t) (force t) ((finSetForce p.position (k t) (fins t)).momentAbout ⟨0, 0, cg t⟩) (i1 t) (i2 t) =
    .ok (deriv t)
  solves : ∀ t, 0 ≤ t → HasDerivAt w (deriv t).angAcc.z t

theorem rigid_roll (s : RBState) (w : ℝ) (F M : V3 ℝ) (I1 I2 : MassProps) (d : RBDeriv) (hw : s.angVel = ⟨0, 0, w⟩)
    (hd : rigidBodyDerivative s F M I1 I2 = .ok d) : d.angAcc.z = M.z / I1.moi.z := by
  unfold rigidBodyDerivative at hd
  split at hd
  · cases hd
  split at hd
  · cases hd
  split at hd
  · cases hd
  split at hd
  · cases hd
  split at hd
  · cases hd
  obtain rfl := Except.ok.inj hd
  simp [hw]

/-- **C109.** The spin of a straight flight. With a positive cant the roll rate, started there, never falls below `-(Vmax / r) * tan delta`, `r`
the radius of the innermost slice, drag or no drag; without drag it never turns positive, and while it is above `-(V / r') * tan delta`, `r'` the
radius of the outermost slice, it falls. A negative cant is the mirror image. -/
theorem cant_spin_partial (p : FinP) (h : p.Ok) (dirs : List (V3 ℝ)) (hd : ∀ s ∈ dirs, s.z = 0 ∧ s.x ^ 2 + s.y ^ 2 = 1)
    (aref delta : ℝ) (V w q cd : ℝ → ℝ) (m : Spin p dirs aref delta V w q cd) (ha : 0 ≤ aref) (h1 : -90 < delta) (h2 : delta < 90)
    (hr : ∀ s ∈ p.slices, (1 - Real.cos (delta * Real.pi / 180)) * p.cpRadius < s.radius)
    (r r' Vmax : ℝ) (hr0 : 0 < r) (hin : ∀ s ∈ p.slices, r ≤ s.radius) (hout : ∀ s ∈ p.slices, s.radius ≤ r')
    (hV : ∀ t, 0 ≤ t → V t ≤ Vmax) :
    (0 ≤ delta →
      (-(Vmax / r * Real.tan (delta * Real.pi / 180)) ≤ w 0 → ∀ t, 0 ≤ t → -(Vmax / r * Real.tan (delta * Real.pi / 180)) ≤ w t) ∧
      ((∀ t, 0 ≤ t → cd t = 0) → (w 0 ≤ 0 → ∀ t, 0 ≤ t → w t ≤ 0) ∧
        ∀ t, 0 ≤ t → -(V t / r' * Real.tan (delta * Real.pi / 180)) < w t → (m.deriv t).angAcc.z ≤ 0 ∧
          (0 < q t → dirs ≠ [] → (∃ s ∈ p.slices, 0 < s.area) → (m.deriv t).angAcc.z < 0))) ∧
    (delta ≤ 0 →
      (w 0 ≤ -(Vmax / r * Real.tan (delta * Real.pi / 180)) → ∀ t, 0 ≤ t → w t ≤ -(Vmax / r * Real.tan (delta * Real.pi / 180))) ∧
      ((∀ t, 0 ≤ t → cd t = 0) → (0 ≤ w 0 → ∀ t, 0 ≤ t → 0 ≤ w t) ∧
        ∀ t, 0 ≤ t → w t < -(V t / r' * Real.tan (delta * Real.pi / 180)) → 0 ≤ (m.deriv t).angAcc.z ∧
          (0 < q t → dirs ≠ [] → (∃ s ∈ p.slices, 0 < s.area) → 0 < (m.deriv t).angAcc.z))) := by
  have hpi := Real.pi_pos
  have set := fun t ht => cant_set_partial p h dirs hd (m.mach t) (q t) aref (V t) (w t) delta (m.cpx t) (cd t) (m.k t) (m.mach_pos t ht)
    (m.regime t ht) (m.q_pos t ht) (m.V_pos t ht) h1 h2 hr ha (m.cd_pos t ht) (m.fins t) (m.flow t ht) (m.cg t)
  have acc := fun t ht => rigid_roll _ _ _ _ _ _ _ (m.rate t ht) (m.motion t ht)
  obtain ⟨s0, hs0⟩ := List.exists_mem_of_ne_nil p.slices h.slices
  have hr' : 0 < r' := lt_of_lt_of_le hr0 ((hin s0 hs0).trans (hout s0 hs0))
  set T := Real.tan (delta * Real.pi / 180) with hT
  constructor
  · intro hdel
    have hT0 : 0 ≤ T := by
      apply Real.tan_nonneg_of_nonneg_of_le_pi_div_two
      · positivity
      · have := mul_lt_mul_of_pos_right h2 hpi; linarith
    have hVm : 0 ≤ Vmax := by have := hV 0 le_rfl; have := m.V_pos 0 le_rfl; linarith
    refine ⟨?_, fun hcd => ⟨?_, ?_⟩⟩
    · intro h0
      refine stays_above w _ _ m.solves (fun t ht hlt => ?_) h0
      rw [acc t ht]
      refine div_nonneg ((set t ht).2 (fun s hs => ?_) (Or.inr hdel)).1 (m.inertia t ht).le
      have e1 : r * w t < -(Vmax * T) := by
        have := mul_lt_mul_of_pos_left hlt hr0
        have e : r * -(Vmax / r * T) = -(Vmax * T) := by field_simp
        rw [e] at this; exact this
      have e2 : V t * T ≤ Vmax * T := mul_le_mul_of_nonneg_right (hV t ht) hT0
      have hw : w t ≤ 0 := by
        have : 0 ≤ Vmax / r * T := by positivity
        linarith
      have e3 : s.radius * w t ≤ r * w t := mul_le_mul_of_nonpos_right (hin s hs) hw
      linarith
    · intro h0
      refine stays_below w _ 0 m.solves (fun t ht hlt => ?_) h0
      rw [acc t ht]
      refine div_nonpos_of_nonpos_of_nonneg ((set t ht).1 (fun s hs => ?_) (Or.inl (hcd t ht))).1 (m.inertia t ht).le
      have : 0 ≤ s.radius * w t := mul_nonneg (hr0.le.trans (hin s hs)) hlt.le
      have := m.V_pos t ht
      have : 0 ≤ V t * T := mul_nonneg (by linarith) hT0
      linarith
    · intro t ht hlt
      have hVt := m.V_pos t ht
      have hVT : 0 ≤ V t * T := mul_nonneg (by linarith) hT0
      have e1 : -(V t * T) < r' * w t := by
        have := mul_lt_mul_of_pos_left hlt hr'
        have e : r' * -(V t / r' * T) = -(V t * T) := by field_simp
        rw [e] at this; exact this
      have key : ∀ s ∈ p.slices, -(V t * T) ≤ s.radius * w t ∧ (-(V t * T) < s.radius * w t ∨ V t * T = 0 ∧ 0 ≤ w t) := by
        intro s hs
        have hsr : 0 < s.radius := lt_of_lt_of_le hr0 (hin s hs)
        rcases lt_or_ge (w t) 0 with hw | hw
        · have := mul_le_mul_of_nonpos_right (hout s hs) hw.le
          exact ⟨by linarith, Or.inl (by linarith)⟩
        · have := mul_nonneg hsr.le hw
          refine ⟨by linarith, ?_⟩
          rcases hVT.eq_or_lt with h0 | h0
          · exact Or.inr ⟨h0.symm, hw⟩
          · exact Or.inl (by linarith)
      obtain ⟨hA, hB⟩ := (set t ht).1 (fun s hs => (key s hs).1) (Or.inl (hcd t ht))
      rw [acc t ht]
      refine ⟨div_nonpos_of_nonpos_of_nonneg hA (m.inertia t ht).le, fun hq hne ⟨s, hs, har⟩ => ?_⟩
      refine div_neg_of_neg_of_pos (hB hq hne ⟨s, hs, har, ?_⟩) (m.inertia t ht)
      rcases (key s hs).2 with h3 | ⟨h3, h4⟩
      · exact h3
      · rw [h3] at e1 ⊢
        have : 0 < w t := by
          have : 0 < r' * w t := by linarith
          exact pos_of_mul_pos_right this hr'.le
        have := mul_pos (lt_of_lt_of_le hr0 (hin s hs)) this
        linarith
  · intro hdel
    have hT0 : T ≤ 0 := by
      apply Real.tan_nonpos_of_nonpos_of_neg_pi_div_two_le
      · have := mul_nonpos_of_nonpos_of_nonneg hdel hpi.le; linarith
      · have := mul_lt_mul_of_pos_right h1 hpi; linarith
    have hVm : 0 ≤ Vmax := by have := hV 0 le_rfl; have := m.V_pos 0 le_rfl; linarith
    refine ⟨?_, fun hcd => ⟨?_, ?_⟩⟩
    · intro h0
      refine stays_below w _ _ m.solves (fun t ht hlt => ?_) h0
      rw [acc t ht]
      refine div_nonpos_of_nonpos_of_nonneg ((set t ht).1 (fun s hs => ?_) (Or.inr hdel)).1 (m.inertia t ht).le
      have e1 : -(Vmax * T) < r * w t := by
        have := mul_lt_mul_of_pos_left hlt hr0
        have e : r * -(Vmax / r * T) = -(Vmax * T) := by field_simp
        rw [e] at this; exact this
      have e2 : Vmax * T ≤ V t * T := mul_le_mul_of_nonpos_right (hV t ht) hT0
      have hw : 0 ≤ w t := by
        have : Vmax / r * T ≤ 0 := mul_nonpos_of_nonneg_of_nonpos (by positivity) hT0
        linarith
      have e3 : r * w t ≤ s.radius * w t := mul_le_mul_of_nonneg_right (hin s hs) hw
      linarith
    · intro h0
      refine stays_above w _ 0 m.solves (fun t ht hlt => ?_) h0
      rw [acc t ht]
      refine div_nonneg ((set t ht).2 (fun s hs => ?_) (Or.inl (hcd t ht))).1 (m.inertia t ht).le
      have : s.radius * w t ≤ 0 := mul_nonpos_of_nonneg_of_nonpos (hr0.le.trans (hin s hs)) hlt.le
      have := m.V_pos t ht
      have : V t * T ≤ 0 := mul_nonpos_of_nonneg_of_nonpos (by linarith) hT0
      linarith
    · intro t ht hlt
      have hVt := m.V_pos t ht
      have hVT : V t * T ≤ 0 := mul_nonpos_of_nonneg_of_nonpos (by linarith) hT0
      have e1 : r' * w t < -(V t * T) := by
        have := mul_lt_mul_of_pos_left hlt hr'
        have e : r' * -(V t / r' * T) = -(V t * T) := by field_simp
        rw [e] at this; exact this
      have key : ∀ s ∈ p.slices, s.radius * w t ≤ -(V t * T) ∧ (s.radius * w t < -(V t * T) ∨ V t * T = 0 ∧ w t ≤ 0) := by
        intro s hs
        have hsr : 0 < s.radius := lt_of_lt_of_le hr0 (hin s hs)
        rcases lt_or_ge 0 (w t) with hw | hw
        · have := mul_le_mul_of_nonneg_right (hout s hs) hw.le
          exact ⟨by linarith, Or.inl (by linarith)⟩
        · have := mul_nonpos_of_nonneg_of_nonpos hsr.le hw
          refine ⟨by linarith, ?_⟩
          rcases hVT.eq_or_lt with h0 | h0
          · exact Or.inr ⟨h0, hw⟩
          · exact Or.inl (by linarith)
      obtain ⟨hA, hB⟩ := (set t ht).2 (fun s hs => (key s hs).1) (Or.inl (hcd t ht))
      rw [acc t ht]
      refine ⟨div_nonneg hA (m.inertia t ht).le, fun hq hne ⟨s, hs, har⟩ => ?_⟩
      refine div_pos (hB hq hne ⟨s, hs, har, ?_⟩) (m.inertia t ht)
      rcases (key s hs).2 with h3 | ⟨h3, h4⟩
      · exact h3
      · rw [h3] at e1 ⊢
        have : w t < 0 := by
          by_contra hcon
          have := mul_nonneg hr'.le (not_lt.1 hcon)
          linarith
        have := mul_neg_of_pos_of_neg (lt_of_lt_of_le hr0 (hin s hs)) this
        linarith

/-- **C109** violated for fins with enough drag: drag acts along the canted chord instead of along the flow, and a large enough drag coefficient
makes a positive cant spin the rocket in the positive sense. -/
theorem cant_drag_violated (p : FinP) (h : p.Ok) (hcp : 0 < p.cpRadius) (dirs : List (V3 ℝ)) (hd : ∀ s ∈ dirs, s.z = 0 ∧ s.x ^ 2 + s.y ^ 2 = 1)
    (hne : dirs ≠ []) (mach q aref V delta cpx k : ℝ) (hm0 : 0 ≤ mach) (hq : 0 < q) (ha : 0 < aref) (hV : 0.1 ≤ V) (h1 : 0 < delta)
    (h2 : delta ≤ 89.999) : ∃ cd0 : ℝ, ∀ cd, cd0 < cd → ∃ fins, FinsAt p dirs mach q aref V 0 delta cpx cd fins ∧
      ∀ z, 0 < ((finSetForce p.position k fins).momentAbout ⟨0, 0, z⟩).z := by
  have hpi := Real.pi_pos
  have hs : 0 < Real.sin (delta * Real.pi / 180) := by
    apply Real.sin_pos_of_pos_of_lt_pi
    · positivity
    · have := mul_le_mul_of_nonneg_right h2 hpi.le; norm_num at this; linarith
  have hD := (dragToAxial_range (delta * Real.pi / 180)).1
  set L := (p.slices.map fun s => p.law mach s (delta * Real.pi / 180) *
          (s.radius - (1 - Real.cos (delta * Real.pi / 180)) * p.cpRadius)).sum with hL
  set a := Real.sin (delta * Real.pi / 180) * p.cpRadius * (dragToAxial (delta * Real.pi / 180) * aref) with hadef
  have hapos : 0 < a := by positivity
  refine ⟨L / a, fun cd hcd => ?_⟩
  obtain ⟨fins, hfins⟩ := finsAt_exists p h dirs hd mach q aref V 0 delta cpx cd hm0
  refine ⟨fins, hfins, fun z => ?_⟩
  rw [(cant_start p h dirs hd hne mach q aref V delta cpx cd k hm0 hq hV (by linarith) h2 fins hfins z).1]
  have hn : (0 : ℝ) < dirs.length := by exact_mod_cast List.length_pos_of_ne_nil hne
  apply mul_pos hn (mul_pos hq _)
  rw [← hL]
  have e : Real.sin (delta * Real.pi / 180) * p.cpRadius * (dragToAxial (delta * Real.pi / 180) * cd * aref) = cd * a := by rw [hadef]; ring
  rw [e]
  rw [div_lt_iff₀ hapos] at hcd
  linarith

/-! ### A rocket in its steady spin -/

/-- a fin with a single slice one metre from the axis -/
noncomputable def canted : FinP where
  spanwise := ⟨1, 0, 0⟩
  slices := [⟨0.01, 1, 0, 0.1⟩]
  stall := 30
  span := 0.1
  planform := 0.01
  midSweep := 0
  tipPosition := 0
  cpRadius := 1
  position := ⟨0, 0, -1⟩

theorem canted_ok : canted.Ok where
  sz := rfl
  unit := by norm_num [canted]
  slices := by simp [canted]
  areas := by
    intro s hs
    simp only [canted, List.mem_cons, List.not_mem_nil, or_false] at hs
    subst hs; norm_num
  stall := by have := Real.pi_le_four; norm_num [canted]; linarith
  span := by norm_num [canted]
  planform := by norm_num [canted]
  cp := by norm_num [canted]
  px := rfl
  py := rfl

theorem canted_dirs : ∀ s ∈ [(⟨1, 0, 0⟩ : V3 ℝ), ⟨-1, 0, 0⟩], s.z = 0 ∧ s.x ^ 2 + s.y ^ 2 = 1 := by
  intro s hs
  simp only [List.mem_cons, List.not_mem_nil, or_false] at hs
  rcases hs with rfl | rfl <;> norm_num

theorem canted_lever : ∀ s ∈ canted.slices, (1 - Real.cos ((45 : ℝ) * Real.pi / 180)) * canted.cpRadius < s.radius := by
  intro s hs
  have hc := cos_cant_pos 45 (by norm_num) (by norm_num)
  simp only [canted, List.mem_cons, List.not_mem_nil, or_false] at hs
  subst hs
  simp only [canted]
  linarith

theorem tan_cant : Real.tan ((45 : ℝ) * Real.pi / 180) = 1 := by
  rw [show (45 : ℝ) * Real.pi / 180 = Real.pi / 4 by ring, Real.tan_pi_div_four]

/-- fins canted by 45 degrees at 100 m/s: a rate of -100 rad/s is steady -/
theorem steady_spin : ∃ _ : Spin canted [⟨1, 0, 0⟩, ⟨-1, 0, 0⟩] 0.01 45 (fun _ => 100) (fun _ => -100) (fun _ => 1000) (fun _ => 0), True := by
  obtain ⟨fins, hfins⟩ := finsAt_exists canted canted_ok _ canted_dirs 0.3 1000 0.01 100 (-100) 45 0.05 0 (by norm_num)
  obtain ⟨hA, hB⟩ := cant_set_partial canted canted_ok _ canted_dirs 0.3 1000 0.01 100 (-100) 45 0.05 0 1.1 (by norm_num) (by norm_num) (by norm_num)
    (by norm_num) (by norm_num) (by norm_num) canted_lever (by norm_num) le_rfl fins hfins 0
  have hz : ((finSetForce canted.position 1.1 fins).momentAbout ⟨0, 0, 0⟩).z = 0 := by
    apply le_antisymm
    · refine (hA (fun s hs => ?_) (Or.inl rfl)).1
      simp only [canted, List.mem_cons, List.not_mem_nil, or_false] at hs
      subst hs; rw [tan_cant]; norm_num
    · refine (hB (fun s hs => ?_) (Or.inl rfl)).1
      simp only [canted, List.mem_cons, List.not_mem_nil, or_false] at hs
      subst hs; rw [tan_cant]; norm_num
  obtain ⟨d, hd, -⟩ := newton_euler ⟨0, ⟨0, 0, 100⟩, ⟨1, 0, 0, 0⟩, ⟨0, 0, -100⟩⟩ 0 ((finSetForce canted.position 1.1 fins).momentAbout ⟨0, 0, 0⟩)
    ⟨10, ⟨1, 1, 0.1⟩, 0⟩ ⟨10, ⟨1, 1, 0.1⟩, 0⟩ (by simp [Quat.zeroQ]) (by norm_num) (by norm_num) (by norm_num) (by norm_num)
  have hacc := rigid_roll _ (-100) _ _ _ _ d rfl hd
  refine ⟨{ mach := fun _ => 0.3, cpx := fun _ => 0.05, k := fun _ => 1.1, cg := fun _ => 0, fins := fun _ => fins,
            state := fun _ => ⟨0, ⟨0, 0, 100⟩, ⟨1, 0, 0, 0⟩, ⟨0, 0, -100⟩⟩, deriv := fun _ => d, force := fun _ => 0,
            i1 := fun _ => ⟨10, ⟨1, 1, 0.1⟩, 0⟩, i2 := fun _ => ⟨10, ⟨1, 1, 0.1⟩, 0⟩
            mach_pos := fun _ _ => by norm_num
            regime := fun _ _ => Or.inl (by norm_num)
            q_pos := fun _ _ => by norm_num
            V_pos := fun _ _ => by norm_num
            cd_pos := fun _ _ => le_rfl
            flow := fun _ _ => hfins
            rate := fun _ _ => rfl
            inertia := fun _ _ => by norm_num
            motion := fun _ _ => hd
            solves := fun t _ => by rw [hacc, hz, zero_div]; exact hasDerivAt_const _ _ }, trivial⟩

/-- the hypotheses of `cant_spin_partial` hold of the steady spin -/
example (m : Spin canted [⟨1, 0, 0⟩, ⟨-1, 0, 0⟩] 0.01 45 (fun _ => 100) (fun _ => -100) (fun _ => 1000) (fun _ => 0)) :
    -((100 : ℝ) / 1 * Real.tan (45 * Real.pi / 180)) ≤ -100 ∧
    (-((100 : ℝ) / 1 * Real.tan (45 * Real.pi / 180)) ≤ -100 → ∀ t : ℝ, 0 ≤ t → -((100 : ℝ) / 1 * Real.tan (45 * Real.pi / 180)) ≤ -100) := by
  refine ⟨by rw [tan_cant]; norm_num, ?_⟩
  exact ((cant_spin_partial canted canted_ok _ canted_dirs 0.01 45 _ _ _ _ m (by norm_num) (by norm_num) (by norm_num) canted_lever 1 1 100
    (by norm_num) (by intro s hs; simp only [canted, List.mem_cons, List.not_mem_nil, or_false] at hs; subst hs; norm_num)
    (by intro s hs; simp only [canted, List.mem_cons, List.not_mem_nil, or_false] at hs; subst hs; norm_num) (fun _ _ => le_rfl)).1 (by norm_num)).1

/-- the hypotheses of `cant_template_partial` and `cant_start` hold of the same fins before they spin -/
example : ∃ fins, FinsAt canted [⟨1, 0, 0⟩, ⟨-1, 0, 0⟩] 0.3 1000 0.01 100 0 45 0.05 0 fins ∧
    ∀ z, ((finSetForce canted.position 1.1 fins).momentAbout ⟨0, 0, z⟩).z < 0 := by
  obtain ⟨fins, hf⟩ := finsAt_exists canted canted_ok _ canted_dirs 0.3 1000 0.01 100 0 45 0.05 0 (by norm_num)
  exact ⟨fins, hf, fun z => (cant_template_partial canted canted_ok _ canted_dirs (by simp) 0.3 1000 0.01 100 45 0.05 1.1 (by norm_num) (by norm_num) (by norm_num) (by norm_num)
    (by norm_num) (by norm_num) canted_lever ⟨⟨0.01, 1, 0, 0.1⟩, by simp [canted], by norm_num⟩ (by norm_num) fins hf z).1 (by norm_num)⟩

end Mapleaf.Rocket
