import Verif.Motion.SettleProps
import Verif.Motion.HomProps
import Verif.Motion.StepperProps
import Verif.Motion.BodySpinProps
import Verif.Rocket.MissionModel

/-! # C101: descent under a parachute, the acceleration and the steps of a body without orientation -/

namespace Mapleaf.Rocket
open Mapleaf.Motion V3 ENV
open Mapleaf.Motion.Stepper (RBDeriv3 add3 mul3 neg3 abs3 dAdd3 dMul3 dDiv3 pair pairD)
open Mapleaf.Motion.Lim (Coef coefOf rk stage incr rowsOf weightsOf)

/-! ## Gravity against quadratic drag -/

/-- acceleration at velocity `v` in the wind `W`: gravity `g`, and drag with `k` per length -/
noncomputable def sink (k g : ℝ) (W v : V3 ℝ) : V3 ℝ := ⟨0, 0, -g⟩ - (k * (v - W).length) • (v - W)

/-- falling at `√(g/k)` in the wind `W` -/
noncomputable def settled (k g : ℝ) (W : V3 ℝ) : V3 ℝ := W + ⟨0, 0, -Real.sqrt (g / k)⟩

theorem length_down {x : ℝ} (h : 0 ≤ x) : (⟨0, 0, -x⟩ : V3 ℝ).length = x := by
  unfold V3.length
  simp only
  rw [show (0 : ℝ) * 0 + 0 * 0 + -x * -x = x ^ 2 by ring, Real.sqrt_sq h]

theorem settled_apart (k g : ℝ) (W v : V3 ℝ) : v - settled k g W = (v - W) - ⟨0, 0, -Real.sqrt (g / k)⟩ := by
  unfold settled; abel

/-- the difference of two accelerations -/
theorem sink_sub (k g : ℝ) (W x z : V3 ℝ) : sink k g W x - sink k g W z = -k • ((x - W).length • (x - W) - (z - W).length • (z - W)) := by
  unfold sink
  apply V3.ext' <;> simp <;> ring

/-- drag opposes: `a|a| - b|b|` points along `a - b` -/
theorem drag_along (a b : V3 ℝ) : (a.length + b.length) / 2 * (a - b).length ^ 2 ≤ dot (a.length • a - b.length • b) (a - b) := by
  have h1 := V3.length_sq a
  have h2 := V3.length_sq b
  have h3 := V3.length_sq (a - b)
  have n1 := V3.length_nonneg a
  have n2 := V3.length_nonneg b
  have h4 : 0 ≤ (a.length + b.length) * (a.length - b.length) ^ 2 := mul_nonneg (add_nonneg n1 n2) (sq_nonneg _)
  rw [pow_two, h3]
  have e1 : dot (a - b) (a - b) = dot a a + dot b b - 2 * dot a b := by simp [dot]; ring
  have e2 : dot (a.length • a - b.length • b) (a - b) = a.length * dot a a + b.length * dot b b - (a.length + b.length) * dot a b := by
    simp [dot]; ring
  rw [e1, e2, ← h1, ← h2]
  linarith [h4, show (a.length + b.length) * (a.length - b.length) ^ 2 = 2 * (a.length * (a.length * a.length) + b.length * (b.length * b.length)) -
    (a.length + b.length) * (a.length * a.length + b.length * b.length) by ring]

theorem drag_lip (a b : V3 ℝ) : (a.length • a - b.length • b).length ≤ (a.length + b.length) * (a - b).length := by
  have e : a.length • a - b.length • b = a.length • (a - b) + (a.length - b.length) • b := by
    rw [smul_sub, sub_smul]; abel
  rw [e]
  refine ((length_laws _ _ 0).2.2.2.2.1).trans ?_
  rw [length_smul, length_smul, abs_of_nonneg (V3.length_nonneg a)]
  have h1 : |a.length - b.length| ≤ (a - b).length := by
    rw [abs_le]
    have t1 := (length_laws (a - b) b 0).2.2.2.2.1
    have t2 := (length_laws (b - a) a 0).2.2.2.2.1
    have t3 : (b - a).length = (a - b).length := by
      rw [← neg_sub, (length_laws (a - b) b 0).2.2.2.1]
    rw [sub_add_cancel] at t1 t2
    constructor <;> linarith
  have := mul_le_mul_of_nonneg_right h1 (V3.length_nonneg b)
  linarith

section field
variable {k g r : ℝ} {W : V3 ℝ}

/-- **C101.** The only velocity at which weight and drag balance is that of falling at `√(g/k)` in the wind. -/
theorem sink_iff (hk : 0 < k) (hg : 0 ≤ g) (v : V3 ℝ) : sink k g W v = 0 ↔ v = settled k g W := by
  have hs : Real.sqrt (g / k) ^ 2 = g / k := Real.sq_sqrt (div_nonneg hg hk.le)
  have h0 : sink k g W (settled k g W) = 0 := by
    unfold sink settled
    rw [add_sub_cancel_left, length_down (Real.sqrt_nonneg _)]
    apply V3.ext'
    · simp
    · simp
    · simp only [V3.sub_z, V3.smul_z, V3.zero_z]
      have : Real.sqrt (g / k) * Real.sqrt (g / k) = g / k := by rw [← pow_two, hs]
      rw [show -g - -Real.sqrt (g / k) * (k * Real.sqrt (g / k)) = -g + k * (Real.sqrt (g / k) * Real.sqrt (g / k)) by ring, this]
      field_simp
      ring
  refine ⟨fun h => ?_, fun h => by rw [h]; exact h0⟩
  have h1 := sink_sub k g W v (settled k g W)
  rw [h, h0, sub_zero] at h1
  have h2 := drag_along (v - W) (settled k g W - W)
  have h3 : (v - W).length • (v - W) - (settled k g W - W).length • (settled k g W - W) = 0 := by
    rcases smul_eq_zero.1 h1.symm with h | h
    · linarith
    · exact h
  rw [h3] at h2
  have h4 : dot (0 : V3 ℝ) (v - W - (settled k g W - W)) = 0 := by simp [dot]
  rw [h4, sub_sub_sub_cancel_right] at h2
  by_contra hne
  have hd : 0 < (v - settled k g W).length :=
    lt_of_le_of_ne (V3.length_nonneg _) (fun h' => hne (sub_eq_zero.1 ((length_zero_iff _).1 h'.symm)))
  have hsum : 0 < (v - W).length + (settled k g W - W).length := by
    have n1 := V3.length_nonneg (v - W)
    have n2 := V3.length_nonneg (settled k g W - W)
    rcases n1.lt_or_eq with h | h
    · linarith
    rcases n2.lt_or_eq with h' | h'
    · linarith
    exact absurd (by rw [sub_eq_zero.1 ((length_zero_iff _).1 h.symm), sub_eq_zero.1 ((length_zero_iff _).1 h'.symm)]) hne
  have : 0 < ((v - W).length + (settled k g W - W).length) / 2 * (v - settled k g W).length ^ 2 := by positivity
  linarith

theorem settled_speed : (settled k g W - W).length = Real.sqrt (g / k) := by
  unfold settled
  rw [add_sub_cancel_left, length_down (Real.sqrt_nonneg _)]

theorem speed_near {v : V3 ℝ} (h : (v - settled k g W).length ≤ r) : (v - W).length ≤ Real.sqrt (g / k) + r := by
  have := (length_laws (v - settled k g W) (settled k g W - W) 0).2.2.2.2.1
  rw [sub_add_sub_cancel, settled_speed] at this
  linarith

/-- a step of size `s` along the acceleration -/
theorem sink_pull (hk : 0 < k) (hg : 0 ≤ g) {v : V3 ℝ} (h : (v - settled k g W).length ≤ r) {s : ℝ} (hs : 0 ≤ s) :
    (v + s • sink k g W v - settled k g W).length ≤
      (1 - s * (k * Real.sqrt (g / k) / 2) + s ^ 2 * (k ^ 2 * (2 * Real.sqrt (g / k) + r) ^ 2 / 2)) * (v - settled k g W).length := by
  have hd := V3.length_nonneg (v - settled k g W)
  have hr : 0 ≤ r := hd.trans h
  have h0 : sink k g W (settled k g W) = 0 := (sink_iff hk hg _).2 rfl
  set w := Real.sqrt (g / k) with hw
  have hw0 : 0 ≤ w := Real.sqrt_nonneg _
  set S := (v - W).length + w with hS
  have hS1 : w ≤ S := by have := V3.length_nonneg (v - W); linarith
  have hS2 : S ≤ 2 * w + r := by have := speed_near h; linarith
  set d := v - settled k g W with hdd
  set G := (v - W).length • (v - W) - (settled k g W - W).length • (settled k g W - W) with hG
  have hdW : (v - W) - (settled k g W - W) = d := by rw [hdd]; abel
  have e1 : v + s • sink k g W v - settled k g W = d - (s * k) • G := by
    have := sink_sub k g W v (settled k g W)
    rw [h0, sub_zero] at this
    rw [this, smul_smul, hdd, ← hG]
    apply V3.ext' <;> simp <;> ring
  have a1 := drag_along (v - W) (settled k g W - W)
  have a2 := drag_lip (v - W) (settled k g W - W)
  rw [hdW, settled_speed, ← hw, ← hS] at a1 a2
  rw [show (v - W).length • (v - W) - w • (settled k g W - W) = G by rw [hG, settled_speed]] at a1 a2
  have e2 : (d - (s * k) • G).length ^ 2 = d.length ^ 2 - 2 * (s * k) * dot G d + (s * k) ^ 2 * G.length ^ 2 := by
    rw [pow_two, pow_two, pow_two G.length, length_sq, length_sq, length_sq]
    simp [dot]; ring
  have hsk : 0 ≤ s * k := mul_nonneg hs hk.le
  have hG2 : G.length ^ 2 ≤ (S * d.length) ^ 2 := pow_le_pow_left₀ (V3.length_nonneg _) a2 2
  set y := s * k * w - s ^ 2 * k ^ 2 * (2 * w + r) ^ 2 with hy
  have b1 : (d - (s * k) • G).length ^ 2 ≤ (1 - y) * d.length ^ 2 := by
    rw [e2]
    have c1 : (s * k) * (S * d.length ^ 2) ≤ 2 * (s * k) * dot G d := by
      have := mul_le_mul_of_nonneg_left a1 (mul_nonneg (by norm_num : (0:ℝ) ≤ 2) hsk)
      linarith
    have c2 : (s * k) ^ 2 * G.length ^ 2 ≤ (s * k) ^ 2 * (S * d.length) ^ 2 := mul_le_mul_of_nonneg_left hG2 (sq_nonneg _)
    have c3 : (s * k) * (w * d.length ^ 2) ≤ (s * k) * (S * d.length ^ 2) :=
      mul_le_mul_of_nonneg_left (mul_le_mul_of_nonneg_right hS1 (sq_nonneg _)) hsk
    have c4 : (S * d.length) ^ 2 ≤ ((2 * w + r) * d.length) ^ 2 :=
      pow_le_pow_left₀ (mul_nonneg (hw0.trans hS1) hd) (mul_le_mul_of_nonneg_right hS2 hd) 2
    have c5 : (s * k) ^ 2 * (S * d.length) ^ 2 ≤ (s * k) ^ 2 * ((2 * w + r) * d.length) ^ 2 := mul_le_mul_of_nonneg_left c4 (sq_nonneg _)
    have c6 : (1 - y) * d.length ^ 2 = d.length ^ 2 - (s * k) * (w * d.length ^ 2) + (s * k) ^ 2 * ((2 * w + r) * d.length) ^ 2 := by
      rw [hy]; ring
    linarith
  have hy1 : y ≤ 1 := by
    have c1 : s * k * w ≤ s * k * (2 * w + r) := mul_le_mul_of_nonneg_left (by linarith) hsk
    have c2 : s ^ 2 * k ^ 2 * (2 * w + r) ^ 2 = (s * k * (2 * w + r)) ^ 2 := by ring
    rw [hy, c2]
    nlinarith [sq_nonneg (s * k * (2 * w + r) - 1 / 2)]
  rw [e1]
  rw [show 1 - s * (k * w / 2) + s ^ 2 * (k ^ 2 * (2 * w + r) ^ 2 / 2) = 1 - y / 2 by rw [hy]; ring]
  apply le_of_sq_le_sq _ (mul_nonneg (by linarith) hd)
  rw [mul_pow]
  refine b1.trans (mul_le_mul_of_nonneg_right ?_ (sq_nonneg _))
  nlinarith [sq_nonneg y]

end field

attribute [local instance] Lim.vNorm Lim.vSpace

theorem norm_length (v : V3 ℝ) : ‖v‖ = v.length := rfl

/-! ## Steps of a body without orientation -/

/-- pairs as derivatives and changes -/
def derivOf (d : V3 ℝ × V3 ℝ) : RBDeriv3 := ⟨d.1, d.2⟩

def stateOf (x : V3 ℝ × V3 ℝ) : RBState3 := ⟨x.1, x.2⟩

theorem three_lawful : Body.Lawful arith3 derivOf (fun y d => stateOf (pair y + d)) (fun _ => True) where
  ddiv d s hs := by
    change dDiv3 _ s = _
    unfold dDiv3
    rw [if_neg hs]
    rfl
  dadd a b := rfl
  plus y d s _ := rfl

theorem three_tableau {m : String} {tab : RK.Tableau ℚ} (hm : RK.classicalTableau m = .ok (some tab)) (F : ℝ → V3 ℝ × V3 ℝ → V3 ℝ × V3 ℝ) (t : ℝ)
    (y : RBState3) (h : ℝ) (hh : h ≠ 0) :
    ∃ r, Body.classicalStep arith3 m (fun t s => .ok (derivOf (F t (pair s)))) t y h = .ok r ∧
      pair r.newValue = rk (coefOf (rowsOf (RK.patch tab)) (weightsOf (RK.patch tab))) F t (pair y) h := by
  obtain ⟨hgood1, hgood2⟩ : RK.rowsConsistent 0 tab = true ∧ RK.shapeB 1 (RK.patch tab) = true := Body.tableau_checks m tab hm
  have hshape : RK.Shape 1 (RK.castT (RK.patch tab) : RK.Tableau ℝ) := RK.shape_cast 1 (RK.patch tab) hgood2
  obtain ⟨r, ks, b, h1, h2, h3, h4, _, h6, _, _⟩ := Body.rkStep_gen three_lawful (RK.castT (RK.patch tab)) hshape
    (fun t s => .ok (derivOf (F t (pair s)))) (fun t s => F t (pair s)) (fun _ => True) (fun _ => True) (fun t s _ => ⟨rfl, trivial⟩) t y trivial trivial
    h hh (fun _ _ _ _ _ => trivial)
  refine ⟨r, ?_, ?_⟩
  · unfold Body.classicalStep
    rw [hm]
    dsimp only
    rw [← RK.castT_def, RK.checkTableau_cast tab hgood1]
    exact h1
  · obtain ⟨r', ks', k1, k2, k3, _⟩ := RK.classical_runs m tab hm hgood1 hgood2 F t (pair y) h hh
    obtain ⟨r'', j1, j2⟩ := Lim.classical_rk m tab hm hgood1 hgood2 F t (pair y) h hh
    rw [k1] at j1
    obtain rfl := Except.ok.inj j1
    rw [← j2, k3, h6]
    have hrows : (RK.castT (RK.patch tab) : RK.Tableau ℝ).dropLast = RK.castT ((RK.patch tab).take ((RK.patch tab).length - 1)) := by
      rw [RK.castT_dropLast, List.dropLast_eq_take]
    have hks : RK.IsStages (RK.castT ((RK.patch tab).take ((RK.patch tab).length - 1)) : RK.Tableau ℝ) F t (pair y) h (F t (pair y)) ks := by
      rw [← hrows]
      exact h4
    have hex := hshape.explicit
    rw [RK.castT_length, RK.castT_take] at hex
    rw [RK.isStages_unique hex hks k2, RK.castT_getLast _ _ h2]
    rfl

/-- every fixed-step method, on bodies without orientation -/
theorem three_methods {m : String} (hm : m ∈ ["Euler", "RK2Midpoint", "RK2Heun", "RK4", "RK4_3/8"]) :
    ∃ q : Coef, q.Bounded 1 ∧ q.s ≤ 4 ∧ 1 ≤ (∑ i ∈ Finset.range q.s, q.b i) ∧ (∑ i ∈ Finset.range q.s, q.b i) ≤ 2 ∧
      ∀ (F : ℝ → V3 ℝ × V3 ℝ → V3 ℝ × V3 ℝ) t y h, h ≠ 0 →
      ∃ r, Body.classicalStep arith3 m (fun t s => .ok (derivOf (F t (pair s)))) t y h = .ok r ∧ pair r.newValue = rk q F t (pair y) h := by
  simp only [List.mem_cons, List.not_mem_nil, or_false] at hm
  rcases hm with rfl | rfl | rfl | rfl | rfl
  · refine ⟨coefOf [] [1], Lim.fit_euler.1, by simp [coefOf], by simp [coefOf], by norm_num [coefOf], fun F t y h hh => ?_⟩
    obtain ⟨r, h1, h2⟩ := Lim.euler_rk F t (pair y) h
    refine ⟨_, by unfold Body.classicalStep; simp [RK.classicalTableau]; exact Body.eulerStep_gen three_lawful _ t y trivial h _ rfl, ?_⟩
    rw [← h2]
    unfold RK.classicalStep at h1
    simp [RK.classicalTableau] at h1
    rw [← h1]
    rfl
  · exact ⟨_, Lim.fit_midpoint.bound', by decide +kernel, by
      norm_num [coefOf, rowsOf, weightsOf, RK.patch, RK.tabRK2Midpoint, RK.castT, RK.castL, Finset.sum_range_succ], by
      norm_num [coefOf, rowsOf, weightsOf, RK.patch, RK.tabRK2Midpoint, RK.castT, RK.castL, Finset.sum_range_succ],
      three_tableau (by simp [RK.classicalTableau])⟩
  · exact ⟨_, Lim.fit_heun.bound', by decide +kernel, by
      norm_num [coefOf, rowsOf, weightsOf, RK.patch, RK.tabRK2Heun, RK.castT, RK.castL, Finset.sum_range_succ], by
      norm_num [coefOf, rowsOf, weightsOf, RK.patch, RK.tabRK2Heun, RK.castT, RK.castL, Finset.sum_range_succ],
      three_tableau (by simp [RK.classicalTableau])⟩
  · exact ⟨_, Lim.fit_rk4.bound', by decide +kernel, by
      norm_num [coefOf, rowsOf, weightsOf, RK.patch, RK.tabRK4, RK.castT, RK.castL, Finset.sum_range_succ], by
      norm_num [coefOf, rowsOf, weightsOf, RK.patch, RK.tabRK4, RK.castT, RK.castL, Finset.sum_range_succ],
      three_tableau (by simp [RK.classicalTableau])⟩
  · exact ⟨_, Lim.fit_rk438.bound', by decide +kernel, by
      norm_num [coefOf, rowsOf, weightsOf, RK.patch, RK.tabRK438, RK.castT, RK.castL, Finset.sum_range_succ], by
      norm_num [coefOf, rowsOf, weightsOf, RK.patch, RK.tabRK438, RK.castT, RK.castL, Finset.sum_range_succ],
      three_tableau (by simp [RK.classicalTableau])⟩

end Mapleaf.Rocket
