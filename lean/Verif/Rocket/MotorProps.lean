import Verif.Rocket.MotorModel
import Verif.Motion.InterpProps
import Verif.Motion.ForceProps
import Mathlib.Analysis.SpecialFunctions.Integrals.Basic
import Mathlib.Algebra.BigOperators.Intervals
import Mathlib.Order.Interval.Finset.Nat

/-!
# C31: motor thrust and propellant bookkeeping
-/

namespace Mapleaf.Rocket
open Mapleaf.Motion

section
variable {K : Type} [Field K] [LinearOrder K]

/-- Area of the trapezoid between samples `i` and `i+1` of the piecewise linear curve through `(T, V)` -/
def trap (T V : List K) (i : Nat) : K := (T.getD (i + 1) 0 - T.getD i 0) * (V.getD i 0 + V.getD (i + 1) 0) / 2

/-- The area under the curve from sample `j` to the last one -/
def areaFrom (T V : List K) (j : Nat) : K := ∑ k ∈ Finset.Ico j (T.length - 1), trap T V k

theorem massLoop_spec (T V : List K) (i : Nat) (s : K) (ser : List K) :
    massLoop T V i (s, ser) = (s + ∑ k ∈ Finset.range i, trap T V k,
      (List.range i).map (fun j => s + ∑ k ∈ Finset.Ico j i, trap T V k) ++ ser) := by
  induction i generalizing s ser with
  | zero => simp [massLoop]
  | succ i ih =>
    have h := ih (s + trap T V i) ((s + trap T V i) :: ser)
    show massLoop T V i (s + trap T V i, (s + trap T V i) :: ser) = _
    rw [h]
    refine Prod.ext ?_ ?_
    · simp only [Finset.sum_range_succ]; ring
    · simp only [List.range_succ, List.map_append, List.map_cons, List.map_nil, List.append_assoc, List.cons_append,
        List.nil_append]
      congr 1
      · apply List.map_congr_left
        intro j hj
        rw [Finset.sum_Ico_succ_top (List.mem_range.1 hj).le]; ring
      · simp

/-- The propellant series: entry `j` is the area under the flow curve from sample `j` to the end. -/
theorem massLoop_series (T V : List K) (hT : T ≠ []) :
    massLoop T V (T.length - 1) (0, [0]) = (areaFrom T V 0, (List.range T.length).map (areaFrom T V)) := by
  have hpos : 0 < T.length := List.length_pos_of_ne_nil hT
  obtain ⟨n, hn⟩ : ∃ n, T.length = n + 1 := ⟨T.length - 1, by omega⟩
  rw [massLoop_spec]
  unfold areaFrom
  rw [hn]
  simp [List.range_succ]

theorem build_ok {h : MotorHeader K} {rows : List (MotorRow K)} {z f b : K} {m : Motor K} {off : K}
    (hb : Motor.build h rows z f b = .ok (m, off)) :
    ∃ hr : rows ≠ [], b ≠ 0 ∧ off = (rows.getLast hr).t ∧ m.times = rows.map (fun r => r.t * b) ∧
      m.thrusts = rows.map (fun r => r.thrust * f / b) ∧
      m.oxWeights = (List.range rows.length).map (areaFrom m.times (rows.map (·.ox))) ∧
      m.fuelWeights = (List.range rows.length).map (areaFrom m.times (rows.map (·.fuel))) ∧
      m.oxMass = areaFrom m.times (rows.map (·.ox)) 0 ∧ m.fuelMass = areaFrom m.times (rows.map (·.fuel)) 0 ∧
      m.oxMOIs = rows.map (·.oxMOI) ∧ m.fuelMOIs = rows.map (·.fuelMOI) ∧ m.ignition = 0 ∧
      m.header = ⟨h.initOx + z, h.finalOx + z, h.initFuel + z, h.finalFuel + z⟩ := by
  have hr : rows ≠ [] := by
    rintro rfl
    simp [Motor.build, pyGet] at hb
  have hT : (rows.map (·.t)).map (· * b) ≠ [] := by simpa using hr
  unfold Motor.build at hb
  rw [pyGet_neg_one _ (by simpa using hr)] at hb
  dsimp only at hb
  split at hb
  · exact absurd hb (by simp)
  · rename_i hb0
    simp only [Except.ok.injEq, Prod.mk.injEq] at hb
    obtain ⟨rfl, rfl⟩ := hb
    refine ⟨hr, hb0, ?_, by simp, rfl, ?_, ?_, ?_, ?_, rfl, rfl, rfl, rfl⟩
    · simp
    · simp only; rw [massLoop_series _ _ hT]; simp
    · simp only; rw [massLoop_series _ _ hT]; simp
    · simp only; rw [massLoop_series _ _ hT]
    · simp only; rw [massLoop_series _ _ hT]

/-- **C31.** The motor is rejected exactly for an empty table or a zero burn time factor. -/
theorem build_total (h : MotorHeader K) (rows : List (MotorRow K)) (z f b : K) :
    (∃ p, Motor.build h rows z f b = .ok p) ↔ rows ≠ [] ∧ b ≠ 0 := by
  constructor
  · rintro ⟨⟨m, off⟩, hp⟩
    obtain ⟨h1, h2, _⟩ := build_ok hp
    exact ⟨h1, h2⟩
  · rintro ⟨h1, h2⟩
    unfold Motor.build
    rw [pyGet_neg_one _ (by simpa using h1)]
    dsimp only
    rw [if_neg h2]
    exact ⟨_, rfl⟩

variable [IsStrictOrderedRing K]

theorem times_ascending {rows : List (MotorRow K)} {b : K} (hb : 0 < b) (hasc : rows.Pairwise (fun r s => r.t < s.t)) :
    (rows.map (fun r => r.t * b)).Pairwise (· < ·) := by
  rw [List.pairwise_map]
  exact hasc.imp (fun h => mul_lt_mul_of_pos_right h hb)

/-- **C31.** Between ignition and burnout the force is the thrust curve of the file, linearly interpolated, stretched in time
by the burn time factor and scaled by impulse factor over burn time factor; it points along the body z-axis and acts at the
origin without moment. -/
theorem thrust_while_burning {h : MotorHeader K} {rows : List (MotorRow K)} {z f b : K} {m : Motor K} {off : K}
    (hm : Motor.build h rows z f b = .ok (m, off)) (hasc : rows.Pairwise (fun r s => r.t < s.t)) (hb : 0 < b)
    (ign time : K) (i : Nat) (hi : i + 1 < rows.length) (h0 : ign ≤ time)
    (h1 : rows[i].t ≤ (time - ign) / b) (h2 : (time - ign) / b ≤ rows[i + 1].t) :
    Motor.force { m with ignition := ign } time = .ok ⟨⟨0, 0, f / b * AffineMap.lineMap rows[i].thrust rows[i + 1].thrust
      (((time - ign) / b - rows[i].t) / (rows[i + 1].t - rows[i].t))⟩, ⟨0, 0, 0⟩, ⟨0, 0, 0⟩⟩ := by
  obtain ⟨hr, hb0, _, ht, hth, _⟩ := build_ok hm
  have hT := times_ascending hb hasc
  rw [le_div_iff₀ hb] at h1
  rw [div_le_iff₀ hb] at h2
  have hmax : max 0 (time - ign) = time - ign := max_eq_right (sub_nonneg.2 h0)
  have hlast : rows[i + 1].t ≤ (rows.getLast hr).t := by
    rw [List.getLast_eq_getElem]
    rcases (show i + 1 ≤ rows.length - 1 by omega).lt_or_eq with hlt | heq
    · exact (List.pairwise_iff_getElem.1 hasc (i + 1) (rows.length - 1) hi (by omega) hlt).le
    · simp [heq]
  have hd : rows[i].t < rows[i + 1].t := List.pairwise_iff_getElem.1 hasc i (i + 1) (by omega) hi (by omega)
  have hbet := linInterp_between (rows.map (fun r => r.t * b)) (rows.map (fun r => r.thrust * f / b)) (time - ign) i hT
    (by simp) (by simpa using hi) (by simpa using h1) (by simpa using h2)
  unfold Motor.force Motor.thrustAt
  simp only [ht, hth]
  rw [pyGet_neg_one _ (by simpa using hr)]
  dsimp only
  rw [hmax, if_neg, hbet]
  · simp only [FMS.make, Option.getD_none, Except.ok.injEq, FMS.mk.injEq, V3.mk.injEq, and_true, true_and,
      List.getElem_map, AffineMap.lineMap_apply, vsub_eq_sub, vadd_eq_add, smul_eq_mul]
    have h3 : rows[i + 1].t - rows[i].t ≠ 0 := sub_ne_zero.2 hd.ne'
    have h4 : rows[i + 1].t * b - rows[i].t * b ≠ 0 := by rw [← sub_mul]; exact mul_ne_zero h3 hb0
    field_simp
  · rw [not_or]
    refine ⟨not_lt.2 (sub_nonneg.2 h0), not_lt.2 (h2.trans ?_)⟩
    rw [List.getLast_map]
    exact mul_le_mul_of_nonneg_right hlast hb.le

/-- **C31.** After burnout the thrust is zero. -/
theorem thrust_after_burnout {h : MotorHeader K} {rows : List (MotorRow K)} {z f b : K} {m : Motor K} {off : K}
    (hm : Motor.build h rows z f b = .ok (m, off)) (ign time : K) (hr : rows ≠ [])
    (hlate : ign + (rows.getLast hr).t * b < time) :
    Motor.force { m with ignition := ign } time = .ok ⟨0, 0, 0⟩ := by
  obtain ⟨_, hb0, _, ht, hth, _⟩ := build_ok hm
  unfold Motor.force Motor.thrustAt
  simp only [ht]
  rw [pyGet_neg_one _ (by simpa using hr)]
  dsimp only
  rw [if_pos]
  · rfl
  · right
    rw [List.getLast_map]
    exact lt_of_lt_of_le (by linarith) (le_max_right _ _)

/-- What happens before ignition: the motor pushes with the thrust of time zero of its curve. -/
theorem thrust_before_ignition {h : MotorHeader K} {rows : List (MotorRow K)} {z f b : K} {m : Motor K} {off : K}
    (hm : Motor.build h rows z f b = .ok (m, off)) (hasc : rows.Pairwise (fun r s => r.t < s.t)) (hb : 0 < b)
    (ign time : K) (hr : rows ≠ []) (hearly : time ≤ ign) (h0 : (rows.head hr).t = 0) :
    Motor.force { m with ignition := ign } time = .ok ⟨⟨0, 0, (rows.head hr).thrust * f / b⟩, 0, 0⟩ := by
  obtain ⟨_, hb0, _, ht, hth, _⟩ := build_ok hm
  have hT := times_ascending hb hasc
  have hmax : max 0 (time - ign) = 0 := max_eq_left (by linarith)
  have hlast : 0 ≤ (rows.getLast hr).t := by
    rw [← h0, List.getLast_eq_getElem, List.head_eq_getElem]
    rcases (show 0 ≤ rows.length - 1 by omega).lt_or_eq with hlt | heq
    · exact (List.pairwise_iff_getElem.1 hasc 0 (rows.length - 1) (by omega) (by omega) hlt).le
    · simp [← heq]
  obtain ⟨hY, hlow⟩ := (linInterp_spec (rows.map (fun r => r.t * b)) (rows.map (fun r => r.thrust * f / b)) hT
    (by simpa using hr) (by simp)).2.1 0 (by rw [List.head_map, h0, zero_mul])
  unfold Motor.force Motor.thrustAt
  simp only [ht, hth]
  rw [pyGet_neg_one _ (by simpa using hr)]
  dsimp only
  rw [hmax, if_neg, hlow, List.head_map]
  · rfl
  · rw [not_or, List.getLast_map]
    exact ⟨lt_irrefl _, not_lt.2 (mul_nonneg hlast hb.le)⟩

/-! ## Total impulse -/

theorem impulse_eq_area (m : Motor K) : m.totalImpulse = areaFrom m.times m.thrusts 0 := by
  unfold Motor.totalImpulse areaFrom
  have key : ∀ (n s : Nat) (a : K), (List.range' (s + 1) n).foldl (fun total i =>
      total + (m.times.getD i 0 - m.times.getD (i - 1) 0) * (m.thrusts.getD (i - 1) 0 + m.thrusts.getD i 0) / 2) a =
      a + ∑ k ∈ Finset.Ico s (s + n), trap m.times m.thrusts k := by
    intro n
    induction n with
    | zero => intro s a; simp
    | succ n ih =>
      intro s a
      rw [List.range'_succ, List.foldl_cons, ih (s + 1)]
      rw [show s + (n + 1) = (s + 1) + n by ring, ← Finset.sum_Ioo_add_eq_sum_Ico (by omega : s < s + 1 + n)]
      have : Finset.Ioo s (s + 1 + n) = Finset.Ico (s + 1) (s + 1 + n) := by
        ext k; simp [Finset.mem_Ioo, Finset.mem_Ico, Nat.succ_le_iff]
      rw [this]
      simp only [trap, Nat.add_sub_cancel]
      ring
  have := key (m.times.length - 1) 0 0
  simpa using this

theorem area_congr {T T' V V' : List K} {c : K} (hl : T.length = T'.length)
    (h : ∀ i, i + 1 < T.length → trap T V i = c * trap T' V' i) (j : Nat) : areaFrom T V j = c * areaFrom T' V' j := by
  unfold areaFrom
  rw [← hl, Finset.mul_sum]
  apply Finset.sum_congr rfl
  intro i hi
  rw [Finset.mem_Ico] at hi
  exact h i (by omega)

/-- **C31.** The total impulse is the impulse factor times the area under the thrust curve of the file, whatever the burn time
factor. -/
theorem impulse_scaled {h : MotorHeader K} {rows : List (MotorRow K)} {z f b : K} {m : Motor K} {off : K}
    (hm : Motor.build h rows z f b = .ok (m, off)) :
    m.totalImpulse = f * areaFrom (rows.map (·.t)) (rows.map (·.thrust)) 0 := by
  obtain ⟨_, hb0, _, ht, hth, _⟩ := build_ok hm
  rw [impulse_eq_area]
  apply area_congr (by rw [ht]; simp)
  intro i hi
  rw [ht] at hi
  simp only [List.length_map] at hi
  have hi' : i < rows.length := by omega
  simp only [trap, ht, hth, List.getD_eq_getElem?_getD, List.getElem?_map, List.getElem?_eq_getElem hi,
    List.getElem?_eq_getElem hi', Option.map_some, Option.getD_some]
  field_simp

/-- **C31.** Propellant masses: the area under the flow curves of the file times the burn time factor. The impulse does not
change with that factor but the propellant mass does. -/
theorem propellant_scaled {h : MotorHeader K} {rows : List (MotorRow K)} {z f b : K} {m : Motor K} {off : K}
    (hm : Motor.build h rows z f b = .ok (m, off)) :
    m.oxMass = b * areaFrom (rows.map (·.t)) (rows.map (·.ox)) 0 ∧
    m.fuelMass = b * areaFrom (rows.map (·.t)) (rows.map (·.fuel)) 0 := by
  obtain ⟨_, hb0, _, ht, _, _, _, hox, hfu, _⟩ := build_ok hm
  rw [hox, hfu]
  have key : ∀ V : List K, V.length = rows.length →
      areaFrom m.times V 0 = b * areaFrom (rows.map (·.t)) V 0 := by
    intro V hV
    apply area_congr (by rw [ht]; simp)
    intro i hi
    rw [ht] at hi
    simp only [List.length_map] at hi
    have hi' : i < rows.length := by omega
    simp only [trap, ht, List.getD_eq_getElem?_getD, List.getElem?_map, List.getElem?_eq_getElem hi,
      List.getElem?_eq_getElem hi', Option.map_some, Option.getD_some]
    ring
  exact ⟨key _ (by simp), key _ (by simp)⟩

/-! ## Interpolation of a non-increasing table -/

omit [IsStrictOrderedRing K] in
theorem locate {X : List K} (hs : X.Pairwise (· < ·)) (hn : X ≠ []) {x : K} (h1 : X.head hn ≤ x)
    (h2 : x < X.getLast hn) : ∃ (i : Nat) (hi : i + 1 < X.length), X[i] ≤ x ∧ x < X[i + 1] := by
  have hpos : 0 < X.length := List.length_pos_of_ne_nil hn
  obtain ⟨hb, hiff, _⟩ := bisect_spec X x (strict_le hs)
  rw [List.head_eq_getElem] at h1
  rw [List.getLast_eq_getElem] at h2
  have hb1 : 0 < bisect X x := (hiff 0 hpos).2 h1
  have hb2 : bisect X x < X.length := by
    by_contra hc
    exact absurd ((hiff (X.length - 1) (by omega)).1 (by omega)) (not_le.2 h2)
  refine ⟨bisect X x - 1, by omega, (hiff _ (by omega)).1 (by omega), ?_⟩
  by_contra hc
  have := (hiff (bisect X x - 1 + 1) (by omega)).2 (not_lt.1 hc)
  omega

/-- Interpolating a non-increasing table gives a non-increasing function with values between the last and first entries. -/
theorem linInterp_antitone (X Y : List K) (hs : X.Pairwise (· < ·)) (hn : X ≠ []) (hl : X.length = Y.length)
    (hY : Y.Pairwise (· ≥ ·)) {x y : K} (hxy : x ≤ y) :
    ∃ u v, linInterp X Y x = .ok u ∧ linInterp X Y y = .ok v ∧ v ≤ u := by
  have hYn : Y ≠ [] := by intro h; rw [h] at hl; simp at hl; exact hn hl
  have hpos : 0 < Y.length := List.length_pos_of_ne_nil hYn
  have hdec : ∀ i j (hi : i < Y.length) (hj : j < Y.length), i ≤ j → Y[j] ≤ Y[i] := by
    intro i j hi hj hij
    rcases hij.lt_or_eq with h | h
    · exact List.pairwise_iff_getElem.1 hY i j hi hj h
    · subst h; exact le_refl _
  have hrange : ∀ w, ∃ u, linInterp X Y w = .ok u ∧ Y.getLast hYn ≤ u ∧ u ≤ Y.head hYn := by
    intro w
    rw [List.getLast_eq_getElem, List.head_eq_getElem]
    by_cases c1 : w < X.head hn
    · obtain ⟨h, e⟩ := linInterp_below X Y w hs hn hl c1
      exact ⟨_, e, by rw [List.head_eq_getElem]; exact hdec _ _ _ _ (by omega), by rw [List.head_eq_getElem]⟩
    · by_cases c2 : X.getLast hn ≤ w
      · obtain ⟨h, e⟩ := linInterp_above X Y w hs hn hl c2
        exact ⟨_, e, by rw [List.getLast_eq_getElem], by rw [List.getLast_eq_getElem]; exact hdec _ _ _ _ (by omega)⟩
      · obtain ⟨i, hi, e1, e2⟩ := locate hs hn (not_lt.1 c1) (not_le.1 c2)
        obtain ⟨u, e, b1, b2⟩ := linInterp_bounded X Y w i hs hl hi e1 e2.le
        refine ⟨u, e, le_trans (le_min ?_ ?_) b1, le_trans b2 (max_le ?_ ?_)⟩
        all_goals exact hdec _ _ _ _ (by omega)
  by_cases c1 : x < X.head hn
  · obtain ⟨h, e⟩ := linInterp_below X Y x hs hn hl c1
    obtain ⟨v, ev, _, hv⟩ := hrange y
    exact ⟨_, v, e, ev, hv⟩
  by_cases c2 : X.getLast hn ≤ y
  · obtain ⟨h, e⟩ := linInterp_above X Y y hs hn hl c2
    obtain ⟨u, eu, hu, _⟩ := hrange x
    exact ⟨u, _, eu, e, hu⟩
  rw [not_lt] at c1
  rw [not_le] at c2
  obtain ⟨i, hi, a1, a2⟩ := locate hs hn c1 (lt_of_le_of_lt hxy c2)
  obtain ⟨j, hj, b1, b2⟩ := locate hs hn (c1.trans hxy) c2
  have hij : i ≤ j := by
    by_contra hc
    have : X[j + 1] ≤ X[i] := (strict_index hs hj (by omega)).2 (by omega)
    exact absurd (lt_of_lt_of_le b2 (this.trans (a1.trans hxy))) (lt_irrefl _)
  rcases hij.lt_or_eq with hlt | rfl
  · obtain ⟨u, eu, hu, _⟩ := linInterp_bounded X Y x i hs hl hi a1 a2.le
    obtain ⟨v, ev, _, hv⟩ := linInterp_bounded X Y y j hs hl hj b1 b2.le
    refine ⟨u, v, eu, ev, ?_⟩
    rw [min_eq_right (hdec _ _ _ _ (by omega))] at hu
    rw [max_eq_left (hdec _ _ _ _ (by omega))] at hv
    exact hv.trans ((hdec _ _ _ _ (by omega)).trans hu)
  · refine ⟨_, _, linInterp_between X Y x i hs hl hi a1 a2.le, linInterp_between X Y y i hs hl hi b1 b2.le, ?_⟩
    have hp : 0 < X[i + 1] - X[i] := sub_pos.2 (lt_of_le_of_lt a1 a2)
    have hw : (x - X[i]) / (X[i + 1] - X[i]) ≤ (y - X[i]) / (X[i + 1] - X[i]) :=
      div_le_div_of_nonneg_right (by linarith) hp.le
    have hy : Y[i + 1] ≤ Y[i] := hdec _ _ _ _ (by omega)
    simp only [AffineMap.lineMap_apply, vsub_eq_sub, vadd_eq_add, smul_eq_mul]
    have : (Y[i + 1] - Y[i]) ≤ 0 := by linarith
    nlinarith [mul_le_mul_of_nonpos_right hw this]

/-! ## Propellant -/

theorem area_nonneg {T V : List K} (hT : T.Pairwise (· < ·)) (hV : ∀ v ∈ V, 0 ≤ v) (i : Nat) (hi : i + 1 < T.length) :
    0 ≤ trap T V i := by
  have hd : T[i] < T[i + 1] := List.pairwise_iff_getElem.1 hT i (i + 1) (by omega) hi (by omega)
  have hv : ∀ k, 0 ≤ V.getD k 0 := by
    intro k
    rw [List.getD_eq_getElem?_getD]
    rcases h : V[k]? with _ | v
    · simp
    · exact hV v (List.mem_of_getElem? h)
  unfold trap
  rw [List.getD_eq_getElem?_getD, List.getElem?_eq_getElem hi, List.getD_eq_getElem?_getD,
    List.getElem?_eq_getElem (by omega : i < T.length)]
  simp only [Option.getD_some]
  exact div_nonneg (mul_nonneg (by linarith) (add_nonneg (hv _) (hv _))) (by norm_num)

theorem area_antitone {T V : List K} (hT : T.Pairwise (· < ·)) (hV : ∀ v ∈ V, 0 ≤ v) {j k : Nat} (hjk : j ≤ k) :
    areaFrom T V k ≤ areaFrom T V j := by
  unfold areaFrom
  apply Finset.sum_le_sum_of_subset_of_nonneg
  · intro i hi; rw [Finset.mem_Ico] at hi ⊢; omega
  · intro i hi _
    rw [Finset.mem_Ico] at hi
    exact area_nonneg hT hV i (by omega)

theorem weights_antitone {T V : List K} (hT : T.Pairwise (· < ·)) (hV : ∀ v ∈ V, 0 ≤ v) (n : Nat) :
    ((List.range n).map (areaFrom T V)).Pairwise (· ≥ ·) := by
  rw [List.pairwise_map]
  exact List.pairwise_lt_range.imp (fun h => area_antitone hT hV h.le)

/-- What is known about one propellant: the inertia it contributes at every time since ignition. -/
structure PropSpec (T W : List K) (initCG finalCG mass : K) (inert : K → Except PyErr (Inertia K)) : Prop where
  /-- it always evaluates; its mass lies between zero and the initial mass; its CG moves along the z-axis from the initial
  to the final position with the burned fraction -/
  total : ∀ ts, ∃ i : Inertia K, inert ts = .ok i ∧ 0 ≤ i.mass ∧ i.mass ≤ mass ∧ i.about = i.cg ∧
    (mass ≠ 0 → i.cg = ⟨0, 0, AffineMap.lineMap initCG finalCG ((mass - i.mass) / mass)⟩)
  /-- the mass does not increase -/
  antitone : ∀ ts ts' i i', ts ≤ ts' → inert ts = .ok i → inert ts' = .ok i' → i'.mass ≤ i.mass
  /-- all of it is there up to the first sample, nothing after the last -/
  first : ∀ ts, (∀ t ∈ T, ts ≤ t) → ∃ i, inert ts = .ok i ∧ i.mass = mass
  last : ∀ ts, (∀ t ∈ T, t ≤ ts) → ∃ i, inert ts = .ok i ∧ i.mass = 0
  /-- at sample `j` what remains is what is still to flow out -/
  node : ∀ (j : Nat) (h : j < T.length), ∃ i, inert T[j] = .ok i ∧ i.mass = W.getD j 0

theorem propInertia_spec {T V : List K} {mois : List (V3 K)} (hT : T.Pairwise (· < ·)) (hn : T ≠ [])
    (hm : T.length = mois.length) (hV : ∀ v ∈ V, 0 ≤ v) (initCG finalCG : K) :
    PropSpec T ((List.range T.length).map (areaFrom T V)) initCG finalCG (areaFrom T V 0)
      (propInertia T ((List.range T.length).map (areaFrom T V)) mois (areaFrom T V 0) initCG finalCG) := by
  have hpos : 0 < T.length := List.length_pos_of_ne_nil hn
  set W := (List.range T.length).map (areaFrom T V) with hW
  have hlW : T.length = W.length := by simp [hW]
  have hWdec : W.Pairwise (· ≥ ·) := weights_antitone hT hV _
  have hWn : W ≠ [] := by intro h; rw [h] at hlW; simp at hlW; exact hn hlW
  have hWget : ∀ j (h : j < W.length), W[j] = areaFrom T V j := by intro j h; simp [hW]
  have hend : ∀ j, T.length - 1 ≤ j → areaFrom T V j = 0 := by
    intro j hj; unfold areaFrom; rw [Finset.Ico_eq_empty (by omega)]; simp
  have harea0 : ∀ j, 0 ≤ areaFrom T V j := by
    intro j
    have := area_antitone hT hV (Nat.le_max_left j (T.length - 1))
    rwa [hend _ (Nat.le_max_right j _)] at this
  have heval : ∀ ts, ∃ w, linInterp T W ts = .ok w ∧ 0 ≤ w ∧ w ≤ areaFrom T V 0 ∧
      (areaFrom T V 0 = 0 → ∃ i, propInertia T W mois (areaFrom T V 0) initCG finalCG ts = .ok i ∧ i.mass = 0 ∧ i.about = i.cg) ∧
      (areaFrom T V 0 ≠ 0 → ∃ moi, propInertia T W mois (areaFrom T V 0) initCG finalCG ts =
        .ok (Inertia.make moi ⟨0, 0, AffineMap.lineMap initCG finalCG ((areaFrom T V 0 - w) / areaFrom T V 0)⟩ w)) := by
    intro ts
    obtain ⟨w, hw⟩ := linInterp_total T W (strict_le hT) hn hlW ts
    obtain ⟨moi, hmoi⟩ := linInterp_total T mois (strict_le hT) hn hm ts
    have hbd : 0 ≤ w ∧ w ≤ areaFrom T V 0 := by
      have hlast := (linInterp_spec T W hT hn hlW).2.2
      have hfirst := (linInterp_spec T W hT hn hlW).2.1
      constructor
      · obtain ⟨u, v, e1, e2, hle⟩ := linInterp_antitone T W hT hn hlW hWdec (le_max_left ts (T.getLast hn))
        obtain ⟨h, e⟩ := hlast _ (le_max_right ts (T.getLast hn))
        rw [hw] at e1; rw [e] at e2
        cases e1; cases e2
        refine le_trans ?_ hle
        rw [List.getLast_eq_getElem, hWget]; exact harea0 _
      · obtain ⟨u, v, e1, e2, hle⟩ := linInterp_antitone T W hT hn hlW hWdec (min_le_left ts (T.head hn))
        obtain ⟨h, e⟩ := hfirst _ (min_le_right ts (T.head hn))
        rw [hw] at e2; rw [e] at e1
        cases e1; cases e2
        rwa [List.head_eq_getElem, hWget] at hle
    refine ⟨w, hw, hbd.1, hbd.2, ?_, ?_⟩
    · intro h0
      unfold propInertia
      rw [if_pos h0]
      exact ⟨_, rfl, rfl, rfl⟩
    · intro h0
      refine ⟨moi, ?_⟩
      unfold propInertia
      rw [if_neg h0, hw]
      dsimp only
      rw [hmoi]
      dsimp only
      congr 3
      simp only [AffineMap.lineMap_apply, vsub_eq_sub, vadd_eq_add, smul_eq_mul]
      field_simp
      ring
  have hmass : ∀ ts w i, linInterp T W ts = .ok w → propInertia T W mois (areaFrom T V 0) initCG finalCG ts = .ok i →
      i.mass = w := by
    intro ts w i hw hi
    obtain ⟨w', hw', h1, h2, h3, h4⟩ := heval ts
    rw [hw] at hw'; cases hw'
    by_cases h0 : areaFrom T V 0 = 0
    · obtain ⟨i', e, em, _⟩ := h3 h0
      rw [hi] at e; cases e
      rw [em]; rw [h0] at h2; exact le_antisymm h1 h2
    · obtain ⟨moi, e⟩ := h4 h0
      rw [hi] at e; cases e; rfl
  have hok : ∀ ts, ∃ i, propInertia T W mois (areaFrom T V 0) initCG finalCG ts = .ok i := by
    intro ts
    obtain ⟨w', hw', h1, h2, h3, h4⟩ := heval ts
    by_cases h0 : areaFrom T V 0 = 0
    · obtain ⟨i', e, _⟩ := h3 h0; exact ⟨_, e⟩
    · obtain ⟨moi, e⟩ := h4 h0; exact ⟨_, e⟩
  refine ⟨?_, ?_, ?_, ?_, ?_⟩
  · intro ts
    obtain ⟨w, hw, h1, h2, h3, h4⟩ := heval ts
    by_cases h0 : areaFrom T V 0 = 0
    · obtain ⟨i, e, em, ea⟩ := h3 h0
      exact ⟨i, e, em.ge, by rw [em]; exact harea0 0, ea, fun h => absurd h0 h⟩
    · obtain ⟨moi, e⟩ := h4 h0
      exact ⟨_, e, h1, h2, rfl, fun _ => rfl⟩
  · intro ts ts' i i' hle hi hi'
    obtain ⟨u, v, e1, e2, h⟩ := linInterp_antitone T W hT hn hlW hWdec hle
    rw [hmass _ _ _ e1 hi, hmass _ _ _ e2 hi']
    exact h
  · intro ts h
    obtain ⟨i, hi⟩ := hok ts
    obtain ⟨_, e⟩ := (linInterp_spec T W hT hn hlW).2.1 ts (h _ (List.head_mem hn))
    refine ⟨i, hi, ?_⟩
    rw [hmass _ _ _ e hi, List.head_eq_getElem, hWget]
  · intro ts h
    obtain ⟨i, hi⟩ := hok ts
    obtain ⟨_, e⟩ := (linInterp_spec T W hT hn hlW).2.2 ts (h _ (List.getLast_mem hn))
    refine ⟨i, hi, ?_⟩
    rw [hmass _ _ _ e hi, List.getLast_eq_getElem, hWget]
    exact hend _ (by omega)
  · intro j h
    obtain ⟨i, hi⟩ := hok T[j]
    have e := (linInterp_spec T W hT hn hlW).1 j h
    refine ⟨i, hi, ?_⟩
    rw [hmass _ _ _ e hi, List.getD_eq_getElem?_getD, List.getElem?_eq_getElem (by omega)]
    rfl

/-- **C31.** Oxidizer and fuel each: all of the initial mass is there at ignition, nothing after burnout, the mass never
increases, at every sample it is exactly the area under the rest of the flow curve, and its CG moves on the axis from the
initial to the final position in proportion to the burned mass. -/
theorem propellant_spec {h : MotorHeader K} {rows : List (MotorRow K)} {z f b : K} {m : Motor K} {off : K}
    (hm : Motor.build h rows z f b = .ok (m, off)) (hasc : rows.Pairwise (fun r s => r.t < s.t)) (hb : 0 < b)
    (hox : ∀ r ∈ rows, 0 ≤ r.ox) (hfu : ∀ r ∈ rows, 0 ≤ r.fuel) :
    PropSpec (rows.map (fun r => r.t * b))
      ((List.range rows.length).map (areaFrom (rows.map (fun r => r.t * b)) (rows.map (·.ox))))
      (h.initOx + z) (h.finalOx + z) (areaFrom (rows.map (fun r => r.t * b)) (rows.map (·.ox)) 0) m.oxInertia ∧
    PropSpec (rows.map (fun r => r.t * b))
      ((List.range rows.length).map (areaFrom (rows.map (fun r => r.t * b)) (rows.map (·.fuel))))
      (h.initFuel + z) (h.finalFuel + z) (areaFrom (rows.map (fun r => r.t * b)) (rows.map (·.fuel)) 0) m.fuelInertia := by
  obtain ⟨hr, hb0, _, ht, hth, how, hfw, hom, hfm, hoi, hfi, _, hh⟩ := build_ok hm
  have hT := times_ascending hb hasc
  have hn : rows.map (fun r => r.t * b) ≠ [] := by simpa using hr
  constructor
  · have e : m.oxInertia = propInertia (rows.map (fun r => r.t * b))
        ((List.range (rows.map (fun r => r.t * b)).length).map (areaFrom (rows.map (fun r => r.t * b)) (rows.map (·.ox))))
        (rows.map (·.oxMOI)) (areaFrom (rows.map (fun r => r.t * b)) (rows.map (·.ox)) 0) (h.initOx + z) (h.finalOx + z) := by
      funext ts; unfold Motor.oxInertia; rw [how, hom, hoi, hh, ht, List.length_map]
    rw [e]
    have := propInertia_spec (V := rows.map (·.ox)) (mois := rows.map (·.oxMOI)) hT hn (by simp)
      (by simpa using hox) (h.initOx + z) (h.finalOx + z)
    simpa only [List.length_map] using this
  · have e : m.fuelInertia = propInertia (rows.map (fun r => r.t * b))
        ((List.range (rows.map (fun r => r.t * b)).length).map (areaFrom (rows.map (fun r => r.t * b)) (rows.map (·.fuel))))
        (rows.map (·.fuelMOI)) (areaFrom (rows.map (fun r => r.t * b)) (rows.map (·.fuel)) 0) (h.initFuel + z)
        (h.finalFuel + z) := by
      funext ts; unfold Motor.fuelInertia; rw [hfw, hfm, hfi, hh, ht, List.length_map]
    rw [e]
    have := propInertia_spec (V := rows.map (·.fuel)) (mois := rows.map (·.fuelMOI)) hT hn (by simp)
      (by simpa using hfu) (h.initFuel + z) (h.finalFuel + z)
    simpa only [List.length_map] using this

/-- **C31 (part).** The motor's inertia is that of oxidizer plus fuel, as long as the two are not equal in every respect.
Missing, because false (`equal_propellants_violated`): the case of equal oxidizer and fuel. -/
theorem motor_inertia_partial {h : MotorHeader K} {rows : List (MotorRow K)} {z f b : K} {m : Motor K} {off : K}
    (hm : Motor.build h rows z f b = .ok (m, off)) (hasc : rows.Pairwise (fun r s => r.t < s.t)) (hb : 0 < b)
    (hox : ∀ r ∈ rows, 0 ≤ r.ox) (hfu : ∀ r ∈ rows, 0 ≤ r.fuel) (ign time : K) :
    ∃ ox fuel r, m.oxInertia (max 0 (time - ign)) = .ok ox ∧ m.fuelInertia (max 0 (time - ign)) = .ok fuel ∧
      Motor.inertia { m with ignition := ign } time = .ok r ∧
      (ox ≠ fuel → r.mass = ox.mass + fuel.mass ∧ Inertia.IsTotal [ox, fuel] r) ∧ (ox = fuel → r.mass = ox.mass) := by
  obtain ⟨s1, s2⟩ := propellant_spec hm hasc hb hox hfu
  obtain ⟨ox, e1, p1, _, a1, _⟩ := s1.total (max 0 (time - ign))
  obtain ⟨fuel, e2, p2, _, a2, _⟩ := s2.total (max 0 (time - ign))
  have hcg : ∀ i ∈ ox :: [fuel], i.about = i.cg := by
    intro i hi; simp only [List.mem_cons, List.not_mem_nil, or_false] at hi; rcases hi with rfl | rfl <;> assumption
  have hms : ∀ i ∈ ox :: [fuel], 0 ≤ i.mass := by
    intro i hi; simp only [List.mem_cons, List.not_mem_nil, or_false] at hi; rcases hi with rfl | rfl <;> assumption
  obtain ⟨c1, c2⟩ := Inertia.combine_partial ox [fuel] hcg hms
  have hev : ∀ r, ox.combine [fuel] = .ok r → Motor.inertia { m with ignition := ign } time = .ok r := by
    intro r hr
    have e1' : Motor.oxInertia { m with ignition := ign } (max 0 (time - ign)) = .ok ox := e1
    have e2' : Motor.fuelInertia { m with ignition := ign } (max 0 (time - ign)) = .ok fuel := e2
    unfold Motor.inertia
    simp only [e1', e2']
    exact hr
  by_cases heq : ox = fuel
  · obtain ⟨r, hr, ht⟩ := c2 (by simp [heq])
    refine ⟨ox, fuel, r, e1, e2, hev r hr, fun h => absurd heq h, fun _ => ?_⟩
    rw [ht.1, heq]; simp
  · obtain ⟨r, hr, ht⟩ := c1 (by simpa using heq)
    refine ⟨ox, fuel, r, e1, e2, hev r hr, fun _ => ⟨?_, ht⟩, fun h => absurd h heq⟩
    rw [ht.1]; simp

/-- **C31.** Setting the ignition time: burnout is reported at ignition plus the adjusted burn time, the rocket keeps the
latest burnout, and a fake value changes neither. -/
theorem ignition_update {h : MotorHeader K} {rows : List (MotorRow K)} {z f b : K} {m : Motor K} {off : K}
    (hm : Motor.build h rows z f b = .ok (m, off)) (hr : rows ≠ []) (t ro so : K) :
    m.updateIgnitionTime t false ro so = .ok ({ m with ignition := t },
      max ro (t + (rows.getLast hr).t * b), t + (rows.getLast hr).t * b) ∧
    m.updateIgnitionTime t true ro so = .ok ({ m with ignition := t }, ro, so) := by
  obtain ⟨_, hb0, _, ht, _⟩ := build_ok hm
  constructor
  · unfold Motor.updateIgnitionTime
    simp only [ht]
    rw [pyGet_neg_one _ (by simpa using hr)]
    simp [List.getLast_map]
  · rfl

end

/-! ## The thrust curve integrates to the total impulse (over the reals) -/

section
open MeasureTheory intervalIntegral

/-- The interpolated curve as a function -/
noncomputable def curve (X Y : List ℝ) (x : ℝ) : ℝ := (linInterp X Y x).toOption.getD 0

theorem integral_lineMap (a c y0 y1 : ℝ) (hac : a < c) :
    ∫ x in a..c, (AffineMap.lineMap y0 y1 ((x - a) / (c - a)) : ℝ) = (c - a) * (y0 + y1) / 2 := by
  have hne : c - a ≠ 0 := by linarith
  have : ∀ x, (AffineMap.lineMap y0 y1 ((x - a) / (c - a)) : ℝ) =
      (y1 - y0) / (c - a) * x + (y0 - a * (y1 - y0) / (c - a)) := by
    intro x
    simp only [AffineMap.lineMap_apply, vsub_eq_sub, vadd_eq_add, smul_eq_mul]
    field_simp
    ring
  simp only [this]
  rw [intervalIntegral.integral_add (Continuous.intervalIntegrable (by fun_prop) _ _)
    (Continuous.intervalIntegrable (by fun_prop) _ _), intervalIntegral.integral_const_mul, integral_id,
    intervalIntegral.integral_const, smul_eq_mul]
  field_simp
  ring

theorem curve_piece (X Y : List ℝ) (hs : X.Pairwise (· < ·)) (hl : X.length = Y.length) (i : Nat) (hi : i + 1 < X.length) :
    IntervalIntegrable (curve X Y) volume (X.getD i 0) (X.getD (i + 1) 0) ∧
    ∫ x in (X.getD i 0)..(X.getD (i + 1) 0), curve X Y x = trap X Y i := by
  have hd : X[i] < X[i + 1] := List.pairwise_iff_getElem.1 hs i (i + 1) (by omega) hi (by omega)
  have e1 : X.getD i 0 = X[i] := by
    rw [List.getD_eq_getElem?_getD, List.getElem?_eq_getElem (by omega : i < X.length)]; rfl
  have e2 : X.getD (i + 1) 0 = X[i + 1] := by rw [List.getD_eq_getElem?_getD, List.getElem?_eq_getElem hi]; rfl
  have e3 : Y.getD i 0 = Y[i] := by
    rw [List.getD_eq_getElem?_getD, List.getElem?_eq_getElem (by omega : i < Y.length)]; rfl
  have e4 : Y.getD (i + 1) 0 = Y[i + 1] := by
    rw [List.getD_eq_getElem?_getD, List.getElem?_eq_getElem (by omega : i + 1 < Y.length)]; rfl
  have hc : ∀ x, X[i] ≤ x → x ≤ X[i + 1] →
      curve X Y x = AffineMap.lineMap Y[i] Y[i + 1] ((x - X[i]) / (X[i + 1] - X[i])) := by
    intro x h1 h2
    unfold curve
    rw [linInterp_between X Y x i hs hl hi h1 h2]
    rfl
  have hcont : Continuous (fun x : ℝ => (AffineMap.lineMap Y[i] Y[i + 1] ((x - X[i]) / (X[i + 1] - X[i])) : ℝ)) := by
    simp only [AffineMap.lineMap_apply, vsub_eq_sub, vadd_eq_add, smul_eq_mul]
    fun_prop
  rw [e1, e2]
  constructor
  · apply (hcont.intervalIntegrable X[i] X[i + 1]).congr
    intro x hx
    rw [Set.uIoc_of_le hd.le] at hx
    exact (hc x hx.1.le hx.2).symm
  · rw [intervalIntegral.integral_congr (g := fun x : ℝ =>
      (AffineMap.lineMap Y[i] Y[i + 1] ((x - X[i]) / (X[i + 1] - X[i])) : ℝ)), integral_lineMap _ _ _ _ hd]
    · unfold trap; rw [e1, e2, e3, e4]
    · intro x hx
      rw [Set.uIcc_of_le hd.le] at hx
      exact hc x hx.1 hx.2

/-- The area used by the trapezoid rule is the integral of the interpolated curve. -/
theorem curve_integral (X Y : List ℝ) (hs : X.Pairwise (· < ·)) (hl : X.length = Y.length) (hn : X ≠ []) (j : Nat)
    (hj : j < X.length) :
    IntervalIntegrable (curve X Y) volume (X.getD j 0) (X.getLast hn) ∧
    ∫ x in (X.getD j 0)..(X.getLast hn), curve X Y x = areaFrom X Y j := by
  have hlast : X.getLast hn = X.getD (X.length - 1) 0 := by
    rw [List.getLast_eq_getElem, List.getD_eq_getElem?_getD, List.getElem?_eq_getElem]; rfl
  have hpos : 0 < X.length := List.length_pos_of_ne_nil hn
  rw [hlast]
  have hint : ∀ k ∈ Set.Ico j (X.length - 1), IntervalIntegrable (curve X Y) volume (X.getD k 0) (X.getD (k + 1) 0) := by
    intro k hk
    rw [Set.mem_Ico] at hk
    exact (curve_piece X Y hs hl k (by omega)).1
  constructor
  · exact IntervalIntegrable.trans_iterate_Ico (by omega) hint
  · unfold areaFrom
    rw [← intervalIntegral.sum_integral_adjacent_intervals_Ico (by omega) hint]
    apply Finset.sum_congr rfl
    intro k hk
    rw [Finset.mem_Ico] at hk
    exact (curve_piece X Y hs hl k (by omega)).2

/-- The thrust of a motor as a function of time -/
noncomputable def thrustFn (m : Motor ℝ) (t : ℝ) : ℝ := (m.thrustAt t).toOption.getD 0

/-- **C31.** Integrating the thrust from the first sample to any time after burnout gives the total impulse, hence the impulse
factor times the area under the curve of the file. -/
theorem thrust_integral {h : MotorHeader ℝ} {rows : List (MotorRow ℝ)} {z f b : ℝ} {m : Motor ℝ} {off : ℝ}
    (hm : Motor.build h rows z f b = .ok (m, off)) (hasc : rows.Pairwise (fun r s => r.t < s.t)) (hb : 0 < b)
    (hr : rows ≠ []) (h0 : 0 ≤ (rows.head hr).t) (ign late : ℝ) (hlate : ign + (rows.getLast hr).t * b ≤ late) :
    ∫ t in (ign + (rows.head hr).t * b)..late, thrustFn { m with ignition := ign } t = m.totalImpulse ∧
    m.totalImpulse = f * areaFrom (rows.map (·.t)) (rows.map (·.thrust)) 0 := by
  refine ⟨?_, impulse_scaled hm⟩
  obtain ⟨_, hb0, _, ht, hth, _⟩ := build_ok hm
  have hT := times_ascending hb hasc
  have hTn : rows.map (fun r => r.t * b) ≠ [] := by simpa using hr
  set A := (rows.head hr).t * b with hA
  set B := (rows.getLast hr).t * b with hB
  have hlen : 0 < rows.length := List.length_pos_of_ne_nil hr
  have hget0 : (rows.map (fun r => r.t * b)).getD 0 0 = A := by
    rw [List.getD_eq_getElem?_getD, List.getElem?_eq_getElem (by simpa using hlen)]
    simp [hA, List.head_eq_getElem]
  have hgetL : (rows.map (fun r => r.t * b)).getLast hTn = B := by rw [List.getLast_map]
  have hAB : A ≤ B := by
    apply mul_le_mul_of_nonneg_right _ hb.le
    rw [List.getLast_eq_getElem, List.head_eq_getElem]
    rcases (show 0 ≤ rows.length - 1 by omega).lt_or_eq with hlt | heq
    · exact (List.pairwise_iff_getElem.1 hasc 0 (rows.length - 1) hlen (by omega) hlt).le
    · simp [← heq]
  have hA0 : 0 ≤ A := mul_nonneg h0 hb.le
  have hfn : ∀ t, thrustFn { m with ignition := ign } t =
      if max 0 (t - ign) > B then 0 else curve (rows.map (fun r => r.t * b)) (rows.map (fun r => r.thrust * f / b)) (max 0 (t - ign)) := by
    intro t
    unfold thrustFn Motor.thrustAt
    simp only [ht, hth]
    rw [pyGet_neg_one _ hTn, hgetL]
    dsimp only
    have : ¬ (max 0 (t - ign) < 0) := not_lt.2 (le_max_left _ _)
    simp only [this, false_or]
    split
    · rfl
    · rfl
  obtain ⟨hint, hval⟩ := curve_integral (rows.map (fun r => r.t * b)) (rows.map (fun r => r.thrust * f / b)) hT (by simp) hTn 0
    (by simpa using hlen)
  rw [hget0, hgetL] at hint hval
  have hburn : Set.EqOn (fun t => curve (rows.map (fun r => r.t * b)) (rows.map (fun r => r.thrust * f / b)) (t - ign))
      (thrustFn { m with ignition := ign }) (Set.uIcc (ign + A) (ign + B)) := by
    intro t htm
    rw [Set.uIcc_of_le (by linarith)] at htm
    have h1 : max 0 (t - ign) = t - ign := max_eq_right (by linarith [htm.1])
    rw [hfn t, h1, if_neg (by linarith [htm.2])]
  have hafter : Set.EqOn (fun _ : ℝ => (0 : ℝ)) (thrustFn { m with ignition := ign }) (Set.uIoc (ign + B) late) := by
    intro t htm
    rw [Set.uIoc_of_le hlate] at htm
    have h1 : max 0 (t - ign) = t - ign := max_eq_right (by linarith [htm.1])
    rw [hfn t, h1, if_pos (by linarith [htm.1])]
  have hint1 : IntervalIntegrable (fun t => curve (rows.map (fun r => r.t * b)) (rows.map (fun r => r.thrust * f / b)) (t - ign))
      volume (ign + A) (ign + B) := by
    have := hint.comp_sub_right ign
    rwa [add_comm A, add_comm B] at this
  have i1 : IntervalIntegrable (thrustFn { m with ignition := ign }) volume (ign + A) (ign + B) :=
    hint1.congr (fun t htm => hburn (Set.uIoc_subset_uIcc htm))
  have i2 : IntervalIntegrable (thrustFn { m with ignition := ign }) volume (ign + B) late :=
    (intervalIntegrable_const (c := (0:ℝ))).congr hafter
  rw [← intervalIntegral.integral_add_adjacent_intervals i1 i2, ← intervalIntegral.integral_congr hburn,
    ← intervalIntegral.integral_congr_ae (f := fun _ : ℝ => (0:ℝ)) (Filter.Eventually.of_forall hafter),
    intervalIntegral.integral_comp_sub_right (fun x => curve (rows.map (fun r => r.t * b))
      (rows.map (fun r => r.thrust * f / b)) x), impulse_eq_area, ht, hth]
  simp only [add_sub_cancel_left, intervalIntegral.integral_zero, add_zero]
  exact hval

/-- **C31.** The mass flow integrates to the propellant: what is left at sample `j` is the integral of the interpolated flow
from there to burnout, and the initial mass is the integral over the whole burn. -/
theorem flow_integral {h : MotorHeader ℝ} {rows : List (MotorRow ℝ)} {z f b : ℝ} {m : Motor ℝ} {off : ℝ}
    (hm : Motor.build h rows z f b = .ok (m, off)) (hasc : rows.Pairwise (fun r s => r.t < s.t)) (hb : 0 < b)
    (hr : rows ≠ []) (j : Nat) (hj : j < rows.length) :
    m.oxWeights.getD j 0 = ∫ t in (rows[j].t * b)..((rows.getLast hr).t * b), curve m.times (rows.map (·.ox)) t ∧
    m.fuelWeights.getD j 0 = ∫ t in (rows[j].t * b)..((rows.getLast hr).t * b), curve m.times (rows.map (·.fuel)) t ∧
    m.oxMass = m.oxWeights.getD 0 0 ∧ m.fuelMass = m.fuelWeights.getD 0 0 := by
  obtain ⟨_, hb0, _, ht, hth, how, hfw, hom, hfm, _⟩ := build_ok hm
  have hT := times_ascending hb hasc
  have hTn : rows.map (fun r => r.t * b) ≠ [] := by simpa using hr
  have hgetL : (rows.map (fun r => r.t * b)).getLast hTn = (rows.getLast hr).t * b := by rw [List.getLast_map]
  have hgetj : (rows.map (fun r => r.t * b)).getD j 0 = rows[j].t * b := by
    rw [List.getD_eq_getElem?_getD, List.getElem?_eq_getElem (by simpa using hj)]; simp
  have h1 := (curve_integral (rows.map (fun r => r.t * b)) (rows.map (·.ox)) hT (by simp) hTn j (by simpa using hj)).2
  have h2 := (curve_integral (rows.map (fun r => r.t * b)) (rows.map (·.fuel)) hT (by simp) hTn j (by simpa using hj)).2
  rw [hgetL, hgetj] at h1 h2
  have hget : ∀ (g : Nat → ℝ) k, k < rows.length → ((List.range rows.length).map g).getD k 0 = g k := by
    intro g k hk
    rw [List.getD_eq_getElem?_getD, List.getElem?_eq_getElem (by simpa using hk)]; simp
  have hlen : 0 < rows.length := List.length_pos_of_ne_nil hr
  refine ⟨?_, ?_, ?_, ?_⟩
  · rw [how, hget _ _ hj, ht, h1]
  · rw [hfw, hget _ _ hj, ht, h2]
  · rw [how, hget _ _ hlen, hom]
  · rw [hfw, hget _ _ hlen, hfm]

end

/-! ## Violations and concrete cases -/

/-- A small motor: constant-ish thrust curve, two propellants. -/
def sampleRows : List (MotorRow ℚ) :=
  [⟨0, 100, 2, 1, ⟨1, 1, 0⟩, ⟨2, 2, 0⟩⟩, ⟨1, 120, 2, 1, ⟨1, 1, 0⟩, ⟨2, 2, 0⟩⟩, ⟨3, 0, 0, 0, ⟨0, 0, 0⟩, ⟨0, 0, 0⟩⟩]

def sampleHeader : MotorHeader ℚ := ⟨3, 2, 3, 2⟩

/-- The hypotheses of the C31 theorems hold for the sample motor with both factors applied. -/
example : sampleRows.Pairwise (fun r s => r.t < s.t) ∧ (∀ r ∈ sampleRows, 0 ≤ r.ox) ∧ (∀ r ∈ sampleRows, 0 ≤ r.fuel) ∧
    (0 : ℚ) < 5 / 4 := by decide +kernel

example : ((Motor.build sampleHeader sampleRows 0 (11 / 10) (5 / 4)).toOption.map
    (fun p => (p.1.times, p.1.oxMass, p.1.totalImpulse, p.2))) = some ([0, 5 / 4, 15 / 4], 5, 253, 3) := by decide +kernel

/-- **C31 violated.** A motor whose ignition lies in the future (an upper stage) pushes with the first value of its curve:
the test for times before ignition can never succeed. -/
theorem unlit_motor_pushes_violated :
    ∃ (h : MotorHeader ℚ) (rows : List (MotorRow ℚ)) (m : Motor ℚ) (off : ℚ), Motor.build h rows 0 1 1 = .ok (m, off) ∧
      Motor.force { m with ignition := 1000000000 } 5 = .ok ⟨⟨0, 0, 100⟩, 0, 0⟩ := by
  obtain ⟨⟨m, off⟩, hm⟩ := (build_total sampleHeader sampleRows 0 1 1).2 (by decide +kernel)
  refine ⟨sampleHeader, sampleRows, m, off, hm, ?_⟩
  rw [thrust_before_ignition hm (by decide +kernel) (by norm_num) 1000000000 5 (by decide +kernel) (by norm_num)
    (by decide +kernel)]
  decide +kernel

/-- **C31 violated.** Equal oxidizer and fuel columns and CGs: the motor weighs half of its propellant. -/
theorem equal_propellants_violated :
    ∃ (h : MotorHeader ℚ) (rows : List (MotorRow ℚ)) (m : Motor ℚ) (off : ℚ), Motor.build h rows 0 1 1 = .ok (m, off) ∧
      m.oxMass = 1 ∧ m.fuelMass = 1 ∧ (m.inertia 0).toOption.map (·.mass) = some 1 := by
  obtain ⟨⟨m, off⟩, hm⟩ := (build_total (K := ℚ) ⟨1, 1, 1, 1⟩ [⟨0, 5, 1, 1, 0, 0⟩, ⟨1, 5, 1, 1, 0, 0⟩] 0 1 1).2
    (by decide +kernel)
  refine ⟨_, _, m, off, hm, ?_⟩
  have h2 : (Motor.build (K := ℚ) ⟨1, 1, 1, 1⟩ [⟨0, 5, 1, 1, 0, 0⟩, ⟨1, 5, 1, 1, 0, 0⟩] 0 1 1).toOption.map
      (fun p => (p.1.oxMass, p.1.fuelMass, (p.1.inertia 0).toOption.map (·.mass))) = some (1, 1, some 1) := by
    decide +kernel
  rw [hm] at h2
  simpa [Except.toOption] using h2

/-- **C31 violated.** The shut-off time handed to the stage at start-up ignores the burn time factor: with factor 2 the stage
believes the motor is out while it still has half of its burn to go. -/
theorem shutoff_unadjusted_violated :
    ∃ (h : MotorHeader ℚ) (rows : List (MotorRow ℚ)) (m : Motor ℚ) (off : ℚ), Motor.build h rows 0 1 2 = .ok (m, off) ∧
      off = 3 ∧ (m.thrustAt 4).toOption = some 30 := by
  obtain ⟨⟨m, off⟩, hm⟩ := (build_total sampleHeader sampleRows 0 1 2).2 (by decide +kernel)
  refine ⟨_, _, m, off, hm, ?_⟩
  have h2 : (Motor.build sampleHeader sampleRows 0 1 2).toOption.map
      (fun p => (p.2, (p.1.thrustAt 4).toOption)) = some (3, some 30) := by
    decide +kernel
  rw [hm] at h2
  simpa [Except.toOption] using h2

end Mapleaf.Rocket
