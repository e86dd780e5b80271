import Verif.ENV.AtmModel
import Verif.Motion.InterpProps
import Mathlib.Analysis.SpecialFunctions.Pow.Deriv
import Mathlib.Analysis.Calculus.Deriv.MeanValue
import Mathlib.Tactic.IntervalCases

/-!
# C37: the standard atmosphere
-/

namespace Mapleaf.ENV.Atm
open Mapleaf.Motion Set

/-- base altitude and lapse rate of a layer -/
noncomputable def hgt (i : Nat) : ℝ := heights.getD i 0
noncomputable def lapse (i : Nat) : ℝ := rates.getD i 0

/-- temperature and pressure at the base of layer `i` -/
noncomputable def baseT : Nat → ℝ
  | 0 => T0 + lapse 0 * hgt 0
  | i + 1 => baseT i + lapse i * (hgt (i + 1) - hgt i)
noncomputable def baseP : Nat → ℝ
  | 0 => ((T0 + lapse 0 * hgt 0) / T0) ^ (-G * M / (R * lapse 0 * 1000)) * p0
  | i + 1 => layerPressure (baseT i) (baseP i) (lapse i) (hgt (i + 1) - hgt i)

theorem heights_get (j : Nat) (h : j < heights.length) : heights[j] = hgt j := by
  unfold hgt
  rw [List.getD_eq_getElem?_getD, List.getElem?_eq_getElem h]
  rfl

theorem pyGet_heights (i : Nat) (h : i < 8) : pyGet heights (i : Int) = .ok (hgt i) := by
  rw [pyGet_nat heights i (by simpa [heights] using h)]
  congr 1
  unfold hgt
  rw [List.getD_eq_getElem?_getD, List.getElem?_eq_getElem (by simpa [heights] using h)]
  rfl

theorem pyGet_rates (i : Nat) (h : i < 8) : pyGet rates (i : Int) = .ok (lapse i) := by
  rw [pyGet_nat rates i (by simpa [rates] using h)]
  congr 1
  unfold lapse
  rw [List.getD_eq_getElem?_getD, List.getElem?_eq_getElem (by simpa [rates] using h)]
  rfl

/-- The 8 values one instance appends. -/
noncomputable def blockT : List ℝ := (List.range 8).map baseT
noncomputable def blockP : List ℝ := (List.range 8).map baseP

noncomputable def store (n : Nat) : AtmStore := ⟨(List.replicate n blockT).flatten, (List.replicate n blockP).flatten⟩

theorem prefix_get (f : Nat → ℝ) (n i j : Nat) (hj : j < i) (hi : i ≤ 8) :
    pyGet ((List.replicate n ((List.range 8).map f)).flatten ++ (List.range i).map f) (j : Int) = .ok (f j) := by
  cases n with
  | zero =>
    rw [pyGet_nat _ _ (by simpa using hj)]
    simp
  | succ n =>
    rw [pyGet_nat _ _ (by simp [List.replicate_succ]; omega)]
    simp only [List.replicate_succ, List.flatten_cons, List.append_assoc]
    rw [List.getElem_append_left (by simp; omega)]
    simp

theorem suffix_get (f : Nat → ℝ) (l : List ℝ) (i : Nat) :
    pyGet (l ++ (List.range (i + 1)).map f) (-1) = .ok (f i) := by
  rw [pyGet_neg_one _ (by simp [List.range_succ])]
  simp [List.range_succ]

theorem loop_ok (n : Nat) (k : Nat) : ∀ i, 1 ≤ i → i + k = 8 →
    initLoop ((List.range' i k)) ⟨(List.replicate n blockT).flatten ++ (List.range i).map baseT,
      (List.replicate n blockP).flatten ++ (List.range i).map baseP⟩ =
    .ok ⟨(List.replicate n blockT).flatten ++ blockT, (List.replicate n blockP).flatten ++ blockP⟩ := by
  induction k with
  | zero =>
    intro i _ h
    have : i = 8 := by omega
    subst this
    rfl
  | succ k ih =>
    intro i h1 h
    obtain ⟨j, rfl⟩ : ∃ j, i = j + 1 := ⟨i - 1, by omega⟩
    have e : (((j + 1 : Nat) : Int) - 1) = (j : Int) := by omega
    have hstep : initStep ⟨(List.replicate n blockT).flatten ++ (List.range (j + 1)).map baseT,
        (List.replicate n blockP).flatten ++ (List.range (j + 1)).map baseP⟩ (j + 1) =
        .ok ⟨(List.replicate n blockT).flatten ++ (List.range (j + 2)).map baseT,
          (List.replicate n blockP).flatten ++ (List.range (j + 2)).map baseP⟩ := by
      unfold initStep
      simp only [e]
      rw [suffix_get, pyGet_rates j (by omega), pyGet_heights (j + 1) (by omega), pyGet_heights j (by omega)]
      unfold blockP
      rw [prefix_get baseP n (j + 1) j (by omega) (by omega)]
      simp only [List.append_assoc]
      rw [List.range_succ (n := j + 1), List.map_append, List.map_append]
      rfl
    rw [List.range'_succ (s := j + 1) (n := k), initLoop, hstep]
    exact ih (j + 2) (by omega) (by omega)

theorem init_store (n : Nat) : init (store n) = .ok (store (n + 1)) := by
  unfold init initFirst
  have h0 := pyGet_rates 0 (by omega)
  have h1 := pyGet_heights 0 (by omega)
  rw [Nat.cast_zero] at h0 h1
  rw [h0, h1]
  simp only
  have hr : (List.range heights.length).drop 1 = List.range' 1 7 := by simp [heights]
  rw [hr]
  have := loop_ok n 7 1 (by omega) (by omega)
  have ht : (store n).temps ++ [T0 + lapse 0 * hgt 0] = (List.replicate n blockT).flatten ++ (List.range 1).map baseT := rfl
  have hp : (store n).press ++ [((T0 + lapse 0 * hgt 0) / T0) ^ (-G * M / (R * lapse 0 * 1000)) * p0] =
      (List.replicate n blockP).flatten ++ (List.range 1).map baseP := rfl
  rw [ht, hp, this]
  unfold store
  simp only [List.replicate_succ', List.flatten_append, List.flatten_cons, List.flatten_nil, List.append_nil]

theorem afterInstances_store (n : Nat) : afterInstances n = .ok (store n) := by
  induction n with
  | zero => rfl
  | succ n ih => rw [afterInstances, ih]; exact init_store n

theorem store_get (f : Nat → ℝ) (n i : Nat) (h : i < 8) :
    pyGet (List.replicate (n + 1) ((List.range 8).map f)).flatten (i : Int) = .ok (f i) := by
  have := prefix_get f n 8 i h (le_refl _)
  rwa [show (List.replicate (n + 1) ((List.range 8).map f)).flatten =
    (List.replicate n ((List.range 8).map f)).flatten ++ (List.range 8).map f by
      simp [List.replicate_succ', List.flatten_append]]

theorem store_last (f : Nat → ℝ) (n : Nat) :
    pyGet (List.replicate (n + 1) ((List.range 8).map f)).flatten (-1) = .ok (f 7) := by
  have := suffix_get f (List.replicate n ((List.range 8).map f)).flatten 7
  rwa [show (List.replicate (n + 1) ((List.range 8).map f)).flatten =
    (List.replicate n ((List.range 8).map f)).flatten ++ (List.range 8).map f by
      simp [List.replicate_succ', List.flatten_append]]

/-- **C37.** Creating instances never fails, and the properties reported at any altitude whatsoever do not depend on how
many instances were created before, although all of them append to the same two lists. -/
theorem instances_irrelevant (n : Nat) (z : ℝ) :
    ∃ s1 s2, afterInstances 1 = .ok s1 ∧ afterInstances (n + 1) = .ok s2 ∧
      getAirProperties s2 z = getAirProperties s1 z ∧ s2.temps.length = 8 * (n + 1) := by
  refine ⟨store 1, store (n + 1), afterInstances_store 1, afterInstances_store (n + 1), ?_, ?_⟩
  · unfold getAirProperties
    split
    · rfl
    · unfold airAt
      generalize geopotential z = H0
      dsimp only
      generalize (if H0 ≥ 86000 then (86000 : ℝ) else H0) = H
      have hb : bisect heights H ≤ 8 := by
        have hs : heights.Pairwise (· ≤ ·) := by unfold heights; simp; norm_num
        have := (bisect_spec heights H hs).1
        simpa [heights] using this
      rcases Nat.eq_zero_or_pos (bisect heights H) with h | h
      · rw [h]
        simp only [Nat.cast_zero, zero_sub]
        unfold store blockT blockP
        rw [store_last baseT n, store_last baseT 0, store_last baseP n, store_last baseP 0]
      · have e : ((bisect heights H : Int) - 1) = ((bisect heights H - 1 : Nat) : Int) := by omega
        rw [e]
        unfold store blockT blockP
        rw [store_get baseT n _ (by omega), store_get baseT 0 _ (by omega), store_get baseP n _ (by omega),
          store_get baseP 0 _ (by omega)]
  · have : ∀ n, (store n).temps.length = 8 * n := by
      intro n
      simp [store, blockT]
      ring
    exact this _

/-! ## The profile -/

/-- temperature and pressure in layer `i`, as functions of the geopotential altitude -/
noncomputable def layerT (i : Nat) (H : ℝ) : ℝ := baseT i + lapse i * (H - hgt i)
noncomputable def layerP (i : Nat) (H : ℝ) : ℝ := layerPressure (baseT i) (baseP i) (lapse i) (H - hgt i)

/-- the layers' upper ends; the last one ends at 86 km -/
noncomputable def top (i : Nat) : ℝ := if i = 7 then 86000 else hgt (i + 1)

theorem hgt_vals : hgt 0 = -2000 ∧ hgt 1 = 11000 ∧ hgt 2 = 20000 ∧ hgt 3 = 32000 ∧ hgt 4 = 47000 ∧ hgt 5 = 51000 ∧
    hgt 6 = 71000 ∧ hgt 7 = 84852 := by
  simp [hgt, heights]

theorem lapse_vals : lapse 0 = -6.5e-3 ∧ lapse 1 = 0 ∧ lapse 2 = 1.0e-3 ∧ lapse 3 = 2.8e-3 ∧ lapse 4 = 0 ∧
    lapse 5 = -2.8e-3 ∧ lapse 6 = -2.0e-3 ∧ lapse 7 = 0 := by
  simp [lapse, rates]

/-- The base temperatures, as tabulated for the US Standard Atmosphere 1976. -/
theorem baseT_vals : baseT 0 = 301.15 ∧ baseT 1 = 216.65 ∧ baseT 2 = 216.65 ∧ baseT 3 = 228.65 ∧ baseT 4 = 270.65 ∧
    baseT 5 = 270.65 ∧ baseT 6 = 214.65 ∧ baseT 7 = 186.946 := by
  obtain ⟨h0, h1, h2, h3, h4, h5, h6, h7⟩ := hgt_vals
  obtain ⟨l0, l1, l2, l3, l4, l5, l6, l7⟩ := lapse_vals
  simp only [baseT, h0, h1, h2, h3, h4, h5, h6, h7, l0, l1, l2, l3, l4, l5, l6, T0]
  norm_num

/-- An altitude in layer `i` is looked up there. -/
theorem airAt_layer (n i : Nat) (hi : i < 8) (H : ℝ) (h1 : hgt i ≤ H) (h2 : H < top i) :
    airAt (store (n + 1)) H = .ok ⟨layerT i H, layerP i H, M * layerP i H / (R * layerT i H * 1000),
      1.457e-6 * layerT i H ^ (1.5 : ℝ) / (layerT i H + 110.4)⟩ := by
  have hs : heights.Pairwise (· ≤ ·) := by unfold heights; simp; norm_num
  obtain ⟨v0, v1, v2, v3, v4, v5, v6, v7⟩ := hgt_vals
  have h86 : H < 86000 := by
    unfold top at h2
    interval_cases i <;> simp_all <;> linarith
  have hb : bisect heights H = i + 1 := by
    apply bisect_eq_of hs (by simp [heights]; omega)
    · intro j hj hj'
      have hj8 : j < 8 := by simpa [heights] using hj
      refine (heights_get j hj).le.trans ?_
      refine le_trans ?_ h1
      interval_cases i <;> interval_cases j <;> simp_all <;> norm_num
    · intro j hj hj'
      have hj8 : j < 8 := by simpa [heights] using hj
      refine lt_of_lt_of_le ?_ (heights_get j hj).ge
      refine lt_of_lt_of_le h2 ?_
      unfold top
      interval_cases i <;> interval_cases j <;> simp_all <;> norm_num
  unfold airAt
  have c : ¬ (H ≥ 86000) := not_le.2 h86
  have e : (((i + 1 : Nat) : Int) - 1) = (i : Int) := by omega
  simp only [if_neg c, hb, e]
  rw [pyGet_heights i hi, pyGet_rates i hi]
  unfold store blockT blockP
  rw [store_get baseT n i hi, store_get baseP n i hi]
  rfl

theorem layerP_base (i : Nat) (hT : baseT i ≠ 0) : layerP i (hgt i) = baseP i := by
  unfold layerP layerPressure
  rw [sub_self]
  split
  · simp
  · rw [mul_zero, add_zero, div_self hT]; simp

theorem layerP_top (i : Nat) : layerP i (hgt (i + 1)) = baseP (i + 1) := rfl
theorem layerT_top (i : Nat) : layerT i (hgt (i + 1)) = baseT (i + 1) := rfl
theorem layerT_base (i : Nat) : layerT i (hgt i) = baseT i := by simp [layerT]

/-- The temperature is positive everywhere in a layer. -/
theorem layerT_pos (i : Nat) (hi : i < 8) (H : ℝ) (h1 : hgt i ≤ H) (h2 : H ≤ top i) : 0 < layerT i H ∧ 0 < baseT i := by
  obtain ⟨h0, h1', h2', h3, h4, h5, h6, h7⟩ := hgt_vals
  obtain ⟨l0, l1, l2, l3, l4, l5, l6, l7⟩ := lapse_vals
  obtain ⟨t0, t1, t2, t3, t4, t5, t6, t7⟩ := baseT_vals
  unfold layerT
  unfold top at h2
  interval_cases i <;> simp only [h0, h1', h2', h3, h4, h5, h6, h7, l0, l1, l2, l3, l4, l5, l6, l7, t0, t1, t2, t3, t4, t5, t6, t7] at h1 h2 ⊢ <;>
    norm_num at h2 ⊢ <;> linarith

theorem baseP_pos : ∀ i, i < 8 → 0 < baseP i := by
  intro i
  induction i with
  | zero =>
    intro _
    unfold baseP
    obtain ⟨h0, _⟩ := hgt_vals
    obtain ⟨l0, _⟩ := lapse_vals
    have : (0 : ℝ) < (T0 + lapse 0 * hgt 0) / T0 := by rw [h0, l0]; unfold T0; norm_num
    exact mul_pos (Real.rpow_pos_of_pos this _) (by unfold p0; norm_num)
  | succ i ih =>
    intro hi
    have hp := ih (by omega)
    obtain ⟨v0, v1, v2, v3, v4, v5, v6, v7⟩ := hgt_vals
    have hi' : i < 7 := by omega
    have hle : hgt i ≤ hgt (i + 1) := by interval_cases i <;> simp_all <;> norm_num
    obtain ⟨hT, hB⟩ := layerT_pos i (by omega) (hgt (i + 1)) hle (by
      unfold top; rw [if_neg (by omega)])
    show 0 < layerPressure (baseT i) (baseP i) (lapse i) (hgt (i + 1) - hgt i)
    unfold layerPressure
    split
    · positivity
    · exact mul_pos (Real.rpow_pos_of_pos (div_pos hT hB) _) hp

theorem layerP_pos (i : Nat) (hi : i < 8) (H : ℝ) (h1 : hgt i ≤ H) (h2 : H ≤ top i) : 0 < layerP i H := by
  obtain ⟨hT, hB⟩ := layerT_pos i hi H h1 h2
  have hp := baseP_pos i hi
  unfold layerP layerPressure
  split
  · positivity
  · exact mul_pos (Real.rpow_pos_of_pos (div_pos hT hB) _) hp

/-- Within a layer the pressure obeys the hydrostatic equation with the density of an ideal gas. -/
theorem layerP_deriv (i : Nat) (hi : i < 8) (H : ℝ) (h1 : hgt i ≤ H) (h2 : H ≤ top i) :
    HasDerivAt (layerP i) (-(G * (M * layerP i H / (R * layerT i H * 1000)))) H := by
  obtain ⟨hT, hB⟩ := layerT_pos i hi H h1 h2
  have hR : R ≠ 0 := by unfold R; norm_num
  unfold layerP layerPressure
  by_cases hL : lapse i = 0
  · simp only [if_pos hL]
    have hd : HasDerivAt (fun x : ℝ => -G * M * (x - hgt i) / (R * baseT i * 1000)) (-G * M / (R * baseT i * 1000)) H := by
      have := (((hasDerivAt_id H).sub_const (hgt i)).const_mul (-G * M)).div_const (R * baseT i * 1000)
      simpa using this
    refine (hd.exp.mul_const (baseP i)).congr_deriv ?_
    unfold layerT
    rw [hL, zero_mul, add_zero]
    field_simp
  · simp only [if_neg hL]
    have hq : 0 < (baseT i + lapse i * (H - hgt i)) / baseT i := div_pos hT hB
    have hd : HasDerivAt (fun x : ℝ => (baseT i + lapse i * (x - hgt i)) / baseT i) (lapse i / baseT i) H := by
      have := ((((hasDerivAt_id H).sub_const (hgt i)).const_mul (lapse i)).const_add (baseT i)).div_const (baseT i)
      simpa using this
    have hpow := hd.rpow_const (p := -G * M / (R * lapse i * 1000)) (Or.inl hq.ne')
    refine (hpow.mul_const (baseP i)).congr_deriv ?_
    rw [Real.rpow_sub_one hq.ne']
    have hT' : baseT i + lapse i * (H - hgt i) ≠ 0 := hT.ne'
    unfold layerT
    field_simp

/-- **The profile**: temperature and pressure as functions of the geopotential altitude, read off the program. -/
noncomputable def profile (H : ℝ) : Air :=
  match airAt (store 1) H with
  | .ok a => a
  | .error _ => ⟨0, 0, 0, 0⟩

theorem profile_layer (i : Nat) (hi : i < 8) (H : ℝ) (h1 : hgt i ≤ H) (h2 : H < top i) :
    (profile H).temp = layerT i H ∧ (profile H).pressure = layerP i H := by
  unfold profile
  rw [airAt_layer 0 i hi H h1 h2]
  exact ⟨rfl, rfl⟩

/-- At and above 86 km. -/
theorem airAt_top (n : Nat) (H : ℝ) (h : 86000 ≤ H) :
    airAt (store (n + 1)) H = .ok ⟨layerT 7 86000, layerP 7 86000, 0,
      1.457e-6 * layerT 7 86000 ^ (1.5 : ℝ) / (layerT 7 86000 + 110.4)⟩ := by
  have hs : heights.Pairwise (· ≤ ·) := by unfold heights; simp; norm_num
  obtain ⟨v0, v1, v2, v3, v4, v5, v6, v7⟩ := hgt_vals
  have hb : bisect heights (86000 : ℝ) = 8 := by
    apply bisect_eq_of hs (by simp [heights])
    · intro j hj _
      have hj8 : j < 8 := by simpa [heights] using hj
      refine (heights_get j hj).le.trans ?_
      interval_cases j <;> simp_all <;> norm_num
    · intro j hj hj'
      have hj8 : j < 8 := by simpa [heights] using hj
      omega
  unfold airAt
  simp only [ge_iff_le, if_pos h, hb, le_refl, if_true]
  have e : (((8 : Nat) : Int) - 1) = ((7 : Nat) : Int) := by omega
  rw [e, pyGet_heights 7 (by omega), pyGet_rates 7 (by omega)]
  unfold store blockT blockP
  rw [store_get baseT n 7 (by omega), store_get baseP n 7 (by omega)]
  rfl

/-- On each closed layer the profile is the layer's own function: the joins fit. -/
theorem profile_closed (i : Nat) (hi : i < 8) (H : ℝ) (h1 : hgt i ≤ H) (h2 : H ≤ top i) :
    (profile H).temp = layerT i H ∧ (profile H).pressure = layerP i H := by
  rcases h2.lt_or_eq with h | h
  · exact profile_layer i hi H h1 h
  · by_cases h7 : i = 7
    · subst h7
      have ht : H = 86000 := by rw [h]; simp [top]
      unfold profile
      rw [airAt_top 0 H ht.ge, ht]
      exact ⟨rfl, rfl⟩
    · have ht : H = hgt (i + 1) := by rw [h]; simp [top, h7]
      obtain ⟨v0, v1, v2, v3, v4, v5, v6, v7⟩ := hgt_vals
      have hlt : hgt (i + 1) < top (i + 1) := by
        unfold top
        have : i < 7 := by omega
        clear ht h h1 h7
        interval_cases i <;> simp [v1, v2, v3, v4, v5, v6, v7] <;> norm_num
      have hbT : baseT (i + 1) ≠ 0 := (layerT_pos (i + 1) (by omega) (hgt (i + 1)) le_rfl hlt.le).2.ne'
      rw [ht]
      obtain ⟨p1, p2⟩ := profile_layer (i + 1) (by omega) (hgt (i + 1)) le_rfl hlt
      rw [p1, p2, layerT_base, layerP_base _ hbT]
      exact ⟨rfl, rfl⟩

/-- right-hand side of the hydrostatic equation -/
noncomputable def slope (H : ℝ) : ℝ := -(G * (M * (profile H).pressure / (R * (profile H).temp * 1000)))

theorem layer_within (i : Nat) (hi : i < 8) (H : ℝ) (h : H ∈ Icc (hgt i) (top i)) :
    HasDerivWithinAt (fun H => (profile H).pressure) (slope H) (Icc (hgt i) (top i)) H := by
  have hd := layerP_deriv i hi H h.1 h.2
  obtain ⟨p1, p2⟩ := profile_closed i hi H h.1 h.2
  unfold slope
  rw [p1, p2]
  refine hd.hasDerivWithinAt.congr (fun x hx => (profile_closed i hi x hx.1 hx.2).2) p2

theorem glue {f d : ℝ → ℝ} {a b c : ℝ} (hab : a ≤ b) (hbc : b ≤ c)
    (h1 : ∀ x ∈ Icc a b, HasDerivWithinAt f (d x) (Icc a b) x)
    (h2 : ∀ x ∈ Icc b c, HasDerivWithinAt f (d x) (Icc b c) x) :
    ∀ x ∈ Icc a c, HasDerivWithinAt f (d x) (Icc a c) x := by
  have out : ∀ (s : Set ℝ) (x : ℝ), IsClosed s → (∀ x ∈ s, HasDerivWithinAt f (d x) s x) → HasDerivWithinAt f (d x) s x := by
    intro s x hs h
    by_cases hx : x ∈ s
    · exact h x hx
    · have : HasFDerivWithinAt f (ContinuousLinearMap.toSpanSingleton ℝ (d x)) s x :=
        HasFDerivWithinAt.of_notMem_closure (by rwa [hs.closure_eq])
      exact this.hasDerivWithinAt.congr_deriv (by simp)
  intro x _
  rw [← Icc_union_Icc_eq_Icc hab hbc]
  exact (out _ x isClosed_Icc h1).union (out _ x isClosed_Icc h2)

/-- **C37.** From 2 km below to 86 km above sea level (geopotential) the pressure obeys the hydrostatic equation
dP/dH = −g ρ with ρ the density of an ideal gas at the reported temperature and pressure — across all layer boundaries. At
sea level it is 101325 Pa and the temperature 288.15 K. -/
theorem hydrostatic :
    (∀ H ∈ Icc (-2000 : ℝ) 86000,
      HasDerivWithinAt (fun H => (profile H).pressure) (slope H) (Icc (-2000) 86000) H) ∧
    (profile 0).pressure = 101325 ∧ (profile 0).temp = 288.15 := by
  obtain ⟨v0, v1, v2, v3, v4, v5, v6, v7⟩ := hgt_vals
  have L := fun i hi => layer_within i hi
  constructor
  · have t : ∀ i, i < 7 → top i = hgt (i + 1) := by intro i h; simp [top]; omega
    have t7 : top 7 = 86000 := by simp [top]
    have l0 := L 0 (by omega); have l1 := L 1 (by omega); have l2 := L 2 (by omega); have l3 := L 3 (by omega)
    have l4 := L 4 (by omega); have l5 := L 5 (by omega); have l6 := L 6 (by omega); have l7 := L 7 (by omega)
    rw [t 0 (by omega), v0, v1] at l0
    rw [t 1 (by omega), v1, v2] at l1
    rw [t 2 (by omega), v2, v3] at l2
    rw [t 3 (by omega), v3, v4] at l3
    rw [t 4 (by omega), v4, v5] at l4
    rw [t 5 (by omega), v5, v6] at l5
    rw [t 6 (by omega), v6, v7] at l6
    rw [t7, v7] at l7
    have g1 := glue (by norm_num) (by norm_num) l0 l1
    have g2 := glue (by norm_num) (by norm_num) g1 l2
    have g3 := glue (by norm_num) (by norm_num) g2 l3
    have g4 := glue (by norm_num) (by norm_num) g3 l4
    have g5 := glue (by norm_num) (by norm_num) g4 l5
    have g6 := glue (by norm_num) (by norm_num) g5 l6
    exact glue (by norm_num) (by norm_num) g6 l7
  · obtain ⟨p1, p2⟩ := profile_layer 0 (by omega) 0 (by rw [v0]; norm_num) (by simp [top, v1])
    obtain ⟨t0, _⟩ := baseT_vals
    obtain ⟨e0, _⟩ := lapse_vals
    have hL : lapse 0 ≠ 0 := by rw [e0]; norm_num
    rw [p1, p2]
    constructor
    · unfold layerP layerPressure
      rw [if_neg hL]
      unfold baseP
      have h1 : T0 + lapse 0 * hgt 0 = baseT 0 := rfl
      rw [h1, ← mul_assoc, ← Real.mul_rpow]
      · have : (baseT 0 + lapse 0 * (0 - hgt 0)) / baseT 0 * (baseT 0 / T0) = 1 := by
          rw [t0, e0, v0]; unfold T0; norm_num
        rw [this, Real.one_rpow]
        unfold p0; norm_num
      · rw [t0, e0, v0]; norm_num
      · rw [t0]; unfold T0; norm_num
    · unfold layerT
      rw [t0, e0, v0]; norm_num

theorem profile_pos (H : ℝ) (h : H ∈ Icc (-2000 : ℝ) 86000) : 0 < (profile H).temp ∧ 0 < (profile H).pressure := by
  obtain ⟨v0, v1, v2, v3, v4, v5, v6, v7⟩ := hgt_vals
  have : ∃ i, i < 8 ∧ hgt i ≤ H ∧ H ≤ top i := by
    obtain ⟨h1, h2⟩ := h
    have t : ∀ i, i < 7 → top i = hgt (i + 1) := by intro i h; simp [top]; omega
    have t7 : top 7 = 86000 := by simp [top]
    by_cases c1 : H ≤ 11000
    · exact ⟨0, by omega, by rw [v0]; exact h1, by rw [t 0 (by omega), v1]; exact c1⟩
    by_cases c2 : H ≤ 20000
    · exact ⟨1, by omega, by rw [v1]; linarith, by rw [t 1 (by omega), v2]; exact c2⟩
    by_cases c3 : H ≤ 32000
    · exact ⟨2, by omega, by rw [v2]; linarith, by rw [t 2 (by omega), v3]; exact c3⟩
    by_cases c4 : H ≤ 47000
    · exact ⟨3, by omega, by rw [v3]; linarith, by rw [t 3 (by omega), v4]; exact c4⟩
    by_cases c5 : H ≤ 51000
    · exact ⟨4, by omega, by rw [v4]; linarith, by rw [t 4 (by omega), v5]; exact c5⟩
    by_cases c6 : H ≤ 71000
    · exact ⟨5, by omega, by rw [v5]; linarith, by rw [t 5 (by omega), v6]; exact c6⟩
    by_cases c7 : H ≤ 84852
    · exact ⟨6, by omega, by rw [v6]; linarith, by rw [t 6 (by omega), v7]; exact c7⟩
    · exact ⟨7, by omega, by rw [v7]; linarith, by rw [t7]; exact h2⟩
  obtain ⟨i, hi, h1, h2⟩ := this
  obtain ⟨p1, p2⟩ := profile_closed i hi H h1 h2
  rw [p1, p2]
  exact ⟨(layerT_pos i hi H h1 h2).1, layerP_pos i hi H h1 h2⟩

/-- **C37.** The temperature profile: continuous, and linear on each layer with the tabulated base temperatures and
lapse rates. -/
theorem temperature_continuous : ContinuousOn (fun H => (profile H).temp) (Icc (-2000) 86000) := by
  obtain ⟨v0, v1, v2, v3, v4, v5, v6, v7⟩ := hgt_vals
  have L : ∀ i, i < 8 → ContinuousOn (fun H => (profile H).temp) (Icc (hgt i) (top i)) := by
    intro i hi
    have : ContinuousOn (layerT i) (Icc (hgt i) (top i)) := by unfold layerT; fun_prop
    exact this.congr (fun x hx => (profile_closed i hi x hx.1 hx.2).1)
  have gl : ∀ a b c : ℝ, a ≤ b → b ≤ c → ContinuousOn (fun H => (profile H).temp) (Icc a b) →
      ContinuousOn (fun H => (profile H).temp) (Icc b c) → ContinuousOn (fun H => (profile H).temp) (Icc a c) := by
    intro a b c hab hbc h1 h2
    rw [← Icc_union_Icc_eq_Icc hab hbc]
    exact h1.union_of_isClosed h2 isClosed_Icc isClosed_Icc
  have t : ∀ i, i < 7 → top i = hgt (i + 1) := by intro i h; simp [top]; omega
  have t7 : top 7 = 86000 := by simp [top]
  have l0 := L 0 (by omega); have l1 := L 1 (by omega); have l2 := L 2 (by omega); have l3 := L 3 (by omega)
  have l4 := L 4 (by omega); have l5 := L 5 (by omega); have l6 := L 6 (by omega); have l7 := L 7 (by omega)
  rw [t 0 (by omega), v0, v1] at l0
  rw [t 1 (by omega), v1, v2] at l1
  rw [t 2 (by omega), v2, v3] at l2
  rw [t 3 (by omega), v3, v4] at l3
  rw [t 4 (by omega), v4, v5] at l4
  rw [t 5 (by omega), v5, v6] at l5
  rw [t 6 (by omega), v6, v7] at l6
  rw [t7, v7] at l7
  have g1 := gl _ _ _ (by norm_num) (by norm_num) l0 l1
  have g2 := gl _ _ _ (by norm_num) (by norm_num) g1 l2
  have g3 := gl _ _ _ (by norm_num) (by norm_num) g2 l3
  have g4 := gl _ _ _ (by norm_num) (by norm_num) g3 l4
  have g5 := gl _ _ _ (by norm_num) (by norm_num) g4 l5
  have g6 := gl _ _ _ (by norm_num) (by norm_num) g5 l6
  exact gl _ _ _ (by norm_num) (by norm_num) g6 l7

/-- **C37.** The pressure is continuous, positive and strictly decreasing. -/
theorem pressure_decreasing :
    ContinuousOn (fun H => (profile H).pressure) (Icc (-2000) 86000) ∧
    StrictAntiOn (fun H => (profile H).pressure) (Icc (-2000) 86000) ∧
    ∀ H ∈ Icc (-2000 : ℝ) 86000, 0 < (profile H).pressure ∧ 0 < (profile H).temp := by
  have hc : ContinuousOn (fun H => (profile H).pressure) (Icc (-2000) 86000) :=
    fun H h => (hydrostatic.1 H h).continuousWithinAt
  refine ⟨hc, ?_, fun H h => ⟨(profile_pos H h).2, (profile_pos H h).1⟩⟩
  refine strictAntiOn_of_deriv_neg (convex_Icc _ _) hc ?_
  intro H h
  rw [interior_Icc] at h
  have hm : H ∈ Icc (-2000 : ℝ) 86000 := ⟨h.1.le, h.2.le⟩
  have hd := (hydrostatic.1 H hm).hasDerivAt (Icc_mem_nhds h.1 h.2)
  rw [hd.deriv]
  obtain ⟨hT, hP⟩ := profile_pos H hm
  unfold slope
  rw [neg_lt_zero]
  have hG : 0 < G := by unfold G; norm_num
  have hM : 0 < M := by unfold M; norm_num
  have hR : 0 < R := by unfold R; norm_num
  positivity

theorem geopotential_mono : StrictMonoOn geopotential {z | -earthRadius < z} := by
  intro a ha b hb hab
  have hE : (0 : ℝ) < earthRadius := by unfold earthRadius; norm_num
  simp only [mem_setOf_eq] at ha hb
  have h1 : 0 < earthRadius + a := by linarith
  have h2 : 0 < earthRadius + b := by linarith
  unfold geopotential
  rw [div_lt_div_iff₀ h1 h2]
  nlinarith [mul_pos hE hE]

/-- **C37 (partial: geopotential altitudes from −2000 m on).** What `getAirProperties` returns, whatever the number of
instances: below 86 km temperature and pressure of the profile at the geopotential altitude, the density of an ideal gas, and
Sutherland's viscosity; at and above 86 km the temperature and pressure of 86 km, and density 0. The geopotential altitude
increases with the altitude, so the pressure strictly decreases with it. -/
theorem properties_partial (n : Nat) (z : ℝ) (hz : -earthRadius < z) (hH : -2000 ≤ geopotential z) :
    ∃ s a, afterInstances (n + 1) = .ok s ∧ getAirProperties s z = .ok a ∧
      a.temp = (profile (min (geopotential z) 86000)).temp ∧
      a.pressure = (profile (min (geopotential z) 86000)).pressure ∧
      (geopotential z < 86000 → a.density = M * a.pressure / (R * a.temp * 1000)) ∧
      (86000 ≤ geopotential z → a.density = 0) ∧
      a.viscosity = 1.457e-6 * a.temp ^ (1.5 : ℝ) / (a.temp + 110.4) := by
  have hne : earthRadius + z ≠ 0 := by linarith
  obtain ⟨s1, s2, h1, h2, heq, _⟩ := instances_irrelevant n z
  have hs1 : s1 = store 1 := by rw [afterInstances_store] at h1; cases h1; rfl
  unfold getAirProperties at heq
  rw [if_neg hne, if_neg hne] at heq
  have hget : ∀ a, airAt (store 1) (geopotential z) = .ok a → getAirProperties s2 z = .ok a := by
    intro a ha
    unfold getAirProperties
    rw [if_neg hne, heq, hs1, ha]
  rcases lt_or_ge (geopotential z) 86000 with hlt | hge
  · have hmin : min (geopotential z) 86000 = geopotential z := min_eq_left hlt.le
    have hex : ∃ a, airAt (store 1) (geopotential z) = .ok a ∧
        a.density = M * a.pressure / (R * a.temp * 1000) ∧
        a.viscosity = 1.457e-6 * a.temp ^ (1.5 : ℝ) / (a.temp + 110.4) := by
      obtain ⟨v0, v1, v2, v3, v4, v5, v6, v7⟩ := hgt_vals
      have t : ∀ i, i < 7 → top i = hgt (i + 1) := by intro i h; simp [top]; omega
      have t7 : top 7 = 86000 := by simp [top]
      have : ∃ i, i < 8 ∧ hgt i ≤ geopotential z ∧ geopotential z < top i := by
        generalize geopotential z = H at hH hlt
        by_cases c1 : H < 11000
        · exact ⟨0, by omega, by rw [v0]; exact hH, by rw [t 0 (by omega), v1]; exact c1⟩
        by_cases c2 : H < 20000
        · exact ⟨1, by omega, by rw [v1]; linarith, by rw [t 1 (by omega), v2]; exact c2⟩
        by_cases c3 : H < 32000
        · exact ⟨2, by omega, by rw [v2]; linarith, by rw [t 2 (by omega), v3]; exact c3⟩
        by_cases c4 : H < 47000
        · exact ⟨3, by omega, by rw [v3]; linarith, by rw [t 3 (by omega), v4]; exact c4⟩
        by_cases c5 : H < 51000
        · exact ⟨4, by omega, by rw [v4]; linarith, by rw [t 4 (by omega), v5]; exact c5⟩
        by_cases c6 : H < 71000
        · exact ⟨5, by omega, by rw [v5]; linarith, by rw [t 5 (by omega), v6]; exact c6⟩
        by_cases c7 : H < 84852
        · exact ⟨6, by omega, by rw [v6]; linarith, by rw [t 6 (by omega), v7]; exact c7⟩
        · exact ⟨7, by omega, by rw [v7]; linarith, by rw [t7]; exact hlt⟩
      obtain ⟨i, hi, g1, g2⟩ := this
      exact ⟨_, airAt_layer 0 i hi _ g1 g2, rfl, rfl⟩
    obtain ⟨a, ha, hd, hv⟩ := hex
    have hp : profile (geopotential z) = a := by unfold profile; rw [ha]
    refine ⟨s2, a, h2, hget a ha, ?_, ?_, fun _ => hd, fun h => absurd hlt (not_lt.2 h), hv⟩
    · rw [hmin, hp]
    · rw [hmin, hp]
  · have hmin : min (geopotential z) 86000 = 86000 := min_eq_right hge
    have ha := airAt_top 0 (geopotential z) hge
    have hp : profile 86000 = ⟨layerT 7 86000, layerP 7 86000, 0,
        1.457e-6 * layerT 7 86000 ^ (1.5 : ℝ) / (layerT 7 86000 + 110.4)⟩ := by
      unfold profile; rw [airAt_top 0 86000 le_rfl]
    refine ⟨s2, _, h2, hget _ ha, ?_, ?_, fun h => absurd hge (not_le.2 h), fun _ => rfl, rfl⟩
    · rw [hmin, hp]
    · rw [hmin, hp]

/-- **C37.** In terms of the altitude itself: between −1999 m and 87000 m above sea level the reported pressure is
positive and strictly decreases. -/
theorem pressure_decreasing_altitude (n : Nat) (a b : ℝ) (ha : -1999 ≤ a) (hab : a < b) (hb : b ≤ 87000) :
    ∃ s pa pb, afterInstances (n + 1) = .ok s ∧ getAirProperties s a = .ok pa ∧ getAirProperties s b = .ok pb ∧
      0 < pb.pressure ∧ pb.pressure < pa.pressure := by
  have hE : earthRadius = 6356766 := rfl
  have lo : ∀ z, -1999 ≤ z → -2000 ≤ geopotential z := by
    intro z hz
    have : 0 < earthRadius + z := by rw [hE]; linarith
    unfold geopotential
    rw [le_div_iff₀ this, hE]
    nlinarith
  have hi : ∀ z, -1999 ≤ z → z ≤ 87000 → geopotential z ≤ 86000 := by
    intro z hz hz'
    have : 0 < earthRadius + z := by rw [hE]; linarith
    unfold geopotential
    rw [div_le_iff₀ this, hE]
    nlinarith
  obtain ⟨s, pa, h1, h2, _, h4, _⟩ := properties_partial n a (by rw [hE]; linarith) (lo a ha)
  obtain ⟨s', pb, h1', h2', _, h4', _⟩ := properties_partial n b (by rw [hE]; linarith) (lo b (by linarith))
  have : s' = s := by rw [h1] at h1'; cases h1'; rfl
  subst this
  have ma := hi a ha (by linarith)
  have mb := hi b (by linarith) hb
  rw [min_eq_left ma] at h4
  rw [min_eq_left mb] at h4'
  have hlt : geopotential a < geopotential b := geopotential_mono (by simp only [mem_setOf_eq]; rw [hE]; linarith)
    (by simp only [mem_setOf_eq]; rw [hE]; linarith) hab
  obtain ⟨_, hanti, hpos⟩ := pressure_decreasing
  have hbm : geopotential b ∈ Icc (-2000 : ℝ) 86000 := ⟨lo b (by linarith), mb⟩
  refine ⟨s', pa, pb, h1, h2, h2', ?_, ?_⟩
  · rw [h4']; exact (hpos _ hbm).1
  · rw [h4, h4']
    exact hanti ⟨lo a ha, ma⟩ hbm hlt

/-- **C37 violated.** Below the lowest base altitude (2000 m below sea level, geopotential) the index −1 selects the
*highest* layer: the temperature reported there is 186.946 K, while it is 301.15 K at the boundary. -/
theorem below_base_violated (n : Nat) (H : ℝ) (h : H < -2000) :
    ∃ s a b, afterInstances (n + 1) = .ok s ∧ airAt s H = .ok a ∧ a.temp = 186.946 ∧
      airAt s (-2000) = .ok b ∧ b.temp = 301.15 := by
  obtain ⟨v0, v1, v2, v3, v4, v5, v6, v7⟩ := hgt_vals
  obtain ⟨t0, _, _, _, _, _, _, t7⟩ := baseT_vals
  obtain ⟨_, _, _, _, _, _, _, l7⟩ := lapse_vals
  have hs : heights.Pairwise (· ≤ ·) := by unfold heights; simp; norm_num
  have hb : bisect heights H = 0 := by
    apply bisect_eq_of hs (Nat.zero_le _)
    · intro j hj hj'; omega
    · intro j hj _
      have hj8 : j < 8 := by simpa [heights] using hj
      refine lt_of_lt_of_le ?_ (heights_get j hj).ge
      interval_cases j <;> simp_all <;> linarith
  have c : ¬ (H ≥ 86000) := by rw [ge_iff_le, not_le]; linarith
  have e1 : pyGet heights (-1) = .ok (hgt 7) := by
    rw [pyGet_neg_one heights (by simp [heights])]; rw [v7]; simp [heights]
  have e2 : pyGet rates (-1) = .ok (lapse 7) := by
    rw [pyGet_neg_one rates (by simp [rates])]; rw [l7]; simp [rates]
  have h2 := airAt_layer n 0 (by omega) (-2000) (by rw [v0]) (by simp [top, v1]; norm_num)
  refine ⟨store (n + 1), ⟨layerT 7 H, layerP 7 H, M * layerP 7 H / (R * layerT 7 H * 1000),
      1.457e-6 * layerT 7 H ^ (1.5 : ℝ) / (layerT 7 H + 110.4)⟩, _, afterInstances_store (n + 1), ?_, ?_, h2, ?_⟩
  · unfold airAt
    simp only [if_neg c, hb, Nat.cast_zero, zero_sub]
    rw [e1, e2]
    unfold store blockT blockP
    rw [store_last baseT n, store_last baseP n]
    rfl
  · show layerT 7 H = _
    unfold layerT
    rw [l7, t7]; norm_num
  · show layerT 0 (-2000) = _
    rw [show (-2000 : ℝ) = hgt 0 from v0.symm, layerT_base, t0]

example : ∃ s x y, afterInstances 3 = .ok s ∧ getAirProperties s 0 = .ok x ∧ getAirProperties s 1000 = .ok y ∧
    0 < y.pressure ∧ y.pressure < x.pressure :=
  pressure_decreasing_altitude 2 0 1000 (by norm_num) (by norm_num) (by norm_num)

/-- **C37 violated.** From 86 km on the density is reported as 0 although pressure and temperature are positive: the
density jumps and does not follow the gas law there. -/
theorem density_jump_violated (n : Nat) (H : ℝ) (h : 86000 ≤ H) :
    ∃ s a, afterInstances (n + 1) = .ok s ∧ airAt s H = .ok a ∧ a.density = 0 ∧ 0 < a.pressure ∧ 0 < a.temp ∧
      a.density ≠ M * a.pressure / (R * a.temp * 1000) := by
  obtain ⟨v0, v1, v2, v3, v4, v5, v6, v7⟩ := hgt_vals
  have hp := layerP_pos 7 (by omega) 86000 (by rw [v7]; norm_num) (by simp [top])
  have ht := (layerT_pos 7 (by omega) 86000 (by rw [v7]; norm_num) (by simp [top])).1
  refine ⟨store (n + 1), _, afterInstances_store (n + 1), airAt_top n H h, rfl, hp, ht, ?_⟩
  have hM : 0 < M := by unfold M; norm_num
  have hR : 0 < R := by unfold R; norm_num
  show (0 : ℝ) ≠ M * layerP 7 86000 / (R * layerT 7 86000 * 1000)
  exact (by positivity : (0 : ℝ) < M * layerP 7 86000 / (R * layerT 7 86000 * 1000)).ne

end Mapleaf.ENV.Atm

namespace Mapleaf.ENV
open Mapleaf.Motion

/-- **C37.** A tabulated atmosphere (columns altitude, temperature, pressure, density, viscosity in 1e-5 Pa s): at a table
altitude the row's own values, between two of them the straight line, outside the table the nearest row. -/
theorem tabulated_spec (table : List (Fin 5 → ℝ)) (hs : (table.map (· 0)).Pairwise (· < ·)) :
    (∀ i (h : i < table.length),
      tabulatedAtmosphere table (table[i] 0) = .ok ![table[i] 1, table[i] 2, table[i] 3, table[i] 4 / 100000]) ∧
    (∀ i (h : i + 1 < table.length) z, table[i] 0 ≤ z → z ≤ table[i + 1] 0 →
      ∃ v w : ℝ, v + w = 1 ∧ v * table[i] 0 + w * table[i + 1] 0 = z ∧ 0 ≤ v ∧ 0 ≤ w ∧
      tabulatedAtmosphere table z = .ok ![v * table[i] 1 + w * table[i + 1] 1, v * table[i] 2 + w * table[i + 1] 2,
        v * table[i] 3 + w * table[i + 1] 3, (v * table[i] 4 + w * table[i + 1] 4) / 100000]) ∧
    (∀ (h : table ≠ []) z, z ≤ table.head h 0 → tabulatedAtmosphere table z = tabulatedAtmosphere table (table.head h 0)) ∧
    (∀ (h : table ≠ []) z, table.getLast h 0 ≤ z →
      tabulatedAtmosphere table z = tabulatedAtmosphere table (table.getLast h 0)) ∧
    (table = [] → ∀ z, tabulatedAtmosphere table z = .error .indexError) := by
  have hlen : (table.map (· 0)).length = (table.map fun r => ![r 1, r 2, r 3, r 4 * 1e-5]).length := by simp
  have hrow : ∀ x : ℝ, x * 1e-5 = x / 100000 := by intro x; norm_num; ring
  refine ⟨?_, ?_, ?_, ?_, ?_⟩
  · intro i h
    have hne : table.map (fun r : Fin 5 → ℝ => r 0) ≠ [] := by
      intro h0; rw [List.map_eq_nil_iff] at h0; subst h0; simp at h
    have := (linInterp_spec _ _ hs hne hlen).1 i (by simpa using h)
    simp only [List.getElem_map] at this
    unfold tabulatedAtmosphere
    rw [this, hrow]
  · intro i h z h1 h2
    have hd : table[i] 0 < table[i + 1] 0 := by
      have := List.pairwise_iff_getElem.1 hs i (i + 1) (by simp; omega) (by simpa using h) (by omega)
      simpa using this
    have hp : 0 < table[i + 1] 0 - table[i] 0 := sub_pos.2 hd
    have := linInterp_between _ _ z i hs hlen (by simpa using h) (by simpa using h1) (by simpa using h2)
    simp only [List.getElem_map] at this
    refine ⟨1 - (z - table[i] 0) / (table[i + 1] 0 - table[i] 0), (z - table[i] 0) / (table[i + 1] 0 - table[i] 0),
      by ring, by field_simp; ring, ?_, div_nonneg (sub_nonneg.2 h1) hp.le, ?_⟩
    · rw [sub_nonneg, div_le_one hp]; linarith
    · unfold tabulatedAtmosphere
      rw [this]
      congr 1
      generalize (z - table[i] 0) / (table[i + 1] 0 - table[i] 0) = w
      ext j
      fin_cases j <;> simp [AffineMap.lineMap_apply] <;> ring
  · intro h z hz
    have hne : table.map (fun r : Fin 5 → ℝ => r 0) ≠ [] := by simpa using h
    have hh : (table.map (fun r : Fin 5 → ℝ => r 0)).head hne = table.head h 0 := by simp
    obtain ⟨_, e1⟩ := (linInterp_spec _ _ hs hne hlen).2.1 z (by rw [hh]; exact hz)
    obtain ⟨_, e2⟩ := (linInterp_spec _ _ hs hne hlen).2.1 (table.head h 0) (by rw [hh])
    unfold tabulatedAtmosphere
    rw [e1, e2]
  · intro h z hz
    have hne : table.map (fun r : Fin 5 → ℝ => r 0) ≠ [] := by simpa using h
    have hh : (table.map (fun r : Fin 5 → ℝ => r 0)).getLast hne = table.getLast h 0 := by simp
    obtain ⟨_, e1⟩ := (linInterp_spec _ _ hs hne hlen).2.2 z (by rw [hh]; exact hz)
    obtain ⟨_, e2⟩ := (linInterp_spec _ _ hs hne hlen).2.2 (table.getLast h 0) (by rw [hh])
    unfold tabulatedAtmosphere
    rw [e1, e2]
  · rintro rfl z
    rfl

example : tabulatedAtmosphere [![0, 288, 101325, 1.225, 1.8], ![1000, 282, 89876, 1.112, 1.76]] 0 =
    .ok ![288, 101325, 1.225, 1.8 / 100000] :=
  (tabulated_spec [![0, 288, 101325, 1.225, 1.8], ![1000, 282, 89876, 1.112, 1.76]] (by simp)).1 0 (by simp)

end Mapleaf.ENV
