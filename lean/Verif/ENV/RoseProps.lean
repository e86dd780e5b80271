import Verif.ENV.RoseModel
import Verif.ENV.WindProps
import Mathlib.Algebra.Order.BigOperators.Group.List

/-!
# C68: sampled ground winds and the wind rose
-/

namespace Mapleaf.ENV
open Mapleaf.Motion V3

namespace Rose

/-- With a random number spread evenly over [0, 1), the sampler `f` answers with a value in [lo, hi) with probability `p`: the
random numbers for which it does form an interval of that length. -/
def Chance (f : ℝ → Except PyErr ℝ) (lo hi p : ℝ) : Prop :=
  ∃ a b, 0 ≤ a ∧ a ≤ b ∧ b ≤ 1 ∧ b - a = p ∧
    ∀ q, 0 ≤ q → q < 1 → ((∃ y, f q = .ok y ∧ lo ≤ y ∧ y < hi) ↔ a ≤ q ∧ q < b)

/-- the probability is determined by the sampler -/
theorem chance_unique (f : ℝ → Except PyErr ℝ) (lo hi p p' : ℝ) (h : Chance f lo hi p) (h' : Chance f lo hi p') : p = p' := by
  have key : ∀ a b a' b' : ℝ, 0 ≤ a → a ≤ b → b ≤ 1 → 0 ≤ a' → a' ≤ b' → b' ≤ 1 →
      (∀ q, 0 ≤ q → q < 1 → (a ≤ q ∧ q < b ↔ a' ≤ q ∧ q < b')) → b - a ≤ b' - a' := by
    intro a b a' b' h1 h2 h3 h4 h5 h6 hq
    rcases eq_or_lt_of_le h2 with he | hlt
    · linarith
    · have ha := (hq a h1 (lt_of_lt_of_le hlt h3)).1 ⟨le_refl _, hlt⟩
      have hb : b ≤ b' := by
        by_contra hn
        rw [not_le] at hn
        have := (hq (max a b') (le_trans h1 (le_max_left _ _)) (lt_of_lt_of_le (max_lt hlt hn) h3)).1
          ⟨le_max_left _ _, max_lt hlt hn⟩
        exact absurd this.2 (not_lt.2 (le_max_right _ _))
      linarith [ha.1]
  obtain ⟨a, b, h1, h2, h3, rfl, hq⟩ := h
  obtain ⟨a', b', h1', h2', h3', rfl, hq'⟩ := h'
  have e : ∀ q, 0 ≤ q → q < 1 → (a ≤ q ∧ q < b ↔ a' ≤ q ∧ q < b') := fun q q0 q1 => (hq q q0 q1).symm.trans (hq' q q0 q1)
  exact le_antisymm (key _ _ _ _ h1 h2 h3 h1' h2' h3' e)
    (key _ _ _ _ h1' h2' h3' h1 h2 h3 fun q q0 q1 => (e q q0 q1).symm)

theorem chance_congr {f : ℝ → Except PyErr ℝ} {lo hi p p' : ℝ} (e : p = p') (h : Chance f lo hi p) : Chance f lo hi p' := e ▸ h

/-! ## The histogram -/

section hist
variable {K : Type} [Field K] [LinearOrder K] [IsStrictOrderedRing K]

omit [LinearOrder K] [IsStrictOrderedRing K] in
theorem sums_length (a : K) (l : List K) : (sums a l).length = l.length + 1 := by
  induction l generalizing a with
  | nil => rfl
  | cons x xs ih => simp [sums, ih]

omit [LinearOrder K] [IsStrictOrderedRing K] in
theorem sums_get (a : K) (l : List K) (i : Nat) (h : i < (sums a l).length) : (sums a l)[i] = a + (l.take i).sum := by
  induction l generalizing a i with
  | nil => simp [sums_length] at h; subst h; simp [sums]
  | cons x xs ih =>
    cases i with
    | zero => simp [sums]
    | succ i =>
      simp only [sums, List.getElem_cons_succ, List.take_succ_cons, List.sum_cons]
      rw [ih (a + x) i (by rw [sums_length] at h ⊢; simpa using h), add_assoc]

omit [LinearOrder K] [IsStrictOrderedRing K] in
theorem widths_length (bins : List K) : (widths bins).length = bins.length - 1 := by
  simp [widths]

omit [LinearOrder K] [IsStrictOrderedRing K] in
theorem widths_get (bins : List K) (i : Nat) (h : i + 1 < bins.length) :
    (widths bins)[i]'(by rw [widths_length]; omega) = bins[i + 1] - bins[i] := by
  simp [widths]

omit [IsStrictOrderedRing K] in
/-- inside a bin of a table that need not be strictly increasing -/
theorem linInterp_in (X Y : List K) (x : K) (i : Nat) (hs : X.Pairwise (· ≤ ·)) (hl : X.length = Y.length)
    (hi : i + 1 < X.length) (h1 : X[i] ≤ x) (h2 : x < X[i + 1]) :
    linInterp X Y x = .ok ((x - X[i]) / (X[i + 1] - X[i]) * (Y[i + 1]'(by omega) - Y[i]'(by omega)) + Y[i]'(by omega)) := by
  have hb : bisect X x = i + 1 := by
    apply bisect_eq_of hs (by omega)
    · intro k hk hk'
      refine le_trans ?_ h1
      rcases Nat.lt_or_ge k i with h | h
      · exact List.pairwise_iff_getElem.1 hs k i hk (by omega) h
      · have : k = i := by omega
        subst this; exact le_refl _
    · intro k hk hk'
      refine lt_of_lt_of_le h2 ?_
      rcases Nat.lt_or_ge (i + 1) k with h | h
      · exact List.pairwise_iff_getElem.1 hs (i + 1) k (by omega) hk h
      · have : k = i + 1 := by omega
        subst this; exact le_refl _
  unfold linInterp
  rw [hb]
  have e : (((i + 1 : Nat) : Int) - 1) = ((i : Nat) : Int) := by push_cast; ring
  dsimp only
  rw [if_neg (by omega), if_neg (by omega), e, pyGet_nat X (i + 1) hi, pyGet_nat X i (by omega), pyGet_nat Y (i + 1) (by omega),
    pyGet_nat Y i (by omega)]
  dsimp only
  rw [if_neg (sub_ne_zero.2 (lt_of_le_of_lt h1 h2).ne')]
  simp

/-- **C68.** The histogram behind the sampling, for non-negative numbers, not all zero, and increasing bin boundaries: the
cumulative probabilities `c` rise from 0 to 1, the step over a bin is the bin's number times its width, up to a common
factor, and the sample lies in a bin exactly when the random number lies in the bin's part of [0, 1). -/
theorem ppf_bins (vals bins : List K) (hl : vals.length + 1 = bins.length) (hb : bins.Pairwise (· < ·))
    (hv : ∀ v ∈ vals, 0 ≤ v) (hp : ∃ v ∈ vals, 0 < v) :
    ∃ (T : K) (c : Nat → K), 0 < T ∧ c 0 = 0 ∧ c vals.length = 1 ∧
      (∀ i (h : i < vals.length), c (i + 1) - c i = vals[i] * (bins[i + 1] - bins[i]) / T) ∧
      (∀ i, i < vals.length → c i ≤ c (i + 1)) ∧
      ∀ q, 0 ≤ q → q < 1 → ∃ y, ppf vals bins q = .ok y ∧
        ∀ i (h : i < vals.length), bins[i] ≤ y ∧ y < bins[i + 1] ↔ c i ≤ q ∧ q < c (i + 1) := by
  set T := (List.zipWith (· * ·) vals (widths bins)).sum with hT
  have hwl : (widths bins).length = vals.length := by rw [widths_length]; omega
  have hw : ∀ i (h : i < vals.length), 0 < bins[i + 1] - bins[i] := by
    intro i h
    exact sub_pos.2 (List.pairwise_iff_getElem.1 hb i (i + 1) (by omega) (by omega) (by omega))
  have hm : ∀ i (h : i < vals.length), (List.zipWith (· * ·) vals (widths bins))[i]'(by simp [hwl, h]) =
      vals[i] * (bins[i + 1] - bins[i]) := by
    intro i h
    rw [List.getElem_zipWith, widths_get bins i (by omega)]
  have hTpos : 0 < T := by
    have hnn : ∀ x ∈ List.zipWith (· * ·) vals (widths bins), 0 ≤ x := by
      intro x hx
      obtain ⟨i, h, rfl⟩ := List.mem_iff_getElem.1 hx
      have h' : i < vals.length := by simp [hwl] at h; exact h
      rw [hm i h']
      exact mul_nonneg (hv _ (List.getElem_mem _)) (hw i h').le
    obtain ⟨v, hvm, hvp⟩ := hp
    obtain ⟨i, h, rfl⟩ := List.mem_iff_getElem.1 hvm
    refine lt_of_lt_of_le (mul_pos hvp (hw i h)) ?_
    rw [← hm i h]
    exact List.single_le_sum hnn _ (List.getElem_mem _)
  set M := List.zipWith (fun v w => v / T * w) vals (widths bins) with hM
  have hMl : M.length = vals.length := by simp [hM, hwl]
  have hMg : ∀ i (h : i < vals.length), M[i]'(by rw [hMl]; exact h) = vals[i] * (bins[i + 1] - bins[i]) / T := by
    intro i h
    rw [List.getElem_zipWith, widths_get bins i (by omega)]
    ring
  have hMs : M.sum = 1 := by
    have : M = (List.zipWith (· * ·) vals (widths bins)).map (· / T) := by
      apply List.ext_getElem (by simp [hMl, hwl])
      intro i h1 h2
      rw [hMg i (by omega), List.getElem_map, hm i (by omega)]
    rw [this, show (fun x : K => x / T) = (fun x : K => x * T⁻¹) from by funext x; rw [div_eq_mul_inv],
      List.sum_map_mul_right, List.map_id', ← hT, mul_inv_cancel₀ hTpos.ne']
  set c : Nat → K := fun i => (M.take i).sum with hc
  have hstep : ∀ i (h : i < vals.length), c (i + 1) - c i = vals[i] * (bins[i + 1] - bins[i]) / T := by
    intro i h
    show (M.take (i + 1)).sum - (M.take i).sum = _
    rw [List.take_succ_eq_append_getElem (by omega), List.sum_append, ← hMg i h]
    simp
  have hmono : ∀ i, i < vals.length → c i ≤ c (i + 1) := by
    intro i h
    have := hstep i h
    have h0 : 0 ≤ vals[i] * (bins[i + 1] - bins[i]) / T :=
      div_nonneg (mul_nonneg (hv _ (List.getElem_mem _)) (hw i h).le) hTpos.le
    linarith
  have hmono' : ∀ j i, i ≤ j → j ≤ vals.length → c i ≤ c j := by
    intro j
    induction j with
    | zero => intro i h _; have : i = 0 := by omega
              subst this; exact le_refl _
    | succ j ih =>
      intro i h1 h2
      rcases Nat.lt_or_ge i (j + 1) with h | h
      · exact le_trans (ih i (by omega) (by omega)) (hmono j (by omega))
      · have : i = j + 1 := by omega
        subst this; exact le_refl _
  have hclast : c vals.length = 1 := by
    show (M.take vals.length).sum = 1
    rw [← hMl, List.take_length, hMs]
  refine ⟨T, c, hTpos, by simp [hc], hclast, hstep, hmono, ?_⟩
  intro q q0 q1
  have hcdf : cdf vals bins = .ok (sums 0 M) := by
    unfold cdf
    rw [if_neg (by omega)]
    dsimp only
    rw [← hT, if_neg hTpos.ne']
  have hsl : (sums 0 M).length = bins.length := by rw [sums_length, hMl]; exact hl
  have hsg : ∀ i (h : i < (sums 0 M).length), (sums 0 M)[i] = c i := by
    intro i h; rw [sums_get]; simp [hc]
  have hss : (sums 0 M).Pairwise (· ≤ ·) := by
    rw [List.pairwise_iff_getElem]
    intro i j hi hj hij
    rw [hsg, hsg]
    exact hmono' j i (by omega) (by rw [sums_length, hMl] at hj; omega)
  -- the bin of `q`
  have hex : ∃ j, j < vals.length ∧ c j ≤ q ∧ q < c (j + 1) := by
    by_contra hn
    have : ∀ j, j ≤ vals.length → c j ≤ q := by
      intro j
      induction j with
      | zero => intro _; simpa [hc] using q0
      | succ j ih =>
        intro hj
        by_contra hq
        exact hn ⟨j, by omega, ih (by omega), not_le.1 hq⟩
    have := this vals.length (le_refl _)
    rw [hclast] at this
    exact absurd this (not_le.2 q1)
  obtain ⟨j, hj, hj1, hj2⟩ := hex
  have hval := linInterp_in (sums 0 M) bins q j hss hsl (by omega) (by rw [hsg]; exact hj1) (by rw [hsg]; exact hj2)
  simp only [hsg] at hval
  set y := (q - c j) / (c (j + 1) - c j) * (bins[j + 1] - bins[j]) + bins[j] with hy
  have hd : 0 < c (j + 1) - c j := by linarith
  have hr0 : 0 ≤ (q - c j) / (c (j + 1) - c j) := div_nonneg (by linarith) hd.le
  have hr1 : (q - c j) / (c (j + 1) - c j) < 1 := by rw [div_lt_one hd]; linarith
  have hy1 : bins[j] ≤ y := by
    have := mul_nonneg hr0 (hw j hj).le
    linarith
  have hy2 : y < bins[j + 1] := by
    have := mul_lt_mul_of_pos_right hr1 (hw j hj)
    linarith
  refine ⟨y, by unfold ppf; rw [hcdf]; exact hval, ?_⟩
  intro i h
  have hbi : ∀ a b (ha : a < bins.length) (hb' : b < bins.length), a ≤ b → bins[a] ≤ bins[b] := by
    intro a b ha hb' hab
    exact (strict_index hb ha hb').2 hab
  constructor
  · rintro ⟨h1, h2⟩
    have : i = j := by
      rcases Nat.lt_trichotomy i j with hij | hij | hij
      · exact absurd (lt_of_lt_of_le h2 (le_trans (hbi (i + 1) j (by omega) (by omega) (by omega)) hy1)) (lt_irrefl _)
      · exact hij
      · exact absurd (lt_of_lt_of_le hy2 (le_trans (hbi (j + 1) i (by omega) (by omega) (by omega)) h1)) (lt_irrefl _)
    subst this
    exact ⟨hj1, hj2⟩
  · rintro ⟨h1, h2⟩
    have : i = j := by
      rcases Nat.lt_trichotomy i j with hij | hij | hij
      · exact absurd (lt_of_lt_of_le h2 (le_trans (hmono' j (i + 1) (by omega) (by omega)) hj1)) (lt_irrefl _)
      · exact hij
      · exact absurd (lt_of_lt_of_le hj2 (le_trans (hmono' i (j + 1) (by omega) (by omega)) h1)) (lt_irrefl _)
    subst this
    exact ⟨hy1, hy2⟩

end hist

/-- the histogram statement as probabilities -/
theorem ppf_chance (f : ℝ → Except PyErr ℝ) (vals bins : List ℝ) (hf : ∀ q, 0 ≤ q → q < 1 → f q = ppf vals bins q)
    (hl : vals.length + 1 = bins.length) (hb : bins.Pairwise (· < ·)) (hv : ∀ v ∈ vals, 0 ≤ v) (hp : ∃ v ∈ vals, 0 < v) :
    ∃ T : ℝ, 0 < T ∧ T = ((List.finRange vals.length).map fun i => vals[i] * (bins[i.1 + 1]'(by omega) - bins[i.1]'(by omega))).sum ∧
      (∀ i (h : i < vals.length), Chance f bins[i] bins[i + 1] (vals[i] * (bins[i + 1] - bins[i]) / T)) ∧
      ∀ q, 0 ≤ q → q < 1 → ∃ y i, f q = .ok y ∧ ∃ h : i < vals.length, 0 < vals[i] ∧ bins[i] ≤ y ∧ y < bins[i + 1] := by
  obtain ⟨T, c, hT, c0, c1, hs, hm, hq⟩ := ppf_bins vals bins hl hb hv hp
  have hmono' : ∀ j i, i ≤ j → j ≤ vals.length → c i ≤ c j := by
    intro j
    induction j with
    | zero => intro i h _; have : i = 0 := by omega
              subst this; exact le_refl _
    | succ j ih =>
      intro i h1 h2
      rcases Nat.lt_or_ge i (j + 1) with h | h
      · exact le_trans (ih i (by omega) (by omega)) (hm j (by omega))
      · have : i = j + 1 := by omega
        subst this; exact le_refl _
  refine ⟨T, hT, ?_, ?_, ?_⟩
  · have key : ∀ n (hn : n ≤ vals.length), ((List.finRange n).map fun i : Fin n =>
        vals[i.1]'(by omega) * (bins[i.1 + 1]'(by omega) - bins[i.1]'(by omega))).sum = T * c n := by
      intro n
      induction n with
      | zero => intro _; simp [c0]
      | succ n ih =>
        intro hn
        rw [List.finRange_succ_last, List.map_append, List.map_map, List.sum_append]
        have := ih (by omega)
        simp only [List.map_cons, List.map_nil, List.sum_cons, List.sum_nil, add_zero, Fin.val_last]
        rw [show ((fun i : Fin (n + 1) => vals[i.1]'(by omega) * (bins[i.1 + 1]'(by omega) - bins[i.1]'(by omega))) ∘ Fin.castSucc) =
          fun i : Fin n => vals[i.1]'(by omega) * (bins[i.1 + 1]'(by omega) - bins[i.1]'(by omega)) from rfl, this]
        have h2 := hs n (by omega)
        rw [eq_div_iff hT.ne'] at h2
        linear_combination -h2
    have := key vals.length (le_refl _)
    rw [c1, mul_one] at this
    exact this.symm
  · intro i h
    refine ⟨c i, c (i + 1), ?_, hm i h, ?_, hs i h, ?_⟩
    · rw [← c0]; exact hmono' i 0 (by omega) (by omega)
    · rw [← c1]; exact hmono' _ _ (by omega) (le_refl _)
    · intro q q0 q1
      obtain ⟨y, hy, hi⟩ := hq q q0 q1
      rw [hf q q0 q1, ← hi i h]
      constructor
      · rintro ⟨y', e, h1⟩
        rw [hy] at e
        rw [Except.ok.inj e]
        exact h1
      · intro h1
        exact ⟨y, hy, h1⟩
  · intro q q0 q1
    obtain ⟨y, hy, hi⟩ := hq q q0 q1
    have hex : ∃ j, j < vals.length ∧ c j ≤ q ∧ q < c (j + 1) := by
      by_contra hn
      have : ∀ j, j ≤ vals.length → c j ≤ q := by
        intro j
        induction j with
        | zero => intro _; rw [c0]; exact q0
        | succ j ih =>
          intro hj
          by_contra hq
          exact hn ⟨j, by omega, ih (by omega), not_le.1 hq⟩
      have := this vals.length (le_refl _)
      rw [c1] at this
      exact absurd this (not_le.2 q1)
    obtain ⟨j, hj, h1, h2⟩ := hex
    refine ⟨y, j, by rw [hf q q0 q1, hy], hj, ?_, (hi j hj).2 ⟨h1, h2⟩⟩
    rcases eq_or_lt_of_le (hv _ (List.getElem_mem hj)) with h0 | h0
    · have := hs j hj
      rw [← h0] at this
      simp at this
      linarith
    · exact h0

/-! ## Wind speed -/

/-- the wind rose's entries of one speed class, summed over the sectors -/
def ClassSum (rose : List Row) (i : Fin 7) (w : ℝ) : Prop := w = (rose.map fun r => r.f i).sum

theorem speedBins_sorted : speedBins.Pairwise (· < ·) := by
  unfold speedBins
  norm_num

/-- **C68.** The sampled wind speed. `w` are the wind rose's sums per speed class and `N` their total; at least 1.4 % of the
wind is in the highest class. A class of the rose is met with a probability proportional to its share *times its width*
(in mph: 2, 3, 2, 3, 5, 5, 3.5), and the extreme winds to 1.5 · 0.01 and 6 · 0.004. -/
theorem speed_chance (rose : List Row) (w : Fin 7 → ℝ) (N : ℝ) (hw : ∀ i, ClassSum rose i (w i))
    (hN : N = w 0 + w 1 + w 2 + w 3 + w 4 + w 5 + w 6) (hpos : ∀ i, 0 ≤ w i) (hN0 : 0 < N) (h6 : 0.014 * N ≤ w 6) :
    ∃ T, 0 < T ∧ T = 2 * (w 0 / N) + 3 * (w 1 / N) + 2 * (w 2 / N) + 3 * (w 3 / N) + 5 * (w 4 / N) + 5 * (w 5 / N) +
        3.5 * (w 6 / N - 0.014) + 1.5 * 0.01 + 6 * 0.004 ∧
      Chance (sampleSpeed rose) (0 * 0.44704) (2 * 0.44704) (2 * (w 0 / N) / T) ∧
      Chance (sampleSpeed rose) (2 * 0.44704) (5 * 0.44704) (3 * (w 1 / N) / T) ∧
      Chance (sampleSpeed rose) (5 * 0.44704) (7 * 0.44704) (2 * (w 2 / N) / T) ∧
      Chance (sampleSpeed rose) (7 * 0.44704) (10 * 0.44704) (3 * (w 3 / N) / T) ∧
      Chance (sampleSpeed rose) (10 * 0.44704) (15 * 0.44704) (5 * (w 4 / N) / T) ∧
      Chance (sampleSpeed rose) (15 * 0.44704) (20 * 0.44704) (5 * (w 5 / N) / T) ∧
      Chance (sampleSpeed rose) (20 * 0.44704) (23.5 * 0.44704) (3.5 * (w 6 / N - 0.014) / T) ∧
      Chance (sampleSpeed rose) (23.5 * 0.44704) (25 * 0.44704) (1.5 * 0.01 / T) ∧
      Chance (sampleSpeed rose) (25 * 0.44704) (31 * 0.44704) (6 * 0.004 / T) ∧
      Chance (sampleSpeed rose) (31 * 0.44704) (50 * 0.44704) 0 ∧
      ∀ q, 0 ≤ q → q < 1 → ∃ y, sampleSpeed rose q = .ok y ∧ 0 ≤ y ∧ y < 31 * 0.44704 := by
  have hb : ∀ i, bySpeed rose i = w i := fun i => (hw i).symm
  have htot : (List.ofFn (bySpeed rose)).sum = N := by
    rw [hN]
    simp [List.ofFn_succ, hb]
    ring_nf
  have hvals : speedVals rose = [w 0 / N, w 1 / N, w 2 / N, w 3 / N, w 4 / N, w 5 / N, w 6 / N - 0.014, 0.01, 0.004, 0] := by
    unfold speedVals
    dsimp only
    rw [htot]
    simp only [hb]
    norm_num
  have hs6 : 0 ≤ w 6 / N - 0.014 := by
    rw [sub_nonneg, le_div_iff₀ hN0]; exact h6
  have hbins : speedBins = [0 * 0.44704, 2 * 0.44704, 5 * 0.44704, 7 * 0.44704, 10 * 0.44704, 15 * 0.44704, 20 * 0.44704,
      23.5 * 0.44704, 25 * 0.44704, 31 * 0.44704, 50 * 0.44704] := rfl
  obtain ⟨T, hT, hTe, hc, hq⟩ := ppf_chance (sampleSpeed rose)
    [w 0 / N, w 1 / N, w 2 / N, w 3 / N, w 4 / N, w 5 / N, w 6 / N - 0.014, 0.01, 0.004, 0] speedBins
    (by intro q _ _; unfold sampleSpeed; rw [htot, if_neg hN0.ne', hvals]) (by simp [hbins]) speedBins_sorted
    (by
      intro v hv
      simp only [List.mem_cons, List.not_mem_nil, or_false] at hv
      rcases hv with rfl | rfl | rfl | rfl | rfl | rfl | rfl | rfl | rfl | rfl
      · exact div_nonneg (hpos _) hN0.le
      · exact div_nonneg (hpos _) hN0.le
      · exact div_nonneg (hpos _) hN0.le
      · exact div_nonneg (hpos _) hN0.le
      · exact div_nonneg (hpos _) hN0.le
      · exact div_nonneg (hpos _) hN0.le
      · exact hs6
      · norm_num
      · norm_num
      · norm_num) ⟨0.01, by simp, by norm_num⟩
  have hTe' : T = 0.44704 * (2 * (w 0 / N) + 3 * (w 1 / N) + 2 * (w 2 / N) + 3 * (w 3 / N) + 5 * (w 4 / N) + 5 * (w 5 / N) +
        3.5 * (w 6 / N - 0.014) + 1.5 * 0.01 + 6 * 0.004) := by
    rw [hTe]
    simp [List.finRange_succ, hbins]
    ring
  have hT2 : 0 < T / 0.44704 := by positivity
  refine ⟨T / 0.44704, hT2, by rw [hTe']; ring, ?_, ?_, ?_, ?_, ?_, ?_, ?_, ?_, ?_, ?_, ?_⟩
  · refine chance_congr ?_ (hc 0 (by simp))
    show w 0 / N * (2 * 0.44704 - 0 * 0.44704) / T = _
    have := hT.ne'
    field_simp
    try ring
  · refine chance_congr ?_ (hc 1 (by simp))
    show w 1 / N * (5 * 0.44704 - 2 * 0.44704) / T = _
    have := hT.ne'
    field_simp
    try ring
  · refine chance_congr ?_ (hc 2 (by simp))
    show w 2 / N * (7 * 0.44704 - 5 * 0.44704) / T = _
    have := hT.ne'
    field_simp
    try ring
  · refine chance_congr ?_ (hc 3 (by simp))
    show w 3 / N * (10 * 0.44704 - 7 * 0.44704) / T = _
    have := hT.ne'
    field_simp
    try ring
  · refine chance_congr ?_ (hc 4 (by simp))
    show w 4 / N * (15 * 0.44704 - 10 * 0.44704) / T = _
    have := hT.ne'
    field_simp
    try ring
  · refine chance_congr ?_ (hc 5 (by simp))
    show w 5 / N * (20 * 0.44704 - 15 * 0.44704) / T = _
    have := hT.ne'
    field_simp
    try ring
  · refine chance_congr ?_ (hc 6 (by simp))
    show (w 6 / N - 0.014) * (23.5 * 0.44704 - 20 * 0.44704) / T = _
    have := hT.ne'
    field_simp
    try ring
  · refine chance_congr ?_ (hc 7 (by simp))
    show 0.01 * (25 * 0.44704 - 23.5 * 0.44704) / T = _
    have := hT.ne'
    field_simp
    try ring
  · refine chance_congr ?_ (hc 8 (by simp))
    show 0.004 * (31 * 0.44704 - 25 * 0.44704) / T = _
    have := hT.ne'
    field_simp
    try ring
  · refine chance_congr ?_ (hc 9 (by simp))
    show 0 * (50 * 0.44704 - 31 * 0.44704) / T = _
    rw [zero_mul, zero_div]
  · intro q q0 q1
    obtain ⟨y, i, hy, hi, hv, h1, h2⟩ := hq q q0 q1
    refine ⟨y, hy, ?_, ?_⟩
    · refine le_trans ?_ h1
      have := (strict_index speedBins_sorted (show 0 < speedBins.length by simp [hbins]) (show i < speedBins.length by
        simp [hbins] at hi ⊢; omega)).2 (by omega)
      simpa [hbins] using this
    · have hi9 : i ≠ 9 := by
        rintro rfl
        simp at hv
      have hi' : i + 1 ≤ 9 := by simp at hi; omega
      refine lt_of_lt_of_le h2 ?_
      have := (strict_index speedBins_sorted (show i + 1 < speedBins.length by simp [hbins]; omega)
        (show 9 < speedBins.length by simp [hbins])).2 hi'
      simpa [hbins] using this

/-- **C68 violated.** The sampled speeds do not follow the wind rose: for every rose with some wind in the classes 0-2 mph and
10-15 mph, at least one of the two is not met with the share the rose gives it (the wider class is favoured 5 : 2). -/
theorem speed_share_violated (rose : List Row) (w : Fin 7 → ℝ) (N : ℝ) (hw : ∀ i, ClassSum rose i (w i))
    (hN : N = w 0 + w 1 + w 2 + w 3 + w 4 + w 5 + w 6) (hpos : ∀ i, 0 ≤ w i) (h0 : 0 < w 0) (h4 : 0 < w 4)
    (h6 : 0.014 * N ≤ w 6) :
    ¬ (Chance (sampleSpeed rose) (0 * 0.44704) (2 * 0.44704) (w 0 / N) ∧
      Chance (sampleSpeed rose) (10 * 0.44704) (15 * 0.44704) (w 4 / N)) := by
  have hN0 : 0 < N := by
    rw [hN]; have := hpos 1; have := hpos 2; have := hpos 3; have := hpos 5; have := hpos 6; linarith
  obtain ⟨T, hT, _, c0, _, _, _, c4, _⟩ := speed_chance rose w N hw hN hpos hN0 h6
  rintro ⟨d0, d4⟩
  have e0 := chance_unique _ _ _ _ _ c0 d0
  have e4 := chance_unique _ _ _ _ _ c4 d4
  have s0 : 0 < w 0 / N := div_pos h0 hN0
  have s4 : 0 < w 4 / N := div_pos h4 hN0
  rw [div_eq_iff hT.ne'] at e0 e4
  have t0 : T = 2 := by
    have : w 0 / N * (T - 2) = 0 := by linear_combination -e0
    rcases mul_eq_zero.1 this with h | h
    · exact absurd h s0.ne'
    · linarith
  have t4 : T = 5 := by
    have : w 4 / N * (T - 5) = 0 := by linear_combination -e4
    rcases mul_eq_zero.1 this with h | h
    · exact absurd h s4.ne'
    · linarith
  linarith

/-- a rose of one sector: 98 % of the wind in the class 10-15 mph, 2 % above 20 mph -/
noncomputable def windy : List Row := [⟨0, ![0, 0, 0, 0, 98, 0, 2]⟩]

theorem windy_sums : ∀ i, ClassSum windy i ((![0, 0, 0, 0, 98, 0, 2] : Fin 7 → ℝ) i) := by
  intro i
  simp [ClassSum, windy]

/-- **C68 violated.** The chance of a wind of 25 mph or more is documented to be 1 %; here it is less than 0.5 %, and a wind of
31 mph or more (documented chance 0.4 %) never occurs. -/
theorem extreme_wind_violated :
    (∃ p, p < 0.005 ∧ Chance (sampleSpeed windy) (25 * 0.44704) (31 * 0.44704) p) ∧
    ∀ q, 0 ≤ q → q < 1 → ∃ y, sampleSpeed windy q = .ok y ∧ y < 31 * 0.44704 := by
  obtain ⟨T, hT, hTe, _, _, _, _, _, _, _, _, c8, _, hq⟩ := speed_chance windy ![0, 0, 0, 0, 98, 0, 2] 100 windy_sums
    (by simp; norm_num) (by intro i; fin_cases i <;> simp) (by norm_num) (by simp; norm_num)
  refine ⟨⟨_, ?_, c8⟩, ?_⟩
  · rw [div_lt_iff₀ hT, hTe]
    simp
    norm_num
  · intro q q0 q1
    obtain ⟨y, h, _, h'⟩ := hq q q0 q1
    exact ⟨y, h, h'⟩

/-! ## Heading -/

theorem mapM_ok_iff {α β : Type} (f : α → Except PyErr β) (l : List α) (r : List β) :
    l.mapM f = .ok r ↔ List.Forall₂ (fun a b => f a = .ok b) l r := by
  induction l generalizing r with
  | nil =>
    rw [List.mapM_nil]
    constructor
    · intro h
      have : r = [] := (Except.ok.inj h).symm
      rw [this]; exact List.Forall₂.nil
    · intro h
      cases h
      rfl
  | cons a l ih =>
    rw [List.mapM_cons]
    cases hf : f a with
    | error e =>
      constructor
      · intro h; exact absurd h (by simp [bind, Except.bind])
      · intro h
        cases h with
        | cons h1 _ => rw [hf] at h1; exact absurd h1 (by simp)
    | ok b =>
      cases hl : l.mapM f with
      | error e =>
        constructor
        · intro h; exact absurd h (by simp [bind, Except.bind])
        · intro h
          cases h with
          | cons h1 h2 => rw [(ih _).2 h2] at hl; exact absurd hl (by simp)
      | ok bs =>
        constructor
        · intro h
          have : b :: bs = r := Except.ok.inj h
          rw [← this]
          exact List.Forall₂.cons hf ((ih bs).1 hl)
        · intro h
          cases h with
          | cons h1 h2 =>
            rw [hf] at h1
            rw [(ih _).2 h2] at hl
            show Except.ok (b :: bs) = _
            rw [Except.ok.inj h1, Except.ok.inj hl]

/-- **C68.** The share of a sector at a given speed: the rose's entry at the class speeds (3.5, 6, 8.5, 12.5, 17.5 and 23.5
mph), the entry of the lowest class below 3.5 mph and of the highest one above 23.5 mph. -/
theorem shareAt_spec (r : Row) :
    (∀ v, v ≤ 3.5 * 0.44704 → r.shareAt v = .ok (r.f 1)) ∧
    r.shareAt (6 * 0.44704) = .ok (r.f 2) ∧ r.shareAt (8.5 * 0.44704) = .ok (r.f 3) ∧
    r.shareAt (12.5 * 0.44704) = .ok (r.f 4) ∧ r.shareAt (17.5 * 0.44704) = .ok (r.f 5) ∧
    (∀ v, 23.5 * 0.44704 ≤ v → r.shareAt v = .ok (r.f 6)) := by
  have hs : classSpeeds.Pairwise (· < ·) := by unfold classSpeeds; norm_num
  have hb : classSpeeds = [0 * 0.44704, 3.5 * 0.44704, 6 * 0.44704, 8.5 * 0.44704, 12.5 * 0.44704, 17.5 * 0.44704,
    23.5 * 0.44704] := rfl
  have hn : classSpeeds ≠ [] := by simp [hb]
  have hl : classSpeeds.length = [r.f 1, r.f 1, r.f 2, r.f 3, r.f 4, r.f 5, r.f 6].length := by simp [hb]
  obtain ⟨h1, h2, h3⟩ := linInterp_spec classSpeeds [r.f 1, r.f 1, r.f 2, r.f 3, r.f 4, r.f 5, r.f 6] hs hn hl
  refine ⟨?_, h1 2 (by simp [hb]), h1 3 (by simp [hb]), h1 4 (by simp [hb]), h1 5 (by simp [hb]), ?_⟩
  · intro v hv
    rcases le_or_gt v 0 with h0 | h0
    · obtain ⟨_, h⟩ := h2 v (by simpa [hb] using h0)
      exact h
    · have := linInterp_between classSpeeds [r.f 1, r.f 1, r.f 2, r.f 3, r.f 4, r.f 5, r.f 6] v 0 hs hl (by simp [hb])
        (by simpa [hb] using h0.le) (by simpa [hb] using hv)
      unfold Row.shareAt
      rw [this]
      simp
  · intro v hv
    obtain ⟨_, h⟩ := h3 v (by simpa [hb] using hv)
    exact h

/-- **C68.** The sampled heading. `r0` is the sector of direction 0 and `rest` the others in increasing order; `vals` are the
shares at the given speed of `rest` and then `r0`, none negative and not all zero. The heading falls between two successive
directions `bins` (0, the directions, 360) with a probability proportional to the share of the sector at the *upper* end times
the distance of the two. -/
theorem heading_chance (r0 : Row) (rest : List Row) (speed : ℝ) (vals : List ℝ) (h0 : r0.dir = 0)
    (hs : (0 :: (rest.map Row.dir ++ [360])).Pairwise (· < ·))
    (hvals : List.Forall₂ (fun r v => r.shareAt speed = .ok v) (rest ++ [r0]) vals) (hv : ∀ v ∈ vals, 0 ≤ v)
    (hp : ∃ v ∈ vals, 0 < v) :
    let bins := 0 :: (rest.map Row.dir ++ [360])
    ∃ hl : vals.length + 1 = bins.length, ∃ T, 0 < T ∧
      (∀ i (h : i < vals.length), Chance (sampleHeading (r0 :: rest) speed) (bins[i]'(by omega)) (bins[i + 1]'(by omega))
        (vals[i] * (bins[i + 1]'(by omega) - bins[i]'(by omega)) / T)) ∧
      ∀ q, 0 ≤ q → q < 1 → ∃ y i, sampleHeading (r0 :: rest) speed q = .ok y ∧
        ∃ h : i < vals.length, 0 < vals[i] ∧ bins[i]'(by omega) ≤ y ∧ y < bins[i + 1]'(by omega) := by
  intro bins
  have hlen : vals.length + 1 = bins.length := by
    have := hvals.length_eq
    simp [bins] at this ⊢
    omega
  have hpos : ∀ r ∈ rest, r.dir ≠ 0 := by
    intro r hr h
    have := (List.pairwise_cons.1 hs).1 r.dir (by simp only [List.mem_append, List.mem_map]; left; exact ⟨r, hr, rfl⟩)
    rw [h] at this
    exact lt_irrefl _ this
  have htab : headingTable (r0 :: rest) = .ok (rest ++ [⟨360, r0.f⟩], bins) := by
    unfold headingTable
    have hfind : (r0 :: rest).find? (fun r => decide (r.dir = 0)) = some r0 := by simp [h0]
    rw [hfind]
    have hfil : (r0 :: rest).filter (fun r => decide (r.dir ≠ 0)) = rest := by
      rw [List.filter_cons_of_neg (by simp [h0])]
      apply List.filter_eq_self.2
      intro r hr
      simpa using hpos r hr
    dsimp only
    rw [hfil]
    simp [bins]
  have hmap : (rest ++ [(⟨360, r0.f⟩ : Row)]).mapM (fun r : Row => r.shareAt speed) = .ok vals := by
    rw [mapM_ok_iff]
    have : ∀ (l : List Row) (vs : List ℝ), List.Forall₂ (fun (r : Row) v => r.shareAt speed = .ok v) (l ++ [r0]) vs →
        List.Forall₂ (fun (r : Row) v => r.shareAt speed = .ok v) (l ++ [(⟨360, r0.f⟩ : Row)]) vs := by
      intro l
      induction l with
      | nil =>
        intro vs h
        cases h with
        | cons h1 h2 => exact List.Forall₂.cons h1 h2
      | cons a l ih =>
        intro vs h
        cases h with
        | cons h1 h2 => exact List.Forall₂.cons h1 (ih _ h2)
    exact this rest vals hvals
  obtain ⟨T, hT, _, hc, hq⟩ := ppf_chance (sampleHeading (r0 :: rest) speed) vals bins
    (by intro q _ _; unfold sampleHeading; rw [htab]; dsimp only; rw [hmap]) hlen hs hv hp
  exact ⟨hlen, T, hT, hc, hq⟩

/-- **C68 violated.** Headings are shifted: when all the wind comes from the sector around 10° (5° to 15°), every sampled heading
is between 0° and 10°. -/
theorem heading_shift_violated (f : Fin 7 → ℝ) (hf : 0 < f 1) (speed q : ℝ) (hs : speed ≤ 3.5 * 0.44704) (h0 : 0 ≤ q) (h1 : q < 1) :
    ∃ h, sampleHeading [⟨0, fun _ => 0⟩, ⟨10, f⟩, ⟨20, fun _ => 0⟩] speed q = .ok h ∧ 0 ≤ h ∧ h < 10 := by
  obtain ⟨hl, T, hT, _, hq⟩ := heading_chance ⟨0, fun _ => 0⟩ [⟨10, f⟩, ⟨20, fun _ => 0⟩] speed [f 1, 0, 0] rfl (by norm_num)
    (by
      refine List.Forall₂.cons ((shareAt_spec _).1 speed hs) (List.Forall₂.cons ((shareAt_spec _).1 speed hs)
        (List.Forall₂.cons ((shareAt_spec _).1 speed hs) List.Forall₂.nil)))
    (by intro v hv; simp at hv; rcases hv with rfl | rfl <;> [exact hf.le; exact le_refl _]) ⟨f 1, by simp, hf⟩
  obtain ⟨y, i, hy, hi, hv, hlo, hhi⟩ := hq q h0 h1
  have : i = 0 := by
    simp at hi
    interval_cases i
    · rfl
    · simp at hv
    · simp at hv
  subst this
  exact ⟨y, hy, by simpa using hlo, by simpa using hhi⟩

/-! ## Wind vector and averaging -/

/-- **C68.** The sampled wind is horizontal, blows with the sampled speed and comes from the sampled heading, which is drawn at
that speed. -/
theorem sampleWind_spec (rose : List Row) (q₁ q₂ : ℝ) (u : V3 ℝ) :
    sampleWind rose q₁ q₂ = .ok u ↔ ∃ v h, sampleSpeed rose q₁ = .ok v ∧ sampleHeading rose v q₂ = .ok h ∧
      u.x = -(v * Real.sin (h * Real.pi / 180)) ∧ u.y = -(v * Real.cos (h * Real.pi / 180)) ∧ u.z = 0 := by
  unfold sampleWind
  cases hv : sampleSpeed rose q₁ with
  | error e => simp
  | ok v =>
    dsimp only
    cases hh : sampleHeading rose v q₂ with
    | error e =>
      simp only [reduceCtorEq, false_iff, not_exists, not_and]
      rintro v' h' e1 e2
      rw [← Except.ok.inj e1] at e2
      rw [hh] at e2
      exact absurd e2 (by simp)
    | ok h =>
      obtain ⟨d1, _, d2, d3⟩ := windDirection_spec h
      constructor
      · intro e
        have e := (Except.ok.inj e).symm
        refine ⟨v, h, rfl, hh, ?_, ?_, ?_⟩
        · rw [e, smul_x, d2]; ring
        · rw [e, smul_y, d3]; ring
        · rw [e, smul_z, d1]; ring
      · rintro ⟨v', h', e1, e2, x1, x2, x3⟩
        rw [← Except.ok.inj e1] at e2 x1 x2
        rw [hh] at e2
        rw [← Except.ok.inj e2] at x1 x2
        show Except.ok (v • windDirection h 0) = _
        congr 1
        apply V3.ext'
        · rw [x1, smul_x, d2]; ring
        · rw [x2, smul_y, d3]; ring
        · rw [x3, smul_z, d1]; ring

theorem average_aux (D : List ℝ) (roses : List (ℝ × List Row)) (hr : ∀ wr ∈ roses, wr.2.map Row.dir = D) (k : ℝ) :
    ∀ acc : List Row, acc.map Row.dir = D.map (· * k) →
    (roses.foldl (fun acc wr => List.zipWith Row.add acc (wr.2.map fun r => (r.scale 1).scale wr.1)) acc).map Row.dir =
      D.map (· * (k + (roses.map Prod.fst).sum)) := by
  induction roses generalizing k with
  | nil => intro acc h; simpa using h
  | cons wr roses ih =>
    intro acc h
    rw [List.foldl_cons]
    have h2 := hr wr (by simp)
    rw [ih (fun x hx => hr x (by simp [hx])) (k + wr.1)]
    · simp [add_assoc]
    · apply List.ext_getElem
      · have l1 := congrArg List.length h
        have l2 := congrArg List.length h2
        simp at l1 l2 ⊢
        omega
      · intro i h3 h4
        have l1 := congrArg List.length h
        have l2 := congrArg List.length h2
        simp at l1 l2 h4
        have e1 : (acc[i]'(by omega)).dir = D[i] * k := by
          have := congrArg (fun l : List ℝ => l[i]?) h
          simpa [List.getElem?_eq_getElem (show i < acc.length by omega), List.getElem?_eq_getElem h4] using this
        have e2 : (wr.2[i]'(by omega)).dir = D[i] := by
          have := congrArg (fun l : List ℝ => l[i]?) h2
          simpa [List.getElem?_eq_getElem (show i < wr.2.length by omega), List.getElem?_eq_getElem h4] using this
        simp [Row.add, Row.scale, e1, e2]
        ring

/-- **C68 (partial: weights adding up to one).** Averaging several locations keeps the directions of the sectors when the weights
add up to one; in general the directions are multiplied by the sum of the weights. -/
theorem average_dirs_partial (base : List Row) (roses : List (ℝ × List Row)) (hr : ∀ wr ∈ roses, wr.2.map Row.dir = base.map Row.dir) :
    (average base roses).map Row.dir = (base.map Row.dir).map (· * (roses.map Prod.fst).sum) ∧
    ((roses.map Prod.fst).sum = 1 → (average base roses).map Row.dir = base.map Row.dir) := by
  have h := average_aux (base.map Row.dir) roses hr 0 (base.map fun r => r.scale 0) (by
    rw [List.map_map, List.map_map]; rfl)
  rw [zero_add] at h
  refine ⟨h, ?_⟩
  intro h1
  unfold average
  rw [h, h1]
  simp

/-- **C68 violated.** With the weights 1 and 1 for two locations (equal weights, which the radiosonde sampler accepts) a sector
at 10° becomes one at 20°. -/
theorem average_weights_violated (f g : Fin 7 → ℝ) :
    (average [⟨0, f⟩, ⟨10, f⟩] [(1, [⟨0, f⟩, ⟨10, f⟩]), (1, [⟨0, g⟩, ⟨10, g⟩])]).map Row.dir = [0, 20] := by
  have := (average_dirs_partial [⟨0, f⟩, ⟨10, f⟩] [(1, [⟨0, f⟩, ⟨10, f⟩]), (1, [⟨0, g⟩, ⟨10, g⟩])] (by simp)).1
  rw [this]
  norm_num

/-- **C68.** The averaged shares are the weighted sums of the locations' shares (two locations). -/
theorem average_two (base a b : List Row) (w v : ℝ) (ha : a.length = base.length) (hb : b.length = base.length) :
    (average base [(w, a), (v, b)]).length = base.length ∧
    ∀ i (h : i < (average base [(w, a), (v, b)]).length) (h1 : i < a.length) (h2 : i < b.length) k,
      ((average base [(w, a), (v, b)])[i]).f k = w * a[i].f k + v * b[i].f k := by
  constructor
  · simp [average, ha, hb]
  · intro i h h1 h2 k
    simp [average, Row.add, Row.scale]
    ring

/-- **C68.** Directions of the sectors: the middle of the interval given, except for the first one. -/
theorem directions_spec (s : ℝ × ℝ) (rest : List (ℝ × ℝ)) :
    (directions (s :: rest)).head? = some 0 ∧ (directions (s :: rest)).tail = rest.map fun x => (x.1 + x.2) / 2 :=
  ⟨rfl, rfl⟩

example : directions [(0, 10), (0, 20), (10, 30)] = [0, 10, 20] := by norm_num [directions]

example : ¬ (Chance (sampleSpeed [⟨0, ![10, 20, 20, 20, 10, 10, 10]⟩]) (0 * 0.44704) (2 * 0.44704) (10 / 100) ∧
    Chance (sampleSpeed [⟨0, ![10, 20, 20, 20, 10, 10, 10]⟩]) (10 * 0.44704) (15 * 0.44704) (10 / 100)) :=
  speed_share_violated [⟨0, ![10, 20, 20, 20, 10, 10, 10]⟩] ![10, 20, 20, 20, 10, 10, 10] 100
    (by intro i; simp [ClassSum]) (by simp; norm_num) (by intro i; fin_cases i <;> simp) (by simp) (by simp) (by simp; norm_num)

end Rose

end Mapleaf.ENV
