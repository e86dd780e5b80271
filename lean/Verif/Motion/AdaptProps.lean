import Verif.Motion.IntegMethods
import Mathlib.Algebra.Order.Archimedean.Basic
import Mathlib.Analysis.Real.Sqrt

/-! # C21, C22: adaptive stepping -/

set_option linter.unusedSectionVars false

namespace Mapleaf.Motion.RK

section loop
variable {K S : Type} [Field K] [LinearOrder K] [IsStrictOrderedRing K]

/-- The `i`-th step size an adaptive step may try: the requested step divided by three `i` times, but at least the minimum. -/
def sizeAt (s : Settings K) (dt : K) (i : ℕ) : K := max s.minTimeStep (dt / 3 ^ i)

/-- An attempt is admissible if its error is at most 20 times the target or the step is at the minimum. -/
def Admissible (s : Settings K) (g : K → Attempt K S) (h : K) : Prop :=
  (g h).error ≤ 20 * s.targetError ∨ isclose h s.minTimeStep = true

theorem isclose_refl (a : K) : isclose a a = true := by
  unfold isclose
  rw [decide_eq_true_eq, sub_self, abs_zero]
  positivity

theorem sizeAt_succ (s : Settings K) (hmin : 0 < s.minTimeStep) (dt : K) (i : ℕ) :
    max s.minTimeStep (sizeAt s dt i / 3) = sizeAt s dt (i + 1) := by
  unfold sizeAt
  rw [pow_succ, ← div_div]
  rcases le_total s.minTimeStep (dt / 3 ^ i) with h | h
  · rw [max_eq_right h]
  · rw [max_eq_left h, max_eq_left (by linarith), max_eq_left (by linarith)]

theorem loop_from (s : Settings K) (hmin : 0 < s.minTimeStep) (g : K → Attempt K S) (dt : K) (n : ℕ)
    (hno : ∀ i < n, ¬ Admissible s g (sizeAt s dt i)) (hyes : Admissible s g (sizeAt s dt n)) :
    ∀ (k i : ℕ), i + k = n → ∀ (d err : K) (prev : Option (Attempt K S)) (tried : List K) (disc fuel : ℕ),
      err > 20 * s.targetError → max s.minTimeStep (d / 3) = sizeAt s dt i → k < fuel →
      attemptLoop s (fun h => .ok (g h)) fuel d err prev tried disc =
        .ok ⟨g (sizeAt s dt n), sizeAt s dt n, tried ++ (List.range' i (k + 1)).map (sizeAt s dt),
          disc + (if err ≠ 10000000 then 1 else 0) +
            ((List.range' i k).filter (fun j => decide ((g (sizeAt s dt j)).error ≠ 10000000))).length⟩ := by
  intro k
  induction k with
  | zero =>
    intro i hi d err prev tried disc fuel herr hd hf
    obtain ⟨f, rfl⟩ : ∃ f, fuel = f + 1 := ⟨fuel - 1, by omega⟩
    have hin : i = n := by omega
    subst hin
    rw [attemptLoop.eq_def]
    dsimp only
    rw [if_pos herr]
    rw [hd]
    by_cases hc : isclose (sizeAt s dt i) s.minTimeStep = true
    · rw [if_pos hc]
      simp only [List.range', List.map_cons, List.map_nil, List.filter_nil, List.length_nil, Nat.add_zero]
      split <;> rfl
    · rw [if_neg hc]
      have hle : (g (sizeAt s dt i)).error ≤ 20 * s.targetError := hyes.resolve_right hc
      rw [attemptLoop.eq_def]
      dsimp only
      rw [if_neg (not_lt.2 hle)]
      simp only [List.range', List.map_cons, List.map_nil, List.filter_nil, List.length_nil, Nat.add_zero]
      split <;> rfl
  | succ k ih =>
    intro i hi d err prev tried disc fuel herr hd hf
    obtain ⟨f, rfl⟩ : ∃ f, fuel = f + 1 := ⟨fuel - 1, by omega⟩
    have hna := hno i (by omega)
    unfold Admissible at hna
    rw [not_or, not_le] at hna
    rw [attemptLoop.eq_def]
    dsimp only
    rw [if_pos herr]
    rw [hd, if_neg hna.2]
    rw [ih (i + 1) (by omega) (sizeAt s dt i) (g (sizeAt s dt i)).error _ _ _ f hna.1 (sizeAt_succ s hmin dt i) (by omega)]
    rw [List.range'_succ (n := k + 1), List.range'_succ (s := i) (n := k), List.filter_cons, List.map_cons, List.append_assoc,
      List.singleton_append]
    congr 2
    by_cases he : (g (sizeAt s dt i)).error = 10000000 <;> by_cases he2 : err = 10000000 <;> simp [he, he2] <;> omega

theorem sizeAt_reaches [Archimedean K] (s : Settings K) (hmin : 0 < s.minTimeStep) (dt : K) : ∃ i, sizeAt s dt i = s.minTimeStep := by
  obtain ⟨i, hi⟩ := pow_unbounded_of_one_lt (dt / s.minTimeStep) (by norm_num : (1 : K) < 3)
  refine ⟨i, max_eq_left ?_⟩
  rw [div_lt_iff₀ hmin] at hi
  rw [div_le_iff₀ (by positivity)]
  linarith

/-- **C21.** For every error function: with a positive minimum step and an error target below 500000 an adaptive step
terminates after `n` rejections. It tries the requested step divided by 3 as often as needed, never below the minimum; it
rejects exactly the attempts that are not admissible; what it returns is the attempt of the accepted size, which is
admissible and not larger than the request (or the minimum); the discard callback is called once for each rejected attempt
whose error is not exactly 10000000. -/
theorem adaptive_accepts [Archimedean K] (s : Settings K) (hmin : 0 < s.minTimeStep) (htarget : s.targetError < 500000)
    (g : K → Attempt K S) (dt : K) :
    ∃ n, (∀ i < n, ¬ Admissible s g (max s.minTimeStep (dt / 3 ^ i))) ∧ Admissible s g (max s.minTimeStep (dt / 3 ^ n)) ∧
      ∀ fuel > n, ∃ L, adaptiveCall s (fun h => .ok (g h)) fuel dt = .ok L ∧
        L.dt = max s.minTimeStep (dt / 3 ^ n) ∧ L.result = g L.dt ∧
        L.tried = (List.range (n + 1)).map (fun i => max s.minTimeStep (dt / 3 ^ i)) ∧
        L.discards = ((List.range n).filter (fun i => decide ((g (max s.minTimeStep (dt / 3 ^ i))).error ≠ 10000000))).length := by
  classical
  have hex : ∃ i, Admissible s g (sizeAt s dt i) := by
    obtain ⟨i, hi⟩ := sizeAt_reaches s hmin dt
    exact ⟨i, .inr (by rw [hi]; exact isclose_refl _)⟩
  refine ⟨Nat.find hex, fun i hi => Nat.find_min hex hi, Nat.find_spec hex, ?_⟩
  intro fuel hf
  have h := loop_from s hmin g dt (Nat.find hex) (fun i hi => Nat.find_min hex hi) (Nat.find_spec hex) (Nat.find hex) 0
    (by omega) (dt * 3) 10000000 none [] 0 fuel (by linarith) (by unfold sizeAt; simp) hf
  refine ⟨_, h, rfl, rfl, ?_, ?_⟩
  · rw [List.nil_append, List.range_eq_range']; rfl
  · simp only [ne_eq, not_true_eq_false, if_false, Nat.add_zero, Nat.zero_add]
    rw [List.range_eq_range']; rfl

/-- The accepted step is never larger than the requested one, unless the request was below the minimum. -/
theorem accepted_le (s : Settings K) (dt : K) (n : ℕ) (hdt : 0 ≤ dt) :
    max s.minTimeStep (dt / 3 ^ n) ≤ max s.minTimeStep dt := by
  apply max_le_max (le_refl _)
  apply div_le_self hdt
  exact one_le_pow₀ (by norm_num)

/-- **C21.** The built-in methods always produce an attempt, so the preceding theorem applies to them: for every
right-hand side, state, cache and requested step, the accepted result is the attempt of the accepted size. -/
theorem adaptive_step_admissible [Archimedean K] [AddCommGroup S] [Module K S] (s : Settings K) (hmin : 0 < s.minTimeStep)
    (htarget : s.targetError < 500000) (mp : String × ℕ × ℕ) (hmp : mp ∈ adaptiveMethods) (mag : S → K) (cache : Option S)
    (f : K → S → S) (t : K) (y : S) (dt : K) (hdt : 0 ≤ dt) :
    ∃ (tab : Tableau K) (fsal : Bool) (n : ℕ), adaptiveWorking mp.1 = .ok (tab, fsal) ∧ ∀ fuel > n, ∃ L,
      adaptiveCall s (fun h => attempt mag tab cache f t y h) fuel dt = .ok L ∧
      attempt mag tab cache f t y L.dt = .ok L.result ∧
      (L.result.error ≤ 20 * s.targetError ∨ isclose L.dt s.minTimeStep = true) ∧
      s.minTimeStep ≤ L.dt ∧ L.dt ≤ max s.minTimeStep dt := by
  obtain ⟨tab, fsal, hm, hc, hs, _, _⟩ := adaptive_good mp hmp
  have hall : ∀ h, ∃ a, attempt mag (castT (patch tab) : Tableau K) cache f t y h = .ok a := fun h => by
    obtain ⟨a, _, h1, _⟩ := adaptive_runs (K := K) mag tab hs cache f t y h
    exact ⟨a, h1⟩
  choose g hg using hall
  obtain ⟨n, _, hy, hL⟩ := adaptive_accepts s hmin htarget g dt
  refine ⟨castT (patch tab), fsal, n, ?_, ?_⟩
  · unfold adaptiveWorking; rw [hm]; dsimp only; rw [checkTableau_cast tab hc]
  · intro fuel hf
    obtain ⟨L, h1, h2, h3, _, _⟩ := hL fuel hf
    have : (fun h => attempt mag (castT (patch tab) : Tableau K) cache f t y h) = fun h => .ok (g h) := funext hg
    rw [this]
    refine ⟨L, h1, by rw [hg, h3], ?_, ?_, ?_⟩
    · rw [h3, h2]; exact hy
    · rw [h2]; exact le_max_left _ _
    · rw [h2]; exact accepted_le s dt n hdt

/-- **C21 violated.** An error target of 500000 or more makes the first test of the loop fail: no attempt is made and the
call raises. -/
theorem large_target_violated (s : Settings K) (try_ : K → Except PyErr (Attempt K S)) (fuel : ℕ) (dt : K)
    (h : 500000 ≤ s.targetError) : adaptiveCall s try_ fuel dt = .error .runtimeError := by
  unfold adaptiveCall
  rw [attemptLoop.eq_def]
  dsimp only
  rw [if_neg (by push Not; linarith)]

end loop

/-- Number of discard calls, if the call succeeds. -/
def discards? {K S : Type} : Except PyErr (Loop K S) → Option ℕ
  | .ok L => some L.discards
  | .error _ => none

/-- **C21 violated.** A rejected attempt whose error is exactly 10000000 is taken for the first pass of the loop: it is not
reported as discarded. -/
theorem sentinel_error_violated :
    discards? (adaptiveCall (⟨1, 1, 10, 1/2, 2, 1⟩ : Settings ℚ)
      (fun h => .ok (⟨(), (), if h = 3 then 10000000 else 0, (), []⟩ : Attempt ℚ Unit)) 10 3) = some 0 ∧
    discards? (adaptiveCall (⟨1, 1, 10, 1/2, 2, 1⟩ : Settings ℚ)
      (fun h => .ok (⟨(), (), if h = 3 then 10000001 else 0, (), []⟩ : Attempt ℚ Unit)) 10 3) = some 1 := by
  constructor <;> decide +kernel

/-! ## C22 -/

section factor
variable {K : Type} [Field K] [LinearOrder K] [IsStrictOrderedRing K]

/-- **C22.** Whatever the controller asks for, the factor is the desired factor limited to an interval, times the safety
factor. The interval is the one set by the configured factors cut down to the step sizes between minimum and maximum. -/
theorem limit_spec (s : Settings K) (desired dt : K) (hdt : 0 < dt)
    (hlohi : max (s.minTimeStep / dt) s.minFactor ≤ min (s.maxTimeStep / dt) s.maxFactor) :
    ∃ x, limitFactor s desired dt = .ok (s.safetyFactor * x) ∧
      (s.minTimeStep ≤ dt * x ∧ dt * x ≤ s.maxTimeStep ∧ s.minFactor ≤ x ∧ x ≤ s.maxFactor) ∧
      (∀ z, s.minTimeStep ≤ dt * z → dt * z ≤ s.maxTimeStep → s.minFactor ≤ z → z ≤ s.maxFactor → |desired - x| ≤ |desired - z|) := by
  unfold limitFactor
  rw [if_neg hdt.ne']
  dsimp only
  set lo := max (s.minTimeStep / dt) s.minFactor with hlo
  set hi := min (s.maxTimeStep / dt) s.maxFactor with hhi
  have hlx : lo ≤ min (max desired lo) hi := le_min (le_max_right _ _) hlohi
  have hxh : min (max desired lo) hi ≤ hi := min_le_right _ _
  refine ⟨_, rfl, ⟨?_, ?_, ?_, ?_⟩, ?_⟩
  · have := (le_max_left _ _).trans hlx; rwa [div_le_iff₀ hdt, mul_comm] at this
  · have := hxh.trans (min_le_left _ _); rwa [le_div_iff₀ hdt, mul_comm] at this
  · exact (le_max_right _ _).trans hlx
  · exact hxh.trans (min_le_right _ _)
  · intro z h1 h2 h3 h4
    have hz1 : lo ≤ z := max_le (by rw [div_le_iff₀ hdt, mul_comm]; exact h1) h3
    have hz2 : z ≤ hi := le_min (by rw [le_div_iff₀ hdt, mul_comm]; exact h2) h4
    rcases le_total desired lo with h | h
    · rw [max_eq_right h, min_eq_left hlohi, abs_of_nonpos (by linarith), abs_of_nonpos (by linarith)]; linarith
    · rw [max_eq_left h]
      rcases le_total desired hi with h' | h'
      · rw [min_eq_left h', sub_self, abs_zero]; positivity
      · rw [min_eq_right h', abs_of_nonneg (by linarith), abs_of_nonneg (by linarith)]; linarith

/-- **C22.** Bounds that follow for the next step. The step the next call tries first lies between the configured minimum
and maximum, whatever the controller asks for. -/
theorem next_step_bounded (s : Settings K) (desired dt : K) (hmin : 0 < s.minTimeStep) (hdt : s.minTimeStep ≤ dt)
    (hmm : s.minTimeStep ≤ s.maxTimeStep) (hs0 : 0 ≤ s.safetyFactor) (hs1 : s.safetyFactor ≤ 1) :
    ∃ φ, limitFactor s desired dt = .ok φ ∧ dt * φ ≤ s.maxTimeStep ∧
      s.minTimeStep ≤ max s.minTimeStep (dt * φ) ∧ max s.minTimeStep (dt * φ) ≤ s.maxTimeStep := by
  have hdt0 : 0 < dt := lt_of_lt_of_le hmin hdt
  unfold limitFactor
  rw [if_neg hdt0.ne']
  dsimp only
  set x := min (max desired (max (s.minTimeStep / dt) s.minFactor)) (min (s.maxTimeStep / dt) s.maxFactor) with hx
  have h1 : dt * x ≤ s.maxTimeStep := by
    have : x ≤ s.maxTimeStep / dt := (min_le_right _ _).trans (min_le_left _ _)
    rwa [le_div_iff₀ hdt0, mul_comm] at this
  have h2 : dt * (s.safetyFactor * x) ≤ s.maxTimeStep := by
    have : dt * (s.safetyFactor * x) = s.safetyFactor * (dt * x) := by ring
    rw [this]
    rcases le_total (dt * x) 0 with h | h
    · have := mul_nonpos_of_nonneg_of_nonpos hs0 h; linarith
    · have := mul_le_mul_of_nonneg_right hs1 h; linarith
  exact ⟨_, rfl, h2, le_max_left _ _, max_le hmm h2⟩

/-- A zero step makes the limiter divide by zero. -/
theorem limit_zero (s : Settings K) (desired : K) : limitFactor s desired 0 = .error .zeroDivision := by
  unfold limitFactor; rw [if_pos rfl]

/-- **C22 violated.** The safety factor is applied after limiting: the proposed step and factor fall below the configured
minima. -/
theorem safety_factor_violated :
    limitFactor (⟨1, 1, 10, 1/2, 2, 9/10⟩ : Settings ℚ) 0 1 = .ok (9/10) ∧
    (1 : ℚ) * (9/10) < (⟨1, 1, 10, 1/2, 2, 9/10⟩ : Settings ℚ).minTimeStep ∧
    limitFactor (⟨1, 1/100, 10, 1/2, 2, 9/10⟩ : Settings ℚ) 0 1 = .ok (9/20) ∧
    (9/20 : ℚ) < (⟨1, 1/100, 10, 1/2, 2, 9/10⟩ : Settings ℚ).minFactor := by
  refine ⟨?_, by norm_num, ?_, by norm_num⟩ <;> (unfold limitFactor; norm_num)

end factor

/-- Integration.py:380-382: the factor asked for by the elementary controller -/
noncomputable def elementaryFactor (target err : ℝ) : Except PyErr ℝ :=
  if 2 * err = 0 then .error .zeroDivision else .ok (Real.sqrt (target / (2 * err)))

/-- **C22.** Elementary controller: the step shrinks when the error is above half the target (unless a limit prevents it)
and the factor is the square root of half the target over the error; an error of exactly zero raises. -/
theorem elementary_spec (target err : ℝ) (ht : 0 < target) (he : 0 < err) :
    ∃ φ, elementaryFactor target err = .ok φ ∧ 0 < φ ∧ φ ^ 2 * (2 * err) = target ∧ (φ < 1 ↔ target / 2 < err) := by
  have h2 : (0 : ℝ) < 2 * err := by linarith
  have hq : 0 < target / (2 * err) := div_pos ht h2
  refine ⟨_, by unfold elementaryFactor; rw [if_neg h2.ne'], Real.sqrt_pos.2 hq, ?_, ?_⟩
  · rw [Real.sq_sqrt hq.le]; field_simp
  · rw [Real.sqrt_lt' one_pos, one_pow]
    constructor
    · intro h; rw [div_lt_one h2] at h; linarith
    · intro h; rw [div_lt_one h2]; linarith

/-- **C22 violated.** When both results agree exactly (error zero) the elementary controller raises. -/
theorem elementary_zero_violated (target : ℝ) : elementaryFactor target 0 = .error .zeroDivision := by
  unfold elementaryFactor; rw [if_pos (by norm_num)]

/-- **C22.** With the elementary controller a step whose error exceeds half the target is followed by a smaller one. -/
theorem elementary_shrinks (s : Settings ℝ) (err dt : ℝ) (ht : 0 < s.targetError) (he : s.targetError / 2 < err)
    (hmin : s.minTimeStep < dt) (hdt : 0 < dt) (hf : s.minFactor < 1) (hs0 : 0 < s.safetyFactor) (hs1 : s.safetyFactor ≤ 1) :
    ∃ d φ, elementaryFactor s.targetError err = .ok d ∧ limitFactor s d dt = .ok φ ∧ φ < s.safetyFactor ∧ dt * φ < dt := by
  obtain ⟨d, h1, _, _, h4⟩ := elementary_spec s.targetError err ht (by linarith)
  have hd1 := h4.2 he
  have hx : min (max d (max (s.minTimeStep / dt) s.minFactor)) (min (s.maxTimeStep / dt) s.maxFactor) < 1 := by
    apply lt_of_le_of_lt (min_le_left _ _)
    apply max_lt hd1
    apply max_lt _ hf
    rw [div_lt_one hdt]; exact hmin
  have hφ : s.safetyFactor * min (max d (max (s.minTimeStep / dt) s.minFactor)) (min (s.maxTimeStep / dt) s.maxFactor)
      < s.safetyFactor := by
    calc _ < s.safetyFactor * 1 := mul_lt_mul_of_pos_left hx hs0
      _ = _ := mul_one _
  refine ⟨d, _, h1, by unfold limitFactor; rw [if_neg hdt.ne'], hφ, ?_⟩
  calc _ < dt * 1 := mul_lt_mul_of_pos_left (lt_of_lt_of_le hφ hs1) hdt
    _ = dt := mul_one _

/-! ### Examples -/

/-- Hypotheses of `adaptive_accepts` with the default settings (SimDefinitionTemplate): target 0.001, steps 0.0001 to 30. -/
example : (0 : ℚ) < (⟨1/1000, 1/10000, 30, 3/10, 3/2, 9/10⟩ : Settings ℚ).minTimeStep ∧
    (⟨1/1000, 1/10000, 30, 3/10, 3/2, 9/10⟩ : Settings ℚ).targetError < 500000 := by norm_num
/-- and an error function that rejects the steps above 1/2: two rejections from a request of 3. -/
example : discards? (adaptiveCall (⟨1/1000, 1/10000, 30, 3/10, 3/2, 9/10⟩ : Settings ℚ)
    (fun h => .ok (⟨(), (), h, (), []⟩ : Attempt ℚ Unit)) 20 (9/50)) = some 2 := by decide +kernel
example : max ((1/10000 : ℚ) / (1/10)) (3/10) ≤ min (30 / (1/10)) (3/2) := by norm_num

end Mapleaf.Motion.RK
