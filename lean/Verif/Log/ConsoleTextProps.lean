import Verif.Log.ConsoleModel
import Verif.SimDef.WriterProps
import Mathlib.Tactic.FieldSimp
import Mathlib.Tactic.Ring

/-! # C83: Monte Carlo log, statistics, rows read from an old log -/

namespace Mapleaf.Console

open Mapleaf Mapleaf.Motion

/-! ## Monte Carlo log -/

/-- **C83** Every entry of the Monte Carlo log ends its line; an entry that does already is written as it is. -/
theorem withLineEnd_spec (line : Str) :
    (∀ p, line = p ++ ['\n'] → withLineEnd line = line) ∧
    ((∀ p, line ≠ p ++ ['\n']) → withLineEnd line = line ++ ['\n']) := by
  have hn : "\n".toList = ['\n'] := by decide +kernel
  unfold withLineEnd
  rw [hn]
  constructor
  · rintro p rfl
    simp
  · intro h
    rcases List.eq_nil_or_concat line with rfl | ⟨p, c, rfl⟩
    · rfl
    · rw [List.concat_eq_append, List.getLast?_concat]
      dsimp only
      rw [if_pos]
      rintro rfl
      exact h p (by simp)

/-- **C83** The file holds the entries in order, each with its line end. -/
theorem mcFile_spec (log more : List Str) (entry : Str) :
    mcFile [] = [] ∧ mcFile (log ++ more) = mcFile log ++ mcFile more ∧
    mcFile [entry ++ ['\n']] = entry ++ ['\n'] ∧
    ((∀ p, entry ≠ p ++ ['\n']) → mcFile [entry] = entry ++ ['\n']) := by
  refine ⟨rfl, by simp [mcFile], ?_, fun h => ?_⟩
  · simp only [mcFile, List.map_cons, List.map_nil, List.flatten_cons, List.flatten_nil, List.append_nil]
    exact (withLineEnd_spec _).1 entry rfl
  · simp only [mcFile, List.map_cons, List.map_nil, List.flatten_cons, List.flatten_nil, List.append_nil]
    exact (withLineEnd_spec _).2 h

example : ∀ p : Str, "Apogees:".toList ≠ p ++ ['\n'] := by
  intro p h
  have := congrArg List.getLast? h
  rw [List.getLast?_concat] at this
  revert this
  decide +kernel

/-! ## Statistics -/

/-- **C83** The mean exists if there is a value, and is the sum divided by the number of values. -/
theorem mean_ok_iff (l : List ℝ) (m : ℝ) : mean l = .ok m ↔ l ≠ [] ∧ m * l.length = l.sum := by
  unfold mean
  by_cases h : l.length = 0
  · rw [if_pos h]
    simp [List.length_eq_zero_iff.1 h]
  · rw [if_neg h]
    have hl : (l.length : ℝ) ≠ 0 := Nat.cast_ne_zero.2 h
    constructor
    · intro e
      cases e
      refine ⟨fun h' => h (by rw [h']; rfl), by field_simp⟩
    · rintro ⟨_, e⟩
      congr 1
      rw [div_eq_iff hl, e]

/-- **C83** The standard deviation exists if there are two values; it is that of a sample: not negative, and its square times
the number of values less one is the sum of the squared distances from the mean. -/
theorem stdev_ok_iff (l : List ℝ) (sd : ℝ) :
    stdev l = .ok sd ↔ 2 ≤ l.length ∧ 0 ≤ sd ∧ ∀ m, m * l.length = l.sum →
      sd ^ 2 * ((l.length : ℝ) - 1) = (l.map (fun x => (x - m) ^ 2)).sum := by
  unfold stdev
  by_cases h : l.length < 2
  · rw [if_pos h]
    constructor
    · intro e; cases e
    · rintro ⟨h', _⟩; omega
  · rw [if_neg h]
    have h2 : (2 : ℝ) ≤ l.length := by exact_mod_cast (by omega : 2 ≤ l.length)
    have hl : (l.length : ℝ) ≠ 0 := by linarith
    have hl1 : (0 : ℝ) < (l.length : ℝ) - 1 := by linarith
    have hm : ∀ m, m * l.length = l.sum ↔ m = l.sum / l.length := fun m => (eq_div_iff hl).symm
    have hsum : 0 ≤ (l.map (fun x => (x - l.sum / l.length) ^ 2)).sum :=
      List.sum_nonneg (by
        intro y hy
        obtain ⟨x, _, rfl⟩ := List.mem_map.1 hy
        exact sq_nonneg _)
    have hq : 0 ≤ (l.map (fun x => (x - l.sum / l.length) ^ 2)).sum / ((l.length : ℝ) - 1) := div_nonneg hsum hl1.le
    constructor
    · intro e
      cases e
      refine ⟨by omega, Real.sqrt_nonneg _, fun m h' => ?_⟩
      rw [(hm m).1 h', Real.sq_sqrt hq, div_mul_cancel₀ _ hl1.ne']
    · rintro ⟨_, h0, h1⟩
      have := h1 _ ((hm _).2 rfl)
      congr 1
      rw [← this, mul_div_assoc, div_self hl1.ne', mul_one, Real.sqrt_sq h0]

theorem mean_total (l : List ℝ) (h : l ≠ []) : mean l = .ok (l.sum / l.length) := by
  unfold mean
  rw [if_neg (fun h' => h (List.length_eq_zero_iff.1 h'))]

theorem stdev_isOk_iff (l : List ℝ) : (∃ sd, stdev l = .ok sd) ↔ 2 ≤ l.length := by
  constructor
  · rintro ⟨sd, h⟩; exact ((stdev_ok_iff l sd).1 h).1
  · intro h
    unfold stdev
    rw [if_neg (by omega)]
    exact ⟨_, rfl⟩

theorem stdev_few (l : List ℝ) (h : l.length < 2) : stdev l = .error .valueError := by
  unfold stdev
  rw [if_pos h]

/-- **C83** The runs are numbered from 1 and appear in order. -/
theorem numbered_spec {α : Type} (sep : Str) (f : α → Str) (l : List α) (k : ℕ) :
    (numbered sep f l)[k]? = l[k]?.map (fun a => "Simulation #".toList ++ Nat.toDigits 10 (k + 1) ++ sep ++ f a) := by
  unfold numbered
  rw [List.getElem?_map, List.getElem?_zipIdx]
  cases l[k]? with
  | none => rfl
  | some a => simp only [Option.map_some, Nat.add_comm 1 k]

/-- **C83** The summary of a number: heading, a line for every run, mean and standard deviation. Two runs are needed. -/
theorem scalarLines_iff (F : Format) (name : Str) (l : List ℝ) (r : List Str) :
    scalarLines F name l = .ok r ↔ ∃ m sd, mean l = .ok m ∧ stdev l = .ok sd ∧
      r = (name ++ "s:".toList) :: (numbered ": ".toList F.show_ l ++
        [[], "Mean ".toList ++ name ++ ":        ".toList ++ F.fixed m, "Standard Deviation: ".toList ++ F.fixed sd, []]) := by
  unfold scalarLines
  cases hm : mean l with
  | error e => exact ⟨fun h => (nomatch h), fun ⟨_, _, h, _⟩ => (nomatch h)⟩
  | ok m =>
    dsimp only
    cases hs : stdev l with
    | error e => exact ⟨fun h => (nomatch h), fun ⟨_, _, _, h, _⟩ => (nomatch h)⟩
    | ok sd =>
      dsimp only
      constructor
      · intro h
        cases h
        exact ⟨m, sd, rfl, rfl, rfl⟩
      · rintro ⟨_, _, h1, h2, rfl⟩
        cases h1
        cases h2
        rfl

theorem scalarLines_few (F : Format) (name : Str) (l : List ℝ) (h : l.length < 2) :
    scalarLines F name l = .error .valueError := by
  unfold scalarLines
  cases hm : mean l with
  | error e =>
    unfold mean at hm
    split at hm
    · cases hm; rfl
    · cases hm
  | ok m =>
    dsimp only
    rw [stdev_few l h]

theorem scalarLines_isOk_iff (F : Format) (name : Str) (l : List ℝ) :
    (∃ r, scalarLines F name l = .ok r) ↔ 2 ≤ l.length := by
  constructor
  · rintro ⟨r, h⟩
    obtain ⟨_, sd, _, hs, _⟩ := (scalarLines_iff F name l r).1 h
    exact (stdev_isOk_iff l).1 ⟨sd, hs⟩
  · intro h
    obtain ⟨sd, hs⟩ := (stdev_isOk_iff l).2 h
    exact ⟨_, (scalarLines_iff F name l _).2 ⟨_, sd, mean_total l (by rintro rfl; simp at h), hs, rfl⟩⟩

/-- **C83** The summary of a vector: heading, a line for every run, means and standard deviations of the coordinates. -/
theorem vectorLines_spec (F : Format) (name : Str) (l : List (V3 ℝ)) (h : 2 ≤ l.length) :
    ∃ mx my mz sx sy sz, mean (l.map V3.x) = .ok mx ∧ mean (l.map V3.y) = .ok my ∧ mean (l.map V3.z) = .ok mz ∧
      stdev (l.map V3.x) = .ok sx ∧ stdev (l.map V3.y) = .ok sy ∧ stdev (l.map V3.z) = .ok sz ∧
      vectorLines F name l = .ok ((name ++ "s:   X       Y        Z".toList) :: (numbered ":   ".toList F.vec l ++
        [[], "Mean ".toList ++ name ++ ": (".toList ++ F.fixed mx ++ " ".toList ++ F.fixed my ++ " ".toList ++ F.fixed mz
            ++ ")".toList,
          "Standard deviation:    (".toList ++ F.fixed sx ++ " ".toList ++ F.fixed sy ++ " ".toList ++ F.fixed sz
            ++ ")".toList, []])) := by
  have hne : ∀ f : V3 ℝ → ℝ, l.map f ≠ [] := by
    intro f hf
    rw [List.map_eq_nil_iff] at hf
    subst hf
    simp at h
  have hs : ∀ f : V3 ℝ → ℝ, ∃ sd, stdev (l.map f) = .ok sd := fun f =>
    (stdev_isOk_iff _).2 (by rw [List.length_map]; exact h)
  obtain ⟨sx, h1⟩ := hs V3.x
  obtain ⟨sy, h2⟩ := hs V3.y
  obtain ⟨sz, h3⟩ := hs V3.z
  have m1 := mean_total _ (hne V3.x)
  have m2 := mean_total _ (hne V3.y)
  have m3 := mean_total _ (hne V3.z)
  refine ⟨_, _, _, sx, sy, sz, m1, m2, m3, h1, h2, h3, ?_⟩
  unfold vectorLines
  dsimp only [bind, Except.bind]
  rw [m1, m2, m3, h1, h2, h3]
  rfl

theorem vectorLines_few (F : Format) (name : Str) (l : List (V3 ℝ)) (h : l.length < 2) :
    vectorLines F name l = .error .valueError := by
  unfold vectorLines
  dsimp only [bind, Except.bind]
  by_cases h0 : l = []
  · subst h0
    rfl
  · have hne : ∀ f : V3 ℝ → ℝ, l.map f ≠ [] := fun f hf => h0 (List.map_eq_nil_iff.1 hf)
    rw [mean_total _ (hne V3.x), mean_total _ (hne V3.y), mean_total _ (hne V3.z),
      stdev_few (l.map V3.x) (by rw [List.length_map]; exact h)]

theorem vectorLines_isOk_iff (F : Format) (name : Str) (l : List (V3 ℝ)) :
    (∃ r, vectorLines F name l = .ok r) ↔ 2 ≤ l.length := by
  constructor
  · rintro ⟨r, h⟩
    by_contra h'
    rw [vectorLines_few F name l (by omega)] at h
    cases h
  · intro h
    obtain ⟨_, _, _, _, _, _, _, _, _, _, _, _, h⟩ := vectorLines_spec F name l h
    exact ⟨_, h⟩

/-- The lines of one quantity in the summary: those of the quantity if requested, none otherwise -/
theorem requested_iff (output key : Str) (x : Except PyErr (List Str)) (r : List Str) :
    requested output key x = .ok r ↔ (key <:+: output ∧ x = .ok r) ∨ (¬ key <:+: output ∧ r = []) := by
  unfold requested
  by_cases h : Str.isIn key output = true
  · rw [if_pos h]
    have := (Str.isIn_iff _ _).1 h
    simp [this]
  · rw [if_neg h]
    have := mt (Str.isIn_iff _ _).2 h
    simp only [this, false_and, not_false_eq_true, true_and, false_or]
    exact ⟨fun e => by cases e; rfl, fun e => by rw [e]⟩

/-- **C83** The summary lists the requested quantities in fixed order under "Monte Carlo results:". -/
theorem summary_ok_iff (F : Format) (output : Str) (r : Results) (lines : List Str) :
    summary F output r = .ok lines ↔ ∃ a b c d e,
      requested output "landingLocations".toList (vectorLines F "Landing location".toList r.landing) = .ok a ∧
      requested output "apogees".toList (scalarLines F "Apogee".toList r.apogees) = .ok b ∧
      requested output "maxSpeeds".toList (scalarLines F "Max speed".toList r.speeds) = .ok c ∧
      requested output "flightTimes".toList (scalarLines F "Flight time".toList r.times) = .ok d ∧
      requested output "maxHorizontalVels".toList (scalarLines F "Max horizontal speed".toList r.horizontal) = .ok e ∧
      lines = [] :: "Monte Carlo results:".toList :: (a ++ b ++ c ++ d ++ e) := by
  unfold summary
  dsimp only [bind, Except.bind]
  generalize "landingLocations".toList = k1
  generalize "apogees".toList = k2
  generalize "maxSpeeds".toList = k3
  generalize "flightTimes".toList = k4
  generalize "maxHorizontalVels".toList = k5
  generalize vectorLines F "Landing location".toList r.landing = x1
  generalize scalarLines F "Apogee".toList r.apogees = x2
  generalize scalarLines F "Max speed".toList r.speeds = x3
  generalize scalarLines F "Flight time".toList r.times = x4
  generalize scalarLines F "Max horizontal speed".toList r.horizontal = x5
  generalize "Monte Carlo results:".toList = t
  generalize requested output k1 x1 = y1
  generalize requested output k2 x2 = y2
  generalize requested output k3 x3 = y3
  generalize requested output k4 x4 = y4
  generalize requested output k5 x5 = y5
  constructor
  · intro h
    rcases y1 with _ | a
    · cases h
    rcases y2 with _ | b
    · cases h
    rcases y3 with _ | c
    · cases h
    rcases y4 with _ | d
    · cases h
    rcases y5 with _ | e
    · cases h
    refine ⟨a, b, c, d, e, rfl, rfl, rfl, rfl, rfl, ?_⟩
    dsimp only at h
    injection h with h
    rw [← h]
    simp
  · rintro ⟨a, b, c, d, e, rfl, rfl, rfl, rfl, rfl, rfl⟩
    simp

/-- **C83** The summary is made if there are two runs for every quantity requested. -/
theorem summary_isOk_iff (F : Format) (output : Str) (r : Results) :
    (∃ lines, summary F output r = .ok lines) ↔
      ("landingLocations".toList <:+: output → 2 ≤ r.landing.length) ∧
      ("apogees".toList <:+: output → 2 ≤ r.apogees.length) ∧
      ("maxSpeeds".toList <:+: output → 2 ≤ r.speeds.length) ∧
      ("flightTimes".toList <:+: output → 2 ≤ r.times.length) ∧
      ("maxHorizontalVels".toList <:+: output → 2 ≤ r.horizontal.length) := by
  have key : ∀ (k : Str) (x : Except PyErr (List Str)) (P : Prop), ((∃ r, x = .ok r) ↔ P) →
      ((∃ a, requested output k x = .ok a) ↔ (k <:+: output → P)) := by
    intro k x P hP
    rw [← hP]
    by_cases h : k <:+: output
    · simp only [requested_iff, h, true_and, not_true_eq_false, false_and, or_false, forall_const]
    · simp only [requested_iff, h, false_and, not_false_eq_true, true_and, false_or, exists_eq, IsEmpty.forall_iff]
  rw [← key _ _ _ (vectorLines_isOk_iff F "Landing location".toList r.landing),
    ← key _ _ _ (scalarLines_isOk_iff F "Apogee".toList r.apogees),
    ← key _ _ _ (scalarLines_isOk_iff F "Max speed".toList r.speeds),
    ← key _ _ _ (scalarLines_isOk_iff F "Flight time".toList r.times),
    ← key _ _ _ (scalarLines_isOk_iff F "Max horizontal speed".toList r.horizontal)]
  constructor
  · rintro ⟨lines, h⟩
    obtain ⟨a, b, c, d, e, h1, h2, h3, h4, h5, _⟩ := (summary_ok_iff F output r lines).1 h
    exact ⟨⟨a, h1⟩, ⟨b, h2⟩, ⟨c, h3⟩, ⟨d, h4⟩, ⟨e, h5⟩⟩
  · rintro ⟨⟨a, h1⟩, ⟨b, h2⟩, ⟨c, h3⟩, ⟨d, h4⟩, ⟨e, h5⟩⟩
    exact ⟨_, (summary_ok_iff F output r _).2 ⟨a, b, c, d, e, h1, h2, h3, h4, h5, rfl⟩⟩

/-- **C83** A log is written, holding everything logged before and the summary, unless the requested output is "None" or
empty. -/
theorem showResults_iff (F : Format) (output : Str) (r : Results) (log : List Str) (file : Option Str) :
    showResults F output r log = .ok file ↔ ∃ lines, summary F output r = .ok lines ∧
      file = if output = "None".toList ∨ output = [] then none else some (mcFile log ++ mcFile lines) := by
  unfold showResults
  cases summary F output r with
  | error e => exact ⟨fun h => (nomatch h), fun ⟨_, h, _⟩ => (nomatch h)⟩
  | ok lines =>
    dsimp only
    have hmc : mcFile (log ++ lines) = mcFile log ++ mcFile lines := by simp [mcFile]
    generalize "None".toList = n
    by_cases h : output ≠ n ∧ 0 < output.length
    · rw [if_pos h, hmc]
      have h' : ¬ (output = n ∨ output = []) := by
        rintro (e | e)
        · exact h.1 e
        · rw [e] at h; exact absurd h.2 (by simp)
      rw [Except.ok.injEq]
      constructor
      · rintro rfl; exact ⟨lines, rfl, by rw [if_neg h']⟩
      · rintro ⟨_, e, rfl⟩; cases e; rw [if_neg h']
    · rw [if_neg h]
      have h' : output = n ∨ output = [] := by
        by_contra hc
        push Not at hc
        exact h ⟨hc.1, List.length_pos_iff.2 hc.2⟩
      rw [Except.ok.injEq]
      constructor
      · rintro rfl; exact ⟨lines, rfl, by rw [if_pos h']⟩
      · rintro ⟨_, e, rfl⟩; rw [if_pos h']

/-- **C83 violated.** A Monte Carlo simulation of one run raises instead of writing its log, if any of these results is
requested. -/
theorem single_run_violated (F : Format) (output : Str) (p : V3 ℝ) (a s t h : ℝ) (log : List Str)
    (ho : "landingLocations".toList <:+: output ∨ "apogees".toList <:+: output ∨ "maxSpeeds".toList <:+: output ∨
      "flightTimes".toList <:+: output ∨ "maxHorizontalVels".toList <:+: output) :
    ∃ e, showResults F output ⟨[p], [a], [s], [t], [h]⟩ log = .error e := by
  have hn : ¬ ∃ lines, summary F output ⟨[p], [a], [s], [t], [h]⟩ = .ok lines := by
    rw [summary_isOk_iff]
    rintro ⟨h1, h2, h3, h4, h5⟩
    rcases ho with o | o | o | o | o
    · exact absurd (h1 o) (by simp)
    · exact absurd (h2 o) (by simp)
    · exact absurd (h3 o) (by simp)
    · exact absurd (h4 o) (by simp)
    · exact absurd (h5 o) (by simp)
  unfold showResults
  cases hs : summary F output ⟨[p], [a], [s], [t], [h]⟩ with
  | error e => exact ⟨e, rfl⟩
  | ok lines => exact absurd ⟨lines, hs⟩ hn

example : "apogees".toList <:+: "landingLocations apogees".toList := ⟨"landingLocations ".toList, [], by decide +kernel⟩

end Mapleaf.Console
