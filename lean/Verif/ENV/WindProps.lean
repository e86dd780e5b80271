import Verif.ENV.WindModel
import Verif.Motion.InterpProps
import Verif.Motion.VectorProps
import Mathlib.Analysis.SpecialFunctions.Pow.Continuity
import Mathlib.Data.List.GetD
import Mathlib.Data.List.TakeWhile

/-!
# C41 (mean wind) and C53 (radiosonde files)
-/

namespace Mapleaf.ENV
open Mapleaf.Motion V3

/-! ### C41: Hellman profile, headings, interpolated wind -/

/-- **C41.** At and below 10 m the Hellman wind is the ground wind. -/
theorem hellman_ground (g : V3 ℝ) (limit alpha h : ℝ) (hh : h ≤ 10) : hellmanWind g limit alpha h = g := by
  unfold hellmanWind
  rw [max_eq_right (le_trans (min_le_right _ _) hh), div_self (by norm_num), Real.one_rpow]
  exact one_smul ℝ g

/-- **C41.** Above 10 m and below the limit it is the power law. -/
theorem hellman_power (g : V3 ℝ) (limit alpha h : ℝ) (h1 : 10 ≤ h) (h2 : h ≤ limit) :
    hellmanWind g limit alpha h = ((h / 10) ^ alpha) • g := by
  unfold hellmanWind
  rw [min_eq_right h2, max_eq_left h1]

/-- **C41.** Above its limit the wind is constant: the value at the limit. -/
theorem hellman_top (g : V3 ℝ) (limit alpha h : ℝ) (hh : limit ≤ h) :
    hellmanWind g limit alpha h = hellmanWind g limit alpha limit := by
  unfold hellmanWind
  rw [min_eq_left hh, min_self]

/-- **C41.** The speed never decreases with altitude (for a nonnegative exponent), and the direction is that of the ground
wind. -/
theorem hellman_mono (g : V3 ℝ) (limit alpha : ℝ) (ha : 0 ≤ alpha) (h1 h2 : ℝ) (h12 : h1 ≤ h2) :
    (hellmanWind g limit alpha h1).length ≤ (hellmanWind g limit alpha h2).length ∧
    ∃ k : ℝ, 1 ≤ k ∧ hellmanWind g limit alpha h1 = k • g := by
  have base : ∀ h : ℝ, 1 ≤ max (min limit h) 10 / 10 := by
    intro h
    rw [le_div_iff₀ (by norm_num)]; linarith [le_max_right (min limit h) 10]
  unfold hellmanWind
  refine ⟨?_, _, Real.one_le_rpow (base h1) ha, rfl⟩
  rw [length_smul, length_smul]
  apply mul_le_mul_of_nonneg_right _ (length_nonneg g)
  rw [abs_of_nonneg (Real.rpow_nonneg (le_trans zero_le_one (base h1)) _),
    abs_of_nonneg (Real.rpow_nonneg (le_trans zero_le_one (base h2)) _)]
  apply Real.rpow_le_rpow (le_trans zero_le_one (base h1)) _ ha
  apply div_le_div_of_nonneg_right _ (by norm_num)
  exact max_le_max (min_le_min_left _ h12) (le_refl _)

/-- **C41.** The profile is continuous in altitude, in particular at 10 m and at the limit. -/
theorem hellman_continuous (g : V3 ℝ) (limit alpha : ℝ) :
    Continuous (fun h => (hellmanWind g limit alpha h).x) ∧ Continuous (fun h => (hellmanWind g limit alpha h).y) ∧
    Continuous (fun h => (hellmanWind g limit alpha h).z) := by
  have base : ∀ h : ℝ, max (min limit h) 10 / 10 ≠ 0 := by
    intro h
    have : (0 : ℝ) < max (min limit h) 10 / 10 := by
      apply div_pos _ (by norm_num)
      exact lt_of_lt_of_le (by norm_num) (le_max_right (min limit h) 10)
    exact this.ne'
  have hc : Continuous fun h : ℝ => (max (min limit h) 10 / 10) ^ alpha := by
    apply Continuous.rpow_const (by fun_prop)
    intro h; exact Or.inl (base h)
  unfold hellmanWind
  simp only [smul_x, smul_y, smul_z]
  exact ⟨continuous_const.mul hc, continuous_const.mul hc, continuous_const.mul hc⟩

/-- **C41.** The wind direction belonging to a heading: horizontal, of unit length, and opposite to the vector that points to
that heading (0° = +y = north, 90° = +x = east). -/
theorem windDirection_spec (heading : ℝ) :
    (windDirection heading 0).z = 0 ∧ (windDirection heading 0).length = 1 ∧
    (windDirection heading 0).x = -Real.sin (heading * Real.pi / 180) ∧
    (windDirection heading 0).y = -Real.cos (heading * Real.pi / 180) := by
  have e : radians (heading + 0) = heading * Real.pi / 180 := by unfold radians; ring
  unfold windDirection
  rw [e]
  refine ⟨by simp [smul_z], ?_, by simp [smul_x], by simp [smul_y]⟩
  rw [length_smul]
  unfold V3.length
  have := Real.sin_sq_add_cos_sq (heading * Real.pi / 180)
  simp only
  rw [show Real.sin (heading * Real.pi / 180) * Real.sin (heading * Real.pi / 180) + Real.cos (heading * Real.pi / 180) *
    Real.cos (heading * Real.pi / 180) + 0 * 0 = 1 by linarith]
  simp

/-- **C41.** Wind from the north blows towards −y, from the east towards −x. -/
theorem windDirection_compass : windDirection 0 0 = ⟨0, -1, 0⟩ ∧ windDirection 90 0 = ⟨-1, 0, 0⟩ := by
  have h0 : radians (0 + 0) = 0 := by unfold radians; ring
  have h9 : radians (90 + 0) = Real.pi / 2 := by unfold radians; ring
  unfold windDirection
  rw [h0, h9]
  constructor <;> apply V3.ext' <;> simp [smul_x, smul_y, smul_z]

/-- Headings a full turn apart give the same wind. -/
theorem windDirection_periodic (heading angle : ℝ) : windDirection (heading + 360) angle = windDirection heading angle := by
  have e : radians (heading + 360 + angle) = radians (heading + angle) + 2 * Real.pi := by unfold radians; ring
  unfold windDirection
  rw [e, Real.sin_add_two_pi, Real.cos_add_two_pi]

/-- **C41 (violated for a turned y axis).** The docstring says that with an angle of 90° the y axis points east. In a right-handed
frame with z up, north is then −x; but wind *from* north comes out as blowing towards −x, that is, towards north. (Every
caller in the repository leaves the angle at 0.) -/
theorem axis_angle_violated : windDirection 0 90 = ⟨-1, 0, 0⟩ := by
  have h9 : radians (0 + 90) = Real.pi / 2 := by unfold radians; ring
  unfold windDirection
  rw [h9]
  apply V3.ext' <;> simp [smul_x, smul_y, smul_z]

/-- **C41.** An interpolated wind profile returns its data at its altitudes, the straight line between them, and the end values
outside. -/
theorem interpolatedWind_spec (A : List ℝ) (W : List (V3 ℝ)) (hs : A.Pairwise (· < ·)) (hn : A ≠ [])
    (hl : A.length = W.length) :
    (∀ i (h : i < A.length), interpolatedWind A W A[i] = .ok (W[i]'(by omega))) ∧
    (∀ x, x ≤ A.head hn → ∃ h : W ≠ [], interpolatedWind A W x = .ok (W.head h)) ∧
    (∀ x, A.getLast hn ≤ x → ∃ h : W ≠ [], interpolatedWind A W x = .ok (W.getLast h)) ∧
    (∀ x i (h : i + 1 < A.length), A[i] ≤ x → x ≤ A[i + 1] → interpolatedWind A W x =
      .ok (AffineMap.lineMap (W[i]'(by omega)) (W[i + 1]'(by omega)) ((x - A[i]) / (A[i + 1] - A[i])))) := by
  obtain ⟨h1, h2, h3⟩ := linInterp_spec A W hs hn hl
  exact ⟨h1, h2, h3, fun x i h a b => linInterp_between A W x i hs hl h a b⟩

example : interpolatedWind [0, 100, 200] [⟨1, 0, 0⟩, ⟨2, 0, 0⟩, ⟨0, 3, 0⟩] 100 = .ok ⟨2, 0, 0⟩ :=
  (interpolatedWind_spec [0, 100, 200] [⟨1, 0, 0⟩, ⟨2, 0, 0⟩, ⟨0, 3, 0⟩] (by simp; norm_num) (by simp) rfl).1 1 (by simp)

/-! ### C53: radiosonde files -/

namespace Sonde

/-- A line as `readlines` returns it: never the empty string. -/
def Line (l : Str) : Prop := l ≠ []

/-- the line begins a sounding -/
def Header (l : Str) : Prop := l.head? = some '#'

instance (l : Str) : Decidable (Header l) := inferInstanceAs (Decidable (_ = _))

/-- the header line names this month in its third column -/
def OfMonth (int : Str → Option Int) (m : Nat) (l : Str) : Prop := ∃ w, (Str.wsSplit l)[2]? = some w ∧ int w = some (m : Int)

theorem isStart_iff {int : Str → Option Int} {month : Option Nat} {l : Str} {b : Bool} (h : isStart int month l = .ok b) :
    b = true ↔ Header l ∧ ∀ m, month = some m → OfMonth int m l := by
  unfold isStart at h
  unfold Header
  cases l with
  | nil => simp at h
  | cons c cs =>
    simp only at h
    by_cases hc : c = '#'
    · rw [if_pos hc] at h
      cases month with
      | none => simp only [Except.ok.injEq] at h; subst h; simp [hc]
      | some m =>
        simp only at h
        cases hw : (Str.wsSplit (c :: cs))[2]? with
        | none => rw [hw] at h; simp at h
        | some w =>
          rw [hw] at h
          simp only at h
          cases hi : int w with
          | none => rw [hi] at h; simp at h
          | some k =>
            rw [hi] at h
            simp only [Except.ok.injEq] at h
            subst h
            simp only [decide_eq_true_eq, List.head?_cons, hc, true_and]
            constructor
            · rintro hk m' hm
              cases hm
              exact ⟨w, by rw [← hc]; exact hw, by rw [hi, hk]⟩
            · intro hh
              obtain ⟨w', h1, h2⟩ := hh m rfl
              rw [← hc, hw] at h1
              cases h1
              rw [hi] at h2
              cases h2; rfl
    · rw [if_neg hc] at h
      simp only [Except.ok.injEq] at h
      subst h
      simp [hc]

/-- **C53.** The start lines found are exactly the header lines of the wanted month, in order, each once. -/
theorem startLines_spec (int : Str → Option Int) (month : Option Nat) (data : List Str) (starts : List Nat)
    (h : startLines int month 0 data = .ok starts) :
    starts.Pairwise (· < ·) ∧
    ∀ i, i ∈ starts ↔ ∃ l, data[i]? = some l ∧ Header l ∧ ∀ m, month = some m → OfMonth int m l := by
  have gen : ∀ (data : List Str) (k : Nat) (starts : List Nat), startLines int month k data = .ok starts →
      starts.Pairwise (· < ·) ∧ (∀ i ∈ starts, k ≤ i) ∧
      ∀ i, k + i ∈ starts ↔ ∃ l, data[i]? = some l ∧ Header l ∧ ∀ m, month = some m → OfMonth int m l := by
    intro data
    induction data with
    | nil =>
      intro k starts h
      simp only [startLines, Except.ok.injEq] at h
      subst h
      simp
    | cons l ls ih =>
      intro k starts h
      rw [startLines] at h
      cases hb : isStart int month l with
      | error e => rw [hb] at h; simp at h
      | ok b =>
        rw [hb] at h
        simp only at h
        cases hr : startLines int month (k + 1) ls with
        | error e => rw [hr] at h; simp at h
        | ok r =>
          rw [hr] at h
          simp only [Except.ok.injEq] at h
          obtain ⟨p1, p2, p3⟩ := ih (k + 1) r hr
          have hiff := isStart_iff hb
          have hk : k ∉ r := fun hm => by have := p2 k hm; omega
          have htail : ∀ i, k + (i + 1) ∈ r ↔ ∃ l', (l :: ls)[i + 1]? = some l' ∧ Header l' ∧
              ∀ m, month = some m → OfMonth int m l' := by
            intro i
            rw [List.getElem?_cons_succ, ← p3 i, show k + (i + 1) = k + 1 + i by omega]
          cases b with
          | true =>
            simp only [if_true] at h
            subst h
            refine ⟨List.pairwise_cons.2 ⟨fun a ha => by have := p2 a ha; omega, p1⟩, ?_, ?_⟩
            · intro i hi
              rcases List.mem_cons.1 hi with rfl | hi
              · exact le_refl _
              · have := p2 i hi; omega
            · intro i
              cases i with
              | zero => simp only [List.getElem?_cons_zero, Option.some.injEq, exists_eq_left']; simpa using hiff
              | succ i =>
                rw [← htail i, List.mem_cons]
                constructor
                · rintro (h | h)
                  · omega
                  · exact h
                · exact Or.inr
          | false =>
            simp only [Bool.false_eq_true, if_false] at h
            subst h
            refine ⟨p1, fun i hi => by have := p2 i hi; omega, ?_⟩
            intro i
            cases i with
            | zero =>
              simp only [List.getElem?_cons_zero, Option.some.injEq, exists_eq_left']
              constructor
              · intro hm; exact absurd hm hk
              · intro hh; exact absurd (hiff.2 hh) (by simp)
            | succ i => exact htail i
  obtain ⟨p1, _, p3⟩ := gen data 0 starts h
  exact ⟨p1, fun i => by simpa using p3 i⟩

/-- the collecting loop returns the lines up to the next header or the end of the file -/
theorem collect_takeWhile (data : List Str) (hl : ∀ l ∈ data, Line l) (i : Nat) :
    collect data i = .ok ((data.drop i).takeWhile fun l => !decide (Header l)) := by
  induction hm : data.length - i generalizing i with
  | zero =>
    rw [collect, dif_neg (by omega), List.drop_eq_nil_of_le (by omega)]
    rfl
  | succ m ih =>
    have hi : i < data.length := by omega
    rw [collect, dif_pos hi, List.drop_eq_getElem_cons hi]
    cases hd : data[i] with
    | nil => exact absurd hd (hl _ (List.getElem_mem hi))
    | cons c cs =>
      simp only
      by_cases hc : c = '#'
      · rw [if_neg (by simp [hc]), List.takeWhile_cons_of_neg (by simp [Header, hc])]
      · rw [if_pos hc, ih (i + 1) (by omega), List.takeWhile_cons_of_pos (by simp [Header, hc])]

/-- **C53.** For every file and every selection among the start lines found: the header is the header of that sounding, and the
data are exactly the lines after it up to (not including) the next header of *any* month, or the end of the file. -/
theorem extract_spec (int : Str → Option Int) (month : Option Nat) (data : List Str) (hl : ∀ l ∈ data, Line l)
    (starts : List Nat) (h : startLines int month 0 data = .ok starts) (k : Nat) (hk : k < starts.length) :
    ∃ before header sounding after, extract starts data k = .ok (header, sounding) ∧
      data = before ++ header :: (sounding ++ after) ∧ before.length = starts[k] ∧
      Header header ∧ (∀ m, month = some m → OfMonth int m header) ∧
      (∀ l ∈ sounding, ¬ Header l) ∧ (∀ l, after.head? = some l → Header l) := by
  obtain ⟨_, h2⟩ := startLines_spec int month data starts h
  obtain ⟨l, hd, hh, hm⟩ := (h2 starts[k]).1 (List.getElem_mem hk)
  have hlt : starts[k] < data.length := by
    by_contra hc
    rw [List.getElem?_eq_none (by omega)] at hd
    cases hd
  have hget : data[starts[k]] = l := by
    rw [List.getElem?_eq_getElem hlt] at hd
    exact Option.some.inj hd
  refine ⟨data.take starts[k], l, (data.drop (starts[k] + 1)).takeWhile (fun l => !decide (Header l)),
    (data.drop (starts[k] + 1)).dropWhile (fun l => !decide (Header l)), ?_, ?_, ?_, hh, hm, ?_, ?_⟩
  · unfold extract
    rw [pyGet_nat _ _ hk]
    simp only [hd, collect_takeWhile data hl]
  · rw [List.takeWhile_append_dropWhile, ← hget, ← List.drop_eq_getElem_cons hlt, List.take_append_drop]
  · rw [List.length_take]; omega
  · intro l' hl'
    have := List.mem_takeWhile_imp hl'
    simpa using this
  · intro l' hl'
    have := List.head?_dropWhile_not (fun l => !decide (Header l)) (data.drop (starts[k] + 1))
    rw [hl'] at this
    simpa using this

/-- what is assumed of numpy's `argsort`: a permutation of the indices that sorts -/
def Sorts (argsort : List ℝ → List Nat) : Prop :=
  ∀ l : List ℝ, (argsort l).Perm (List.range l.length) ∧ ((argsort l).map fun i => l.getD i 0).Pairwise (· ≤ ·)

/-- the wind that a row (altitude, heading, ten times the speed) stands for -/
noncomputable def rowWind (asl : ℝ) (r : List ℝ) : ℝ × V3 ℝ :=
  (r.getD 0 0 - asl, ⟨-(r.getD 2 0 / 10 * Real.sin (r.getD 1 0 * Real.pi / 180)),
    -(r.getD 2 0 / 10 * Real.cos (r.getD 1 0 * Real.pi / 180)), 0⟩)

/-- **C53.** When the lines parse, the profile has one entry for every line of the sounding (none lost, none added), each with the
altitude above the site and the wind of its line, in order of increasing altitude. -/
theorem parse_spec (float : Str → Option ℝ) (argsort : List ℝ → List Nat) (hsort : Sorts argsort) (data : List Str) (asl : ℝ)
    (alts : List ℝ) (winds : List (V3 ℝ)) (h : parse float argsort data asl = .ok (alts, winds)) :
    alts.length = data.length ∧ winds.length = data.length ∧ alts.Pairwise (· ≤ ·) ∧ alts ≠ [] ∧
    ∃ rows : List (List ℝ), data.map (fun l => (Str.wsSplit l).mapM float) = rows.map some ∧
      (alts.zip winds).Perm (rows.map (rowWind asl)) := by
  unfold parse at h
  cases hr : data.mapM (parseLine float) with
  | error e => rw [hr] at h; simp at h
  | ok rows =>
    rw [hr] at h
    simp only at h
    have hrows : data.map (fun l => (Str.wsSplit l).mapM float) = rows.map some := by
      clear h
      induction data generalizing rows with
      | nil => simp only [List.mapM_nil] at hr; cases hr; rfl
      | cons l ls ih =>
        rw [List.mapM_cons] at hr
        cases hp : parseLine float l with
        | error e => rw [hp] at hr; cases hr
        | ok r =>
          rw [hp] at hr
          cases hq : ls.mapM (parseLine float) with
          | error e => rw [hq] at hr; cases hr
          | ok rs =>
            rw [hq] at hr
            cases hr
            rw [List.map_cons, List.map_cons, ih rs hq]
            congr 1
            unfold parseLine at hp
            cases hm : (Str.wsSplit l).mapM float with
            | none => rw [hm] at hp; cases hp
            | some r' => rw [hm] at hp; cases hp; rfl
    have hlen : rows.length = data.length := by
      have := congrArg List.length hrows
      simpa using this.symm
    cases rows with
    | nil => simp at h
    | cons r0 rest =>
      simp only at h
      by_cases hbad : r0.length < 3 ∨ ¬ (r0 :: rest).all (fun r => r.length = r0.length)
      · rw [if_pos hbad] at h; simp at h
      · rw [if_neg hbad] at h
        simp only [Except.ok.injEq, Prod.mk.injEq] at h
        obtain ⟨ha, hw⟩ := h
        set rows := r0 :: rest with hrw
        set keys := rows.map (fun r => r.getD 0 0) with hkeys
        obtain ⟨hp, hsrt⟩ := hsort keys
        have hkl : keys.length = rows.length := by rw [hkeys, List.length_map]
        have hal : (argsort keys).length = rows.length := by rw [hp.length_eq, List.length_range, hkl]
        have hperm : ((argsort keys).map fun i => rows.getD i []).Perm rows := by
          have h1 := hp.map (fun i => rows.getD i [])
          have h2 : (List.range keys.length).map (fun i => rows.getD i []) = rows := by
            rw [hkl]
            apply List.ext_getElem
            · simp
            · intro n h1 h2
              simp only [List.getElem_map, List.getElem_range]
              rw [List.getD_eq_getElem _ _ h2]
          rw [h2] at h1
          exact h1
        refine ⟨?_, ?_, ?_, ?_, rows, hrows, ?_⟩
        · rw [← ha, List.length_map, List.length_map, hal, hlen]
        · rw [← hw, List.length_map, List.length_map, hal, hlen]
        · rw [← ha, List.map_map]
          rw [List.pairwise_map] at hsrt ⊢
          refine hsrt.imp_of_mem ?_
          intro a b ha hb hab
          have hlt : ∀ i ∈ argsort keys, i < rows.length := by
            intro i hi
            have := hp.mem_iff.1 hi
            rw [List.mem_range, hkl] at this
            exact this
          have hk : ∀ i ∈ argsort keys, keys.getD i 0 = (rows.getD i []).getD 0 0 := by
            intro i hi
            have := hlt i hi
            rw [List.getD_eq_getElem _ _ (by omega), List.getD_eq_getElem rows _ this]
            simp only [hkeys, List.getElem_map]
          rw [hk a ha, hk b hb] at hab
          simp only [Function.comp]
          linarith
        · rw [← ha]
          intro hnil
          have := congrArg List.length hnil
          simp only [List.length_map, hal, List.length_nil] at this
          rw [hrw] at this
          simp at this
        · rw [← ha, ← hw, List.zip_map']
          have hf : (fun r : List ℝ => (r.getD 0 0 - asl, (r.getD 2 0 / 10) • windDirection (r.getD 1 0) 0)) = rowWind asl := by
            funext r
            unfold rowWind
            obtain ⟨d1, _, d2, d3⟩ := windDirection_spec (r.getD 1 0)
            congr 1
            apply V3.ext'
            · rw [smul_x, d2]; ring
            · rw [smul_y, d3]; ring
            · rw [smul_z, d1]; ring
          rw [hf]
          exact hperm.map _

/-- **C53.** A profile returned by the reader can be queried at every altitude without an error. -/
theorem profile_usable (float : Str → Option ℝ) (argsort : List ℝ → List Nat) (hsort : Sorts argsort) (data : List Str)
    (asl : ℝ) (alts : List ℝ) (winds : List (V3 ℝ)) (h : parse float argsort data asl = .ok (alts, winds)) (x : ℝ) :
    ∃ w, interpolatedWind alts winds x = .ok w := by
  obtain ⟨h1, h2, h3, h4, _⟩ := parse_spec float argsort hsort data asl alts winds h
  exact linInterp_total alts winds h3 h4 (by omega) x

/-- **C53 (finding).** A sounding without data lines is selected like any other and raises. -/
theorem empty_sounding_violated (float : Str → Option ℝ) (argsort : List ℝ → List Nat) (asl : ℝ) :
    parse float argsort [] asl = .error .indexError := by
  unfold parse
  rfl

/-- **C53 (finding).** The preparation script drops the missing-value marker −9999 but keeps lines with the other missing-value
marker of the format (−8888, removed by quality control), so an invalid altitude or wind speed reaches the profile. -/
theorem quality_marker_violated :
    filterLine "20 -9999  85000  1457B  -11B-9999 -9999   270 -8888\n".toList = .ok (some " 1457   270 -8888\n".toList) := by
  decide +kernel

/-- **C53.** The preparation script keeps every header unchanged (up to surrounding white space). -/
theorem filter_headers (raw : Str) (cs : Str) (h : Str.strip raw = '#' :: cs) :
    filterLine raw = .ok (some ('#' :: cs ++ ['\n'])) := by
  unfold filterLine
  simp only [h, if_true]

/-- **C53.** What the preparation script keeps of a data line: nothing when the wind speed (last five characters) or the
altitude (characters 17 to 21) is missing, otherwise the altitude, a blank and the last eleven characters. -/
theorem filter_data (raw : Str) (c : Char) (cs : Str) (h : Str.strip raw = c :: cs) (hc : c ≠ '#') :
    (((c :: cs).reverse.take 5).reverse = "-9999".toList ∨ ((c :: cs).drop 16).take 5 = "-9999".toList →
      filterLine raw = .ok none) ∧
    (((c :: cs).reverse.take 5).reverse ≠ "-9999".toList → ((c :: cs).drop 16).take 5 ≠ "-9999".toList →
      filterLine raw = .ok (some (((c :: cs).drop 16).take 5 ++ " ".toList ++ ((c :: cs).reverse.take 11).reverse ++ "\n".toList))) := by
  have hr : ∀ n, ((c :: cs).reverse.take n).reverse = (c :: cs).drop ((c :: cs).length - n) := by
    intro n
    rw [List.take_reverse, List.reverse_reverse]
  unfold filterLine
  simp only [h, if_neg hc, hr]
  constructor
  · intro h1
    rw [if_neg]
    rintro ⟨h2, h3⟩
    exact h1.elim h2 h3
  · intro h1 h2
    rw [if_pos ⟨h1, h2⟩]
    rfl

/-- **C53.** A blank line raises. -/
theorem filter_blank (raw : Str) (h : Str.strip raw = []) : filterLine raw = .error .indexError := by
  unfold filterLine
  simp only [h]

example : filterLine "20 -9999  85000  1457B  -11B-9999 -9999   270 -9999\n".toList = .ok none := by decide +kernel

/-- **C53.** The month filter: no month and "Yearly" select all soundings, the twelve English abbreviations select months 1 to
12, and any other text raises (apart from the place holder for the month zero, which selects nothing valid). -/
theorem monthFilter_spec (m : Option Str) :
    (monthFilter m = .ok none ↔ m = none ∨ m = some "Yearly".toList) ∧
    (∀ i < 12, monthFilter (some ((["Jan", "Feb", "Mar", "Apr", "May", "Jun", "Jul", "Aug", "Sep", "Oct", "Nov", "Dec"].map
      String.toList).getD i [])) = .ok (some (i + 1))) ∧
    (monthFilter m = .error .valueError ↔ ∃ s, m = some s ∧ s ∉ ["Yearly", "noZerothMonth", "Jan", "Feb", "Mar", "Apr", "May",
      "Jun", "Jul", "Aug", "Sep", "Oct", "Nov", "Dec"].map String.toList) := by
  refine ⟨?_, by decide +kernel, ?_⟩
  · cases m with
    | none => simp [monthFilter]
    | some s =>
      unfold monthFilter
      by_cases h : s = "Yearly".toList
      · simp only [if_pos h, true_iff]; right; rw [h]
      · simp only [if_neg h]
        have h' : some s ≠ some "Yearly".toList := fun e => h (Option.some.inj e)
        cases hf : monthList.findIdx? (· = s)
        · simp only [reduceCtorEq, false_iff, not_or]; exact ⟨not_false, h'⟩
        · simp only [Except.ok.injEq, reduceCtorEq, false_iff, not_or]; exact ⟨not_false, h'⟩
  · cases m with
    | none => simp [monthFilter]
    | some s =>
      have hl : ["Yearly", "noZerothMonth", "Jan", "Feb", "Mar", "Apr", "May",
        "Jun", "Jul", "Aug", "Sep", "Oct", "Nov", "Dec"].map String.toList = "Yearly".toList :: monthList := rfl
      rw [hl]
      unfold monthFilter
      by_cases h : s = "Yearly".toList
      · simp [h]
      · simp only [if_neg h]
        have hi : monthList.findIdx? (· = s) = none ↔ s ∉ monthList := by
          rw [List.findIdx?_eq_none_iff]
          constructor
          · intro h1 h2; simpa using h1 s h2
          · intro h1 x hx
            simp only [decide_eq_false_iff_not]
            rintro rfl
            exact h1 hx
        cases hf : monthList.findIdx? (· = s) with
        | none =>
          simp only [true_iff]
          refine ⟨s, rfl, ?_⟩
          rw [List.mem_cons, not_or]
          exact ⟨h, hi.1 hf⟩
        | some i =>
          simp only [reduceCtorEq, false_iff, not_exists, not_and]
          rintro s' hs'
          rw [Option.some.injEq] at hs'
          subst hs'
          rw [not_not, List.mem_cons]
          right
          by_contra hn
          rw [hi.2 hn] at hf
          exact absurd hf (by simp)

/-- two soundings of different months and a selection, meeting the hypotheses of `extract_spec` -/
example : ∃ before header sounding after,
    extract [2] ["#A 2000 01".toList, "1 2 3\n".toList, "#A 2000 02".toList, "4 5 6\n".toList, "7 8 9\n".toList] (0 : Nat) =
      .ok (header, sounding) ∧
    ["#A 2000 01".toList, "1 2 3\n".toList, "#A 2000 02".toList, "4 5 6\n".toList, "7 8 9\n".toList] =
      before ++ header :: (sounding ++ after) ∧ before.length = 2 ∧
      Header header ∧ (∀ m, some 2 = some m → OfMonth (fun s => if s = "02".toList then some 2 else some 1) m header) ∧
      (∀ l ∈ sounding, ¬ Header l) ∧ (∀ l, after.head? = some l → Header l) :=
  extract_spec (fun s => if s = "02".toList then some 2 else some 1) (some 2) _
    (by intro l hl; simp at hl; rcases hl with rfl | rfl | rfl | rfl | rfl <;> simp [Line]) [2] (by decide +kernel) 0 (by simp)

end Sonde

end Mapleaf.ENV
