import Verif.Rocket.MotorFileProps

/-! # C102: files in the documented form are read as they are meant; what is not checked -/

namespace Mapleaf.Rocket
open Mapleaf.Motion Str

/-- a word that can stand in a motor file -/
def Word (t : Str) : Prop := Token t ∧ ')' ∉ t ∧ '#' ∉ t

/-- white space within a line -/
def Gap (s : Str) : Prop := s ≠ [] ∧ Blank s ∧ '\n' ∉ s

/-- a data line: time, thrust, flow rates, and the two moments of inertia in brackets -/
def rowText {K : Type} (fmt : K → Str) (gap : Str) (r : MotorRow K) : Str :=
  fmt r.t ++ gap ++ (fmt r.thrust ++ gap ++ (fmt r.ox ++ gap ++ (fmt r.fuel ++ gap ++ (vecStr fmt r.oxMOI ++ gap ++ vecStr fmt r.fuelMOI))))

/-- a line of the header: a name and a number -/
def headText {K : Type} (fmt : K → Str) (gap name : Str) (x : K) : Str := name ++ gap ++ fmt x

/-- the lines of a file, with names in the header -/
def fileText {K : Type} (fmt : K → Str) (gap : Str) (n₀ n₁ n₂ n₃ : Str) (h : MotorHeader K) (rows : List (MotorRow K)) : List Str :=
  headText fmt gap n₀ h.initOx :: headText fmt gap n₁ h.finalOx :: headText fmt gap n₂ h.initFuel :: headText fmt gap n₃ h.finalFuel :: rows.map (rowText fmt gap)

/-- the numbers of a line -/
def MotorRow.numbers {K : Type} (r : MotorRow K) : List K :=
  [r.t, r.thrust, r.ox, r.fuel, r.oxMOI.x, r.oxMOI.y, r.oxMOI.z, r.fuelMOI.x, r.fuelMOI.y, r.fuelMOI.z]

/-- the numbers of a header -/
def MotorHeader.numbers {K : Type} (h : MotorHeader K) : List K := [h.initOx, h.finalOx, h.initFuel, h.finalFuel]

theorem word_paren {t : Str} (h : Word t) : '(' ∉ t := fun hc => (h.1.2 _ hc).2.2.2.1 rfl

theorem gap_no {s : Str} (h : Gap s) {c : Char} (hc : isWs c = false) : c ∉ s := fun h' => by
  have := h.2.1 c h'
  rw [hc] at this
  cases this

/-- **C102.** A data line is read back. -/
theorem row_written {K : Type} (float : Str → Option K) (fmt : K → Str) {gap : Str} (hg : Gap gap) (r : MotorRow K) (hf : ∀ x ∈ r.numbers, Word (fmt x))
    (hr : ∀ x ∈ r.numbers, float (fmt x) = some x) : motorRow float (rowText fmt gap r) = .ok r := by
  unfold MotorRow.numbers at hf hr
  have w (x : K) (h : x ∈ [r.t, r.thrust, r.ox, r.fuel, r.oxMOI.x, r.oxMOI.y, r.oxMOI.z, r.fuelMOI.x, r.fuelMOI.y, r.fuelMOI.z]) := (hf x h).1
  refine (row_iff float _ r).2 ⟨fmt r.t, fmt r.thrust, fmt r.ox, fmt r.fuel, wsSplit (vecStr fmt r.oxMOI ++ gap ++ vecStr fmt r.fuelMOI),
    fmt r.t ++ gap ++ (fmt r.thrust ++ gap ++ (fmt r.ox ++ gap ++ (fmt r.fuel ++ gap))),
    fmt r.oxMOI.x ++ [' '] ++ fmt r.oxMOI.y ++ [' '] ++ fmt r.oxMOI.z, gap,
    fmt r.fuelMOI.x ++ [' '] ++ fmt r.fuelMOI.y ++ [' '] ++ fmt r.fuelMOI.z, [], ?_, hr _ (by simp), hr _ (by simp), hr _ (by simp), hr _ (by simp), ?_, ?_, ?_, ?_, ?_,
    ?_, ?_⟩
  · unfold rowText
    rw [wsSplit_token_append (w _ (by simp)) hg.2.1 hg.1, wsSplit_token_append (w _ (by simp)) hg.2.1 hg.1, wsSplit_token_append (w _ (by simp)) hg.2.1 hg.1,
      wsSplit_token_append (w _ (by simp)) hg.2.1 hg.1]
  · simp [rowText, vecStr]
  · have g := gap_no hg (c := '(') rfl
    have a0 := word_paren (hf r.t (by simp))
    have a1 := word_paren (hf r.thrust (by simp))
    have a2 := word_paren (hf r.ox (by simp))
    have a3 := word_paren (hf r.fuel (by simp))
    simp [g, a0, a1, a2, a3]
  · have a0 := (hf r.oxMOI.x (by simp)).2.1
    have a1 := (hf r.oxMOI.y (by simp)).2.1
    have a2 := (hf r.oxMOI.z (by simp)).2.1
    simp [a0, a1, a2]
  · exact gap_no hg rfl
  · have a0 := (hf r.fuelMOI.x (by simp)).2.1
    have a1 := (hf r.fuelMOI.y (by simp)).2.1
    have a2 := (hf r.fuelMOI.z (by simp)).2.1
    simp [a0, a1, a2]
  · have := (parse_print float fmt r.oxMOI (fun k hk => w k (by simp at hk ⊢; tauto)) (fun k hk => hr k (by simp at hk ⊢; tauto))).1
    simpa [vecStr] using this
  · have := (parse_print float fmt r.fuelMOI (fun k hk => w k (by simp at hk ⊢; tauto)) (fun k hk => hr k (by simp at hk ⊢; tauto))).1
    simpa [vecStr] using this

theorem head_word {K : Type} (fmt : K → Str) {gap name : Str} (hg : Gap gap) (hn : Word name) {x : K} (hx : Word (fmt x)) :
    (wsSplit (headText fmt gap name x))[1]? = some (fmt x) := by
  unfold headText
  rw [wsSplit_token_append hn.1 hg.2.1 hg.1, wsSplit_token hx.1]
  rfl

/-- lines that start with a word, have no comment and do not contain an end of line are kept as they are -/
def KeptLine (l : Str) : Prop := '\n' ∉ l ∧ '#' ∉ l ∧ ∃ w rest, l = w ++ rest ∧ Word w

theorem word_newline {t : Str} (h : Word t) : '\n' ∉ t := fun hc => by
  have := (h.1.2 _ hc).1
  simp [isWs] at this

theorem kept_lines {ls : List Str} (hne : ls ≠ []) (h : ∀ l ∈ ls, KeptLine l) : motorLines (join ['\n'] ls) = ls := by
  rw [file_lines, splitC_join '\n' hne (fun l hl => (h l hl).1)]
  have hm : ls.map (fun l => l.takeWhile (· ≠ '#')) = ls := by
    conv_rhs => rw [← List.map_id ls]
    apply List.map_congr_left
    intro l hl
    have := (h l hl).2.1
    clear * - this
    rw [id]
    induction l with
    | nil => rfl
    | cons c l ih =>
      simp only [List.mem_cons, not_or] at this
      rw [List.takeWhile_cons_of_pos (by simpa using fun e => this.1 e.symm), ih this.2]
  rw [hm, List.filter_eq_self]
  intro l hl
  obtain ⟨w, rest, rfl, hw⟩ := (h l hl).2.2
  obtain ⟨c, cs, e, hc, -⟩ := head_token (s := rest) hw.1
  rw [e]
  unfold strip lstrip rstrip
  rw [List.dropWhile_cons_of_neg (by simp [hc])]
  have : ((c :: cs).reverse.dropWhile isWs) ≠ [] := by
    intro h0
    have : ∀ (l : Str), l.dropWhile isWs = [] → ∀ x ∈ l, isWs x = true := by
      intro l
      induction l with
      | nil => intro _ x hx; cases hx
      | cons y l ih =>
        intro hl x hx
        by_cases hy : isWs y = true
        · rw [List.dropWhile_cons_of_pos hy] at hl
          rcases List.mem_cons.1 hx with rfl | hx
          · exact hy
          · exact ih hl x hx
        · rw [List.dropWhile_cons_of_neg hy] at hl
          cases hl
    have := this _ h0 c (by simp)
    rw [hc] at this
    cases this
  simpa using this

theorem kept_head {K : Type} (fmt : K → Str) {gap name : Str} (hg : Gap gap) (hn : Word name) {x : K} (hx : Word (fmt x)) : KeptLine (headText fmt gap name x) := by
  have a := gap_no hg (c := '#') rfl
  have b := word_newline hn
  have c := word_newline hx
  refine ⟨?_, ?_, name, gap ++ fmt x, by simp [headText], hn⟩
  · simp [headText, hg.2.2, b, c]
  · simp [headText, a, hn.2.2, hx.2.2]

theorem kept_row {K : Type} (fmt : K → Str) {gap : Str} (hg : Gap gap) (r : MotorRow K) (hf : ∀ x ∈ r.numbers, Word (fmt x)) : KeptLine (rowText fmt gap r) := by
  have a := gap_no hg (c := '#') rfl
  have n (x : K) (h : x ∈ r.numbers) := word_newline (hf x h)
  have k (x : K) (h : x ∈ r.numbers) := (hf x h).2.2
  unfold MotorRow.numbers at n k hf
  refine ⟨?_, ?_, fmt r.t, gap ++ (fmt r.thrust ++ gap ++ (fmt r.ox ++ gap ++ (fmt r.fuel ++ gap ++ (vecStr fmt r.oxMOI ++ gap ++ vecStr fmt r.fuelMOI)))),
    by simp [rowText], hf _ (by simp)⟩
  · simp only [rowText, vecStr, List.mem_append, List.mem_cons, List.not_mem_nil, not_or]
    simp [hg.2.2, n]
  · simp only [rowText, vecStr, List.mem_append, List.mem_cons, List.not_mem_nil, not_or]
    simp [a, k]

/-- **C102.** A file in the documented form is read back: positions of the propellants and rows, whatever the names in the header. -/
theorem file_written {K : Type} (float : Str → Option K) (fmt : K → Str) {gap : Str} (hg : Gap gap) {n₀ n₁ n₂ n₃ : Str} (hn₀ : Word n₀) (hn₁ : Word n₁)
    (hn₂ : Word n₂) (hn₃ : Word n₃) (h : MotorHeader K) (rows : List (MotorRow K)) (hf : ∀ x ∈ h.numbers ++ rows.flatMap (·.numbers), Word (fmt x))
    (hr : ∀ x ∈ h.numbers ++ rows.flatMap (·.numbers), float (fmt x) = some x) :
    readMotorFile float (join ['\n'] (fileText fmt gap n₀ n₁ n₂ n₃ h rows)) = .ok (h, rows) := by
  have fh (x : K) (hx : x ∈ h.numbers) := hf x (by simp [hx])
  have rh (x : K) (hx : x ∈ h.numbers) := hr x (by simp [hx])
  unfold MotorHeader.numbers at fh rh
  have fr (r : MotorRow K) (hm : r ∈ rows) (x : K) (hx : x ∈ r.numbers) := hf x (List.mem_append_right _ (List.mem_flatMap.2 ⟨r, hm, hx⟩))
  have rr (r : MotorRow K) (hm : r ∈ rows) (x : K) (hx : x ∈ r.numbers) := hr x (List.mem_append_right _ (List.mem_flatMap.2 ⟨r, hm, hx⟩))
  have kept : motorLines (join ['\n'] (fileText fmt gap n₀ n₁ n₂ n₃ h rows)) = fileText fmt gap n₀ n₁ n₂ n₃ h rows := by
    apply kept_lines (by simp [fileText])
    intro l hl
    simp only [fileText, List.mem_cons, List.mem_map] at hl
    rcases hl with rfl | rfl | rfl | rfl | ⟨r, hm, rfl⟩
    · exact kept_head fmt hg hn₀ (fh _ (by simp))
    · exact kept_head fmt hg hn₁ (fh _ (by simp))
    · exact kept_head fmt hg hn₂ (fh _ (by simp))
    · exact kept_head fmt hg hn₃ (fh _ (by simp))
    · exact kept_row fmt hg r (fr r hm)
  refine (file_iff float _ h rows).2 ⟨_, _, _, _, _, _, _, _, _, by rw [← file_lines]; exact kept, head_word fmt hg hn₀ (fh _ (by simp)),
    head_word fmt hg hn₁ (fh _ (by simp)), head_word fmt hg hn₂ (fh _ (by simp)), head_word fmt hg hn₃ (fh _ (by simp)), rh _ (by simp), rh _ (by simp),
    rh _ (by simp), rh _ (by simp), ?_⟩
  rw [List.forall₂_map_left_iff, List.forall₂_same]
  intro r hm
  exact row_written float fmt hg r (fr r hm) (rr r hm)

/-- **C102.** The motor made of such a file pushes, at the times of its rows (stretched and moved to ignition), with the thrusts of its rows (scaled). -/
theorem file_thrust {K : Type} [Field K] [LinearOrder K] [IsStrictOrderedRing K] (float : Str → Option K) (fmt : K → Str) {gap : Str} (hg : Gap gap)
    {n₀ n₁ n₂ n₃ : Str} (hn₀ : Word n₀) (hn₁ : Word n₁) (hn₂ : Word n₂) (hn₃ : Word n₃) (h : MotorHeader K) (rows : List (MotorRow K))
    (hf : ∀ x ∈ h.numbers ++ rows.flatMap (·.numbers), Word (fmt x)) (hr : ∀ x ∈ h.numbers ++ rows.flatMap (·.numbers), float (fmt x) = some x)
    (hne : rows ≠ []) (hasc : rows.Pairwise (fun r s => r.t < s.t)) {b : K} (hb : 0 < b) (z f ign : K) :
    ∃ m off, motorOfFile float (join ['\n'] (fileText fmt gap n₀ n₁ n₂ n₃ h rows)) z f b = .ok (m, off) ∧ off = (rows.getLast hne).t ∧
      m.totalImpulse = f * areaFrom (rows.map (·.t)) (rows.map (·.thrust)) 0 ∧
      ∀ (i : Nat) (hi : i + 1 < rows.length), 0 ≤ rows[i].t →
        Motor.force { m with ignition := ign } (ign + b * rows[i].t) = .ok ⟨⟨0, 0, rows[i].thrust * f / b⟩, 0, 0⟩ := by
  obtain ⟨⟨m, off⟩, hm⟩ := (build_total h rows z f b).2 ⟨hne, hb.ne'⟩
  refine ⟨m, off, ?_, (build_ok hm).choose_spec.2.1, impulse_scaled hm, fun i hi h0 => ?_⟩
  · unfold motorOfFile
    rw [file_written float fmt hg hn₀ hn₁ hn₂ hn₃ h rows hf hr]
    exact hm
  · have ht : (ign + b * rows[i].t - ign) / b = rows[i].t := by field_simp; ring
    have hlt : rows[i].t < rows[i + 1].t := List.pairwise_iff_getElem.1 hasc i (i + 1) (by omega) hi (by omega)
    rw [thrust_while_burning hm hasc hb ign (ign + b * rows[i].t) i hi (by nlinarith) (by rw [ht]) (by rw [ht]; exact hlt.le)]
    rw [ht]
    simp only [sub_self, zero_div, AffineMap.lineMap_apply_zero]
    rw [show f / b * rows[i].thrust = rows[i].thrust * f / b by ring]
    rfl

/-- **C102.** What is not checked: a file from whose header one line is missing is accepted. The thrust of its first row becomes the last position of the fuel,
and the row is lost. -/
theorem missing_header_violated {K : Type} (float : Str → Option K) (fmt : K → Str) {gap : Str} (hg : Gap gap) {n₀ n₁ n₂ n₃ : Str} (hn₀ : Word n₀)
    (hn₁ : Word n₁) (hn₂ : Word n₂) (hn₃ : Word n₃) (h : MotorHeader K) (r : MotorRow K) (rows : List (MotorRow K))
    (hf : ∀ x ∈ h.numbers ++ (r :: rows).flatMap (·.numbers), Word (fmt x)) (hr : ∀ x ∈ h.numbers ++ (r :: rows).flatMap (·.numbers), float (fmt x) = some x) :
    readMotorFile float (join ['\n'] ((fileText fmt gap n₀ n₁ n₂ n₃ h (r :: rows)).eraseIdx 3)) = .ok ({ h with finalFuel := r.thrust }, rows) := by
  have fh (x : K) (hx : x ∈ h.numbers) := hf x (by simp [hx])
  have rh (x : K) (hx : x ∈ h.numbers) := hr x (by simp [hx])
  unfold MotorHeader.numbers at fh rh
  have fr (s : MotorRow K) (hm : s ∈ r :: rows) (x : K) (hx : x ∈ s.numbers) := hf x (List.mem_append_right _ (List.mem_flatMap.2 ⟨s, hm, hx⟩))
  have rr (s : MotorRow K) (hm : s ∈ r :: rows) (x : K) (hx : x ∈ s.numbers) := hr x (List.mem_append_right _ (List.mem_flatMap.2 ⟨s, hm, hx⟩))
  have kept : motorLines (join ['\n'] ((fileText fmt gap n₀ n₁ n₂ n₃ h (r :: rows)).eraseIdx 3)) =
      headText fmt gap n₀ h.initOx :: headText fmt gap n₁ h.finalOx :: headText fmt gap n₂ h.initFuel :: rowText fmt gap r :: rows.map (rowText fmt gap) := by
    apply kept_lines (by simp [fileText])
    intro l hl
    simp only [fileText, List.eraseIdx_cons_succ, List.eraseIdx_cons_zero, List.mem_cons, List.mem_map] at hl
    rcases hl with rfl | rfl | rfl | ⟨s, hm, rfl⟩
    · exact kept_head fmt hg hn₀ (fh _ (by simp))
    · exact kept_head fmt hg hn₁ (fh _ (by simp))
    · exact kept_head fmt hg hn₂ (fh _ (by simp))
    · exact kept_row fmt hg s (fr s (by simpa using hm))
  have second : (wsSplit (rowText fmt gap r))[1]? = some (fmt r.thrust) := by
    unfold rowText
    rw [wsSplit_token_append (fr r (by simp) r.t (by simp [MotorRow.numbers])).1 hg.2.1 hg.1,
      wsSplit_token_append (fr r (by simp) r.thrust (by simp [MotorRow.numbers])).1 hg.2.1 hg.1]
    rfl
  refine (file_iff float _ _ rows).2 ⟨_, _, _, _, _, _, _, _, _, by rw [← file_lines]; exact kept, head_word fmt hg hn₀ (fh _ (by simp)),
    head_word fmt hg hn₁ (fh _ (by simp)), head_word fmt hg hn₂ (fh _ (by simp)), second, rh _ (by simp), rh _ (by simp), rh _ (by simp),
    rr r (by simp) r.thrust (by simp [MotorRow.numbers]), ?_⟩
  rw [List.forall₂_map_left_iff, List.forall₂_same]
  intro s hm
  exact row_written float fmt hg s (fr s (by simp [hm])) (rr s (by simp [hm]))

/-! ## Examples -/

/-- the file of an empty motor, as shipped (MAPLEAF/Examples/Motors/Empty.txt), with thrust and a comment -/
def sampleFile : Str := "BurnedOxidizerInitialCG   0
BurnedOxidizerLastCG      0
BurnedFuelInitialCG       -3
BurnedFuelLastCG          -4

#Time(s)   Thrust(N)   OxidizerFlowRate(kg/s)  FuelBurnRate(kg/s)
0       70       0       2 (0 0 0) (1 1 2) # lift-off
1       80       0       0 (0 0 0) (0 0 0)".toList

example : readMotorFile floatEx sampleFile =
    .ok (⟨0, 0, -3, -4⟩, [⟨0, 70, 0, 2, ⟨0, 0, 0⟩, ⟨1, 1, 2⟩⟩, ⟨1, 80, 0, 0, ⟨0, 0, 0⟩, ⟨0, 0, 0⟩⟩]) := by decide +kernel

/-- one row fewer, and the fuel 70 m up -/
example : readMotorFile floatEx "A 0
B 0
C -3
0 70 0 2 (0 0 0) (1 1 2)
1 80 0 0 (0 0 0) (0 0 0)".toList = .ok (⟨0, 0, -3, 70⟩, [⟨1, 80, 0, 0, ⟨0, 0, 0⟩, ⟨0, 0, 0⟩⟩]) := by decide +kernel

/-- malformed rows raise; a fifth number does not -/
example : motorRow floatEx "0 70 0 (0 0 0) (1 1 2)".toList = .error .valueError ∧ motorRow floatEx "0 70 0 2 (0 0 0)".toList = .error .valueError ∧
    motorRow floatEx "0 70 0".toList = .error .indexError ∧
    motorRow floatEx "0 70 0 2 9 (0 0 0) (1 1 2)".toList = .ok ⟨0, 70, 0, 2, ⟨0, 0, 0⟩, ⟨1, 1, 2⟩⟩ := by decide +kernel

/-- the hypotheses of `file_written` can be met -/
example : Word "-4".toList ∧ Word "BurnedFuelLastCG".toList ∧ Gap "   ".toList :=
  ⟨⟨⟨by decide, by decide⟩, by decide, by decide⟩, ⟨⟨by decide, by decide⟩, by decide, by decide⟩, by decide, (by unfold Blank; decide), by decide⟩

end Mapleaf.Rocket
