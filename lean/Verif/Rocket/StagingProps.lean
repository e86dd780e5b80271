import Verif.Rocket.StagingModel
import Verif.Rocket.EventProps
import Mathlib.Data.List.TakeDrop

/-!
# C29: staging
-/

namespace Mapleaf.Rocket

section
variable {K : Type} [Field K] [LinearOrder K]

/-! ## Which stage leaves -/

theorem detach_ok {cdp : Bool} {r r' : Stack K} (h : detach cdp r = .ok r') :
    r'.stages = r.stages ∧ r'.time = r.time ∧ r'.off = r.off ∧ r'.numbers = r.numbers ∧
    (cdp = false → r' = r) ∧
    (cdp = true → r.numbers.Nodup ∧ r'.stagingIndex = r.stagingIndex + 1 ∧
      ∃ n, (r.numbers.insertionSort (· ≤ ·))[r.stagingIndex]? = some n ∧ r'.detached = r.detached ++ [n]) := by
  unfold detach at h
  cases cdp with
  | false => simp only [Bool.false_eq_true, if_false, Except.ok.injEq] at h; subst h; simp
  | true =>
    simp only [if_true] at h
    split at h
    · rename_i hn
      split at h
      · exact absurd h (by simp)
      · rename_i n hn'
        simp only [Except.ok.injEq] at h
        subst h
        refine ⟨rfl, rfl, rfl, rfl, by simp, fun _ => ⟨hn, rfl, n, hn', rfl⟩⟩
    · exact absurd h (by simp)

/-- **C29.** What one separation does: exactly the bottom stage leaves, the others keep their order, and the only stage that
changes is the top one, whose motor is ignited now and whose shut-off time becomes now plus its burn time. -/
theorem separate_spec {cdp : Bool} {r r' : Stack K} (h : separate cdp r = .ok r') :
    ∃ (top : StageM K) (mid : List (StageM K)) (bottom : StageM K) (m : StageMotor K) (o : K),
      r.stages = top :: (mid ++ [bottom]) ∧ top.motor = some m ∧ r.off = some o ∧
      r'.stages = { top with motor := some { m with ignition := r.time }, off := some (r.time + m.burn) } :: mid ∧
      r'.off = some (max o (r.time + m.burn)) ∧ r'.time = r.time ∧ r'.numbers = r.numbers := by
  unfold separate at h
  split at h
  · exact absurd h (by simp)
  rename_i r1 h1
  obtain ⟨e1, e2, e3, e4, _, _⟩ := detach_ok h1
  split at h
  · exact absurd h (by simp)
  rename_i hne
  split at h
  · exact absurd h (by simp)
  rename_i top rest hd
  unfold ignite at h
  split at h
  · exact absurd h (by simp)
  rename_i top' off' hig
  split at hig
  · exact absurd hig (by simp)
  rename_i m hm
  split at hig
  · exact absurd hig (by simp)
  rename_i o ho
  simp only [Except.ok.injEq, Prod.mk.injEq] at hig
  obtain ⟨rfl, rfl⟩ := hig
  simp only [Except.ok.injEq] at h
  subst h
  refine ⟨top, rest, r1.stages.getLast hne, m, o, ?_, hm, by rw [← e3, ho], ?_, ?_, ?_, ?_⟩
  · rw [← e1, ← List.cons_append, ← hd, List.dropLast_append_getLast]
  · simp [e2]
  · simp [e2]
  · exact e2
  · exact e4

/-- **C29.** A separation fails exactly when fewer than two stages are left, the top stage has no motor, or (when drop paths are
computed) the stage numbers are not unique or used up. -/
theorem separate_total (cdp : Bool) (r : Stack K) :
    (∃ r', separate cdp r = .ok r') ↔ 2 ≤ r.stages.length ∧ (∃ s l m, r.stages = s :: l ∧ s.motor = some m) ∧
      r.off ≠ none ∧ (cdp = true → r.numbers.Nodup ∧ r.stagingIndex < r.numbers.length) := by
  constructor
  · rintro ⟨r', h⟩
    obtain ⟨top, mid, bottom, m, o, hs, hm, ho, _⟩ := separate_spec h
    refine ⟨by rw [hs]; simp, ⟨top, _, m, hs, hm⟩, by rw [ho]; simp, ?_⟩
    intro hc
    unfold separate at h
    split at h
    · exact absurd h (by simp)
    rename_i r1 h1
    obtain ⟨hn, _, n, hn', _⟩ := (detach_ok h1).2.2.2.2.2 hc
    refine ⟨hn, ?_⟩
    have := (List.getElem?_eq_some_iff.1 hn').1
    simpa using this
  · rintro ⟨hlen, ⟨s, l, m, hs, hm⟩, ho, hc⟩
    obtain ⟨o, ho⟩ := Option.ne_none_iff_exists'.1 ho
    have hdet : ∃ r1, detach cdp r = .ok r1 := by
      unfold detach
      cases cdp with
      | false => exact ⟨r, by simp⟩
      | true =>
        obtain ⟨h1, h2⟩ := hc rfl
        simp only [if_true, if_pos h1]
        rw [List.getElem?_eq_getElem (by simpa using h2)]
        exact ⟨_, rfl⟩
    obtain ⟨r1, h1⟩ := hdet
    obtain ⟨e1, e2, e3, e4, _, _⟩ := detach_ok h1
    unfold separate
    rw [h1]
    dsimp only
    rw [e1, hs, if_neg (by simp)]
    cases l with
    | nil => rw [hs] at hlen; simp at hlen
    | cons t l =>
      simp only [List.dropLast_cons₂]
      unfold ignite
      simp only [hm, e3, ho]
      exact ⟨_, rfl⟩

/-- **C29.** After `k` separations exactly the top `n-k` stages remain, in order; there are never `n` separations. -/
theorem separations_stack (cdp : Bool) : ∀ (ts : List K) (r r' : Stack K), separations cdp ts r = .ok r' →
    r'.stages.map (·.number) = (r.stages.map (·.number)).take (r.stages.length - ts.length) ∧
    (ts ≠ [] → ts.length < r.stages.length)
  | [], r, r', h => by
    simp only [separations, Except.ok.injEq] at h
    subst h
    refine ⟨?_, by simp⟩
    rw [List.take_of_length_le (by simp)]
  | t :: ts, r, r', h => by
    unfold separations at h
    split at h
    · exact absurd h (by simp)
    rename_i r1 h1
    obtain ⟨top, mid, bottom, m, o, hs, hm, ho, hs1, _⟩ := separate_spec h1
    obtain ⟨k1, k2⟩ := separations_stack cdp ts r1 r' h
    have hs' : r.stages = top :: (mid ++ [bottom]) := hs
    have hl : r.stages.length = r1.stages.length + 1 := by rw [hs', hs1]; simp
    have hnum : r1.stages.map (·.number) = (r.stages.map (·.number)).take r1.stages.length := by
      rw [hs1, hs']
      simp only [List.map_cons, List.map_append, List.length_cons, List.map_nil]
      rw [List.take_succ_cons]
      congr 1
      rw [List.take_append_of_le_length (by simp), List.take_of_length_le (by simp)]
    refine ⟨?_, fun _ => ?_⟩
    · rw [k1, hnum, List.take_take]
      congr 1
      rw [hl, List.length_cons]
      omega
    · rw [hl, List.length_cons]
      rcases ts with _ | ⟨x, xs⟩
      · rw [hs1]; simp
      · have := k2 (by simp); omega

/-! ## Which motor is lit -/

/-- **C29 (part).** Separation of a two-stage rocket ignites the motor of the new bottom stage (the only one left). Missing, because false
(`upper_motor_not_lit_violated`): more than two stages. -/
theorem ignites_bottom_partial {cdp : Bool} {r r' : Stack K} (h : separate cdp r = .ok r') (h2 : r.stages.length = 2) :
    ∃ (s : StageM K) (m : StageMotor K), r'.stages = [s] ∧ s.motor = some m ∧ m.ignition = r.time ∧
      s.off = some (r.time + m.burn) := by
  obtain ⟨top, mid, bottom, m, o, hs, hm, ho, hs1, _⟩ := separate_spec h
  have : mid = [] := by
    rw [hs] at h2
    simp at h2
    exact h2
  subst this
  exact ⟨_, _, hs1, rfl, rfl, rfl⟩

/-- **C29 violated.** For every rocket with three or more stages, separation leaves the motor of the new bottom stage as it
was - to be ignited in a billion seconds - and ignites the motor of the top stage instead. -/
theorem upper_motor_not_lit_violated {cdp : Bool} {r r' : Stack K} (h : separate cdp r = .ok r') (h3 : 3 ≤ r.stages.length) :
    r'.stages.getLast? = r.stages.dropLast.getLast? ∧
    ∃ (s : StageM K) (l : List (StageM K)) (m : StageMotor K), r'.stages = s :: l ∧ l ≠ [] ∧ s.motor = some m ∧
      m.ignition = r.time := by
  obtain ⟨top, mid, bottom, m, o, hs, hm, ho, hs1, _⟩ := separate_spec h
  have hmid : mid ≠ [] := by
    rintro rfl
    rw [hs] at h3; simp at h3
  constructor
  · rw [hs1, hs, ← List.cons_append, List.dropLast_concat, List.getLast?_cons, List.getLast?_cons]
    rw [List.getLast?_eq_some_getLast hmid]; rfl
  · exact ⟨_, mid, _, hs1, hmid, rfl, rfl⟩

/-- **C29.** At start-up every stage but the bottom one must have a motor, which is set to ignite far in the future; the bottom
stage is untouched, and no stage moves. -/
theorem initIgnition_spec (l l' : List (StageM K)) (h : initIgnition l = .ok l') :
    l'.map (·.number) = l.map (·.number) ∧ l'.getLast? = l.getLast? ∧
    ∀ s ∈ l'.dropLast, ∃ m, s.motor = some m ∧ m.ignition = 1000000000 := by
  induction l using initIgnition.induct generalizing l' with
  | case1 => simp only [initIgnition, Except.ok.injEq] at h; subst h; simp
  | case2 s => simp only [initIgnition, Except.ok.injEq] at h; subst h; simp
  | case3 s t l hm => simp only [initIgnition, hm] at h; exact absurd h (by simp)
  | case4 s t l m hm e he ih => simp only [initIgnition, hm, he] at h; exact absurd h (by simp)
  | case5 s t l m hm rest he ih =>
    simp only [initIgnition, hm, he, Except.ok.injEq] at h
    subst h
    obtain ⟨i1, i2, i3⟩ := ih rest he
    have hrest : rest ≠ [] := by rintro rfl; simp at i1
    refine ⟨by simp [i1], ?_, ?_⟩
    · rw [List.getLast?_cons, List.getLast?_cons, i2, List.getLast?_eq_some_getLast (by simp : t :: l ≠ [])]; rfl
    · intro x hx
      rw [List.dropLast_cons_of_ne_nil hrest, List.mem_cons] at hx
      rcases hx with rfl | hx
      · exact ⟨_, rfl, rfl⟩
      · exact i3 x hx

/-- A rocket with an unpowered stage above another stage cannot be created. -/
theorem unpowered_upper_stage (s t : StageM K) (l : List (StageM K)) (h : s.motor = none) :
    initIgnition (s :: t :: l) = .error .attributeError := by
  simp only [initIgnition, h]

/-! ## The order of the stack -/

/-- **C29.** The stage list is a reordering of the defined stages, highest first, so the last one is the lowest. -/
theorem sortByZ_spec (l : List (StageM K)) :
    (sortByZ l).Perm l ∧ (sortByZ l).Pairwise (fun a b => b.z ≤ a.z) := by
  unfold sortByZ
  have ht : IsTrans (StageM K) (fun a b => b.z ≤ a.z) := ⟨fun a b c h1 h2 => h2.trans h1⟩
  have hto : Std.Total (fun a b : StageM K => b.z ≤ a.z) := ⟨fun a b => le_total _ _⟩
  exact ⟨List.perm_insertionSort _ _, List.pairwise_insertionSort _ _⟩

/-! ## The detached stages -/

/-- **C29.** If the stage numbers count from the bottom (each stage numbered lower than the ones above it), the stages that
fly on their own are exactly the dropped ones, in the order they were dropped. -/
theorem detached_matches (ts : List K) (r r' : Stack K) (hdesc : (r.stages.map (·.number)).Pairwise (· > ·))
    (hnum : r.numbers.Perm (r.stages.map (·.number))) (h0 : r.stagingIndex = 0) (hd : r.detached = [])
    (h : separations true ts r = .ok r') :
    r'.detached = ((r.stages.map (·.number)).drop (r.stages.length - ts.length)).reverse := by
  have hsort : r.numbers.insertionSort (· ≤ ·) = (r.stages.map (·.number)).reverse := by
    have h1 : (r.numbers.insertionSort (· ≤ ·)).Pairwise (· ≤ ·) := List.pairwise_insertionSort _ _
    have h2 : ((r.stages.map (·.number)).reverse).Pairwise (· ≤ ·) := by
      rw [List.pairwise_reverse]; exact hdesc.imp (fun h => le_of_lt h)
    exact List.Perm.eq_of_pairwise (fun a b _ _ h1 h2 => le_antisymm h1 h2) h1 h2
      ((List.perm_insertionSort _ _).trans (hnum.trans (List.reverse_perm _).symm))
  have gen : ∀ (ts : List K) (q q' : Stack K), q.numbers = r.numbers → q.stagingIndex = q.detached.length →
      q.detached.length + ts.length ≤ r.stages.length →
      q.detached = ((r.stages.map (·.number)).reverse).take q.detached.length →
      separations true ts q = .ok q' →
      q'.detached = ((r.stages.map (·.number)).reverse).take (q.detached.length + ts.length) := by
    intro ts
    induction ts with
    | nil =>
      intro q q' _ _ _ hq hs
      simp only [separations, Except.ok.injEq] at hs
      subst hs
      simpa using hq
    | cons t ts ih =>
      intro q q' e1 e2 hle hq hs
      unfold separations at hs
      split at hs
      · exact absurd hs (by simp)
      rename_i q1 hq1
      have hq1' := hq1
      unfold separate at hq1
      split at hq1
      · exact absurd hq1 (by simp)
      rename_i q2 hq2
      obtain ⟨f1, f2, f3, f4, _, f6⟩ := detach_ok hq2
      obtain ⟨hn, hi, n, hget, hdet⟩ := f6 rfl
      have hsame : q1.detached = q2.detached ∧ q1.stagingIndex = q2.stagingIndex ∧ q1.numbers = q2.numbers := by
        split at hq1
        · exact absurd hq1 (by simp)
        split at hq1
        · exact absurd hq1 (by simp)
        split at hq1
        · exact absurd hq1 (by simp)
        simp only [Except.ok.injEq] at hq1
        subst hq1
        exact ⟨rfl, rfl, rfl⟩
      dsimp only at hget hdet hi f4
      rw [e1, e2, hsort] at hget
      have hlen : q1.detached.length = q.detached.length + 1 := by rw [hsame.1, hdet]; simp
      have hfin := ih q1 q' (by rw [hsame.2.2, f4, e1]) (by rw [hsame.2.1, hi, e2, hlen])
        (by rw [hlen]; simp only [List.length_cons] at hle; omega)
        (by
          rw [hlen, hsame.1, hdet, List.take_add_one, ← hq, hget]; rfl) hs
      rw [hfin, hlen, List.length_cons]
      congr 1; omega
  have hle : ts.length ≤ r.stages.length := by
    rcases ts with _ | ⟨t, ts⟩
    · simp
    · exact ((separations_stack true _ r r' h).2 (by simp)).le
  have := gen ts r r' rfl (by rw [h0, hd]; rfl) (by rw [hd]; simpa using hle) (by rw [hd]; simp) h
  rw [this, hd, List.length_nil, zero_add, List.take_reverse, List.length_map]

end

/-! ## Witnesses -/

/-- A two-stage rocket on the pad: bottom stage lit, top stage waiting. -/
def twoStage : Stack ℚ :=
  ⟨[⟨1, 0, some ⟨1000000000, 5⟩, some 5⟩, ⟨0, -3, some ⟨0, 4⟩, some 4⟩], 4, some 5, [1, 0], 0, []⟩

/-- A three-stage rocket on the pad, burn times 5, 4 and 4 from the top. -/
def threeStage : Stack ℚ :=
  ⟨[⟨2, 0, some ⟨1000000000, 5⟩, some 5⟩, ⟨1, -2, some ⟨1000000000, 4⟩, some 4⟩, ⟨0, -4, some ⟨0, 4⟩, some 4⟩],
    4, some 5, [2, 1, 0], 0, []⟩

/-- hypotheses of the theorems are met -/
example : (∃ r', separate true twoStage = .ok r') ∧ twoStage.stages.length = 2 := by
  refine ⟨(separate_total true twoStage).2 ⟨by decide, ⟨_, _, _, rfl, rfl⟩, by decide, by decide⟩, rfl⟩
example : (∃ r', separate true threeStage = .ok r') ∧ 3 ≤ threeStage.stages.length := by
  refine ⟨(separate_total true threeStage).2 ⟨by decide, ⟨_, _, _, rfl, rfl⟩, by decide, by decide⟩, by decide⟩
example : (threeStage.stages.map (·.number)).Pairwise (· > ·) ∧
    threeStage.numbers.Perm (threeStage.stages.map (·.number)) ∧
    (separations true [4, 10] threeStage).toOption.map (fun r => (r.detached, r.stages.map (·.number))) = some ([0, 1], [2]) := by
  refine ⟨by decide +kernel, by decide +kernel, by decide +kernel⟩
example : (initIgnition [⟨1, 0, some ⟨0, 5⟩, some 5⟩, (⟨0, -3, some ⟨0, 4⟩, some 4⟩ : StageM ℚ)]).toOption
    = some twoStage.stages := by decide +kernel

/-- **C29 violated.** Two burnout triggers on a three-stage rocket: at the first burnout both lower stages are dropped in one
pass, because the middle stage, never lit, counts as burned out four seconds after launch. -/
theorem both_stages_dropped_violated :
    (triggerEvents (stagingWorld (fun _ => 1000) (fun _ => 100)) threeStage
      ⟨[⟨.burnout, 0, 0, 0⟩, ⟨.burnout, 0, 0, 1⟩], none, 2, []⟩).toOption.map
        (fun p => (p.1.stages.map (·.number), p.1.detached, p.2.1.log)) = some ([2], [0, 1], [0, 1]) := by decide +kernel

/-- With two stages the same trigger drops one stage and leaves the other burning. -/
example :
    (triggerEvents (stagingWorld (fun _ => 1000) (fun _ => 100)) twoStage
      ⟨[⟨.burnout, 0, 0, 0⟩, ⟨.burnout, 0, 0, 1⟩], none, 2, []⟩).toOption.map
        (fun p => (p.1.stages.map (fun s => (s.number, s.motor.map (·.ignition), s.off)), p.2.1.log)) =
      some ([(1, some 4, some 9)], [0]) := by decide +kernel

/-- **C29 violated.** Stage numbers that do not follow the stack (top stage numbered 0): the stage that flies on is the one that
is still on the rocket. -/
theorem wrong_stage_detached_violated :
    (separate true ({ twoStage with
      stages := [⟨0, 0, some ⟨1000000000, 5⟩, some 5⟩, ⟨1, -3, some ⟨0, 4⟩, some 4⟩] } : Stack ℚ)).toOption.map
      (fun r => (r.detached, r.stages.map (·.number))) = some ([0], [0]) := by decide +kernel

end Mapleaf.Rocket
