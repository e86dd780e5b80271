import Verif.Rocket.HullModel
import Verif.Rocket.BodyProps
import Verif.Rocket.PartProps

/-!
# C70: base drag is counted once, at the base, with the area of the base
-/

namespace Mapleaf.Rocket
open Mapleaf.Motion

/-- The lowest body component of a stage: nose cone, tube, transition or boat tail with no such component below it. -/
def HullStage.Lowest (s : HullStage) (p : HullPart) : Prop :=
  ∃ above below, s.parts = above ++ p :: below ∧
    (p.cls = .noseCone ∨ p.cls = .bodyTube ∨ p.cls = .transition ∨ p.cls = .boatTail) ∧
    ∀ q ∈ below, ¬ (q.cls = .noseCone ∨ q.cls = .bodyTube ∨ q.cls = .transition ∨ q.cls = .boatTail)

theorem lastBody_iff (s : HullStage) (p : HullPart) : s.lastBody = some p ↔ s.Lowest p := by
  unfold HullStage.lastBody HullStage.Lowest
  rw [List.find?_eq_some_iff_append]
  constructor
  · rintro ⟨h, as, bs, e, hn⟩
    refine ⟨bs.reverse, as.reverse, ?_, (isBody_iff _).1 h, fun q hq hb => ?_⟩
    · have := congrArg List.reverse e
      simpa using this
    · have := hn q (by simpa using hq)
      rw [(isBody_iff _).2 hb] at this
      cases this
  · rintro ⟨a, b, e, h, hn⟩
    refine ⟨(isBody_iff _).2 h, b.reverse, a.reverse, by rw [e]; simp, fun q hq => ?_⟩
    cases hq' : q.cls.isBody with
    | false => rfl
    | true => exact absurd ((isBody_iff _).1 hq') (hn q (by simpa using hq))

theorem hasTail_iff (s : HullStage) : s.hasTail = true ↔ ∃ p, s.Lowest p ∧ p.cls = .boatTail := by
  unfold HullStage.hasTail
  cases h : s.lastBody with
  | none =>
    simp only [Bool.false_eq_true, false_iff, not_exists, not_and]
    intro p hp
    rw [(lastBody_iff s p).2 hp] at h
    cases h
  | some p =>
    simp only [decide_eq_true_eq]
    constructor
    · exact fun e => ⟨p, (lastBody_iff s p).1 h, e⟩
    · rintro ⟨q, hq, e⟩
      rw [(lastBody_iff s q).2 hq] at h
      rwa [← Option.some.inj h]

/-- **C70.** The place of the added boat tail: on the axis of the stage, at the lower end of the lowest body component. -/
theorem bottom_spec (s : HullStage) (p : HullPart) (h : s.Lowest p) (hc : p.cls ≠ .boatTail) (q : V3 ℝ) (hp : p.position = some q) :
    s.bottom = some ⟨s.position.x, s.position.y, q.z - p.length⟩ := by
  unfold HullStage.bottom HullPart.bottomZ
  rw [(lastBody_iff s p).2 h]
  simp [hc, hp]

/-- The two columns of the added boat tail are free in the force log. -/
def LogFree (L : LogM.Log ℝ (V3 ℝ)) : Prop :=
  "Auto-AddedZeroLengthBoatTailF(N)".toList ∉ Dict.keys L.cols ∧ "Auto-AddedZeroLengthBoatTailM(Nm)".toList ∉ Dict.keys L.cols

theorem logTail_none : logTail none = .ok none := rfl

/-- **C70.** Logging the added boat tail needs its two columns to be free; the existing rows get zero vectors. -/
theorem logTail_some (L : LogM.Log ℝ (V3 ℝ)) :
    (LogFree L → ∃ L', logTail (some L) = .ok (some L') ∧ L'.times = L.times ∧
      L'.cols = L.cols ++ [("Auto-AddedZeroLengthBoatTailF(N)".toList, List.replicate L.times.length 0),
        ("Auto-AddedZeroLengthBoatTailM(Nm)".toList, List.replicate L.times.length 0)]) ∧
    (¬ LogFree L → logTail (some L) = .error .valueError) := by
  have hF : ("Auto-AddedZeroLengthBoatTailF(N)".toList == LogM.timeName) = false := by decide +kernel
  have hM : ("Auto-AddedZeroLengthBoatTailM(Nm)".toList == LogM.timeName) = false := by decide +kernel
  have hF' : ¬ "Auto-AddedZeroLengthBoatTailF(N)".toList = LogM.defaultName := by decide +kernel
  have hM' : ¬ "Auto-AddedZeroLengthBoatTailM(Nm)".toList = LogM.defaultName := by decide +kernel
  have hne : ¬ "Auto-AddedZeroLengthBoatTailM(Nm)".toList = "Auto-AddedZeroLengthBoatTailF(N)".toList := by decide +kernel
  by_cases h1 : "Auto-AddedZeroLengthBoatTailF(N)".toList ∈ Dict.keys L.cols
  · have e : logTail (some L) = .error .valueError := by
      unfold logTail LogM.addColumn
      simp only [(Dict.has_iff _ _).2 h1, Bool.true_or, if_true]
    exact ⟨fun h => absurd h1 h.1, fun _ => e⟩
  · by_cases h2 : "Auto-AddedZeroLengthBoatTailM(Nm)".toList ∈ Dict.keys L.cols
    · have h2' := h2
      have e : logTail (some L) = .error .valueError := by
        unfold logTail LogM.addColumn
        simp only [(Dict.has_false_iff _ _).2 h1, hF, Bool.or_self, Bool.false_eq_true, if_false, if_neg hF']
        rw [if_pos]
        rw [(Dict.has_iff _ _).2 ((Dict.mem_keys_set _ _ _ _).2 (by first | exact Or.inl h2 | exact Or.inr h2)), Bool.true_or]
      exact ⟨fun h => absurd h2 h.2, fun _ => e⟩
    · refine ⟨fun _ => ?_, fun h => absurd ⟨h1, h2⟩ h⟩
      have h3 : "Auto-AddedZeroLengthBoatTailM(Nm)".toList ∉ Dict.keys (Dict.set L.cols "Auto-AddedZeroLengthBoatTailF(N)".toList
          (List.replicate L.times.length (0 : V3 ℝ))) := by
        rw [Dict.set_of_not_mem _ _ h1]
        simp only [Dict.keys, List.map_append, List.mem_append, List.map_cons, List.map_nil, List.mem_singleton, not_or]
        exact ⟨h2, hne⟩
      unfold logTail LogM.addColumn
      simp only [(Dict.has_false_iff _ _).2 h1, hF, Bool.or_self, Bool.false_eq_true, if_false, if_neg hF']
      rw [if_neg (by rw [(Dict.has_false_iff _ _).2 h3, hM]; simp)]
      simp only [if_neg hM']
      refine ⟨_, rfl, rfl, ?_⟩
      simp only
      rw [Dict.set_of_not_mem _ _ h3, Dict.set_of_not_mem _ _ h1, List.append_assoc]
      rfl

/-- **C70.** What accounting for base drag does: nothing when the lowest body component of the bottom stage is a boat tail or the option is
off; otherwise exactly one component is added to the bottom stage, of no length and no mass, with the largest tube diameter of the rocket,
at the bottom of the stage; all else stays. -/
theorem ensureTail_spec (h : Hull) (ss : List HullStage) (s : HullStage) (hs : h.stages = ss ++ [s]) :
    ((h.addTails = false ∨ ∃ p, s.Lowest p ∧ p.cls = .boatTail) → h.ensureTail = .ok h) ∧
    (h.addTails = true → (¬ ∃ p, s.Lowest p ∧ p.cls = .boatTail) →
      (∀ L, h.log = some L → ¬ LogFree L → h.ensureTail = .error .valueError) ∧
      ((∀ L, h.log = some L → LogFree L) → ∃ log, logTail h.log = .ok log ∧
        h.ensureTail = .ok ⟨ss ++ [⟨s.position, s.parts ++ [⟨.boatTail, s.bottom, 0, h.maxDiameter, h.maxDiameter, 0⟩], s.off⟩],
          h.maxDiameter, true, log⟩)) := by
  have hl : h.stages.getLast? = some s := by rw [hs]; simp
  have hd : h.stages.dropLast = ss := by rw [hs]; simp
  constructor
  · intro hc
    unfold Hull.ensureTail
    rw [hl]
    simp only
    rw [if_neg]
    rintro ⟨h1, h2⟩
    rcases hc with hc | hc
    · rw [hc] at h2; cases h2
    · rw [(hasTail_iff s).2 hc] at h1; cases h1
  · intro ha ht
    have hf : s.hasTail = false := by
      cases e : s.hasTail with
      | false => rfl
      | true => exact absurd ((hasTail_iff s).1 e) ht
    constructor
    · intro L hL hn
      unfold Hull.ensureTail
      rw [hl]
      simp only
      rw [if_pos ⟨hf, ha⟩, hL, (logTail_some L).2 hn]
    · intro hfree
      have : ∃ log, logTail h.log = .ok log := by
        cases e : h.log with
        | none => exact ⟨none, rfl⟩
        | some L =>
          obtain ⟨L', h1, _⟩ := (logTail_some L).1 (hfree L e)
          exact ⟨_, h1⟩
      obtain ⟨log, e⟩ := this
      refine ⟨log, e, ?_⟩
      unfold Hull.ensureTail
      rw [hl]
      simp only
      rw [if_pos ⟨hf, ha⟩, e, hd]
      simp only [Hull.tail, ha]

/-- Without stages the last one cannot be taken. -/
theorem ensureTail_empty (h : Hull) (hs : h.stages = []) : h.ensureTail = .error .indexError := by
  unfold Hull.ensureTail
  rw [hs]
  rfl

/-- **C70.** When it succeeds with the option on, the lowest body component of the bottom stage is a boat tail; doing it again changes
nothing; the mass of every stage and the upper stages are as before. -/
theorem ensureTail_ends (h h' : Hull) (e : h.ensureTail = .ok h') :
    (h.addTails = true → ∃ ss s p, h'.stages = ss ++ [s] ∧ s.Lowest p ∧ p.cls = .boatTail) ∧
    h'.ensureTail = .ok h' ∧
    h'.stages.dropLast = h.stages.dropLast ∧
    h'.stages.map (fun s => (s.parts.map (·.mass)).sum) = h.stages.map (fun s => (s.parts.map (·.mass)).sum) ∧
    h'.maxDiameter = h.maxDiameter ∧ h'.addTails = h.addTails := by
  rcases List.eq_nil_or_concat h.stages with hs | ⟨ss, s, hs⟩
  · rw [ensureTail_empty h hs] at e; cases e
  · rw [List.concat_eq_append] at hs
    obtain ⟨h1, h2⟩ := ensureTail_spec h ss s hs
    by_cases hc : h.addTails = false ∨ ∃ p, s.Lowest p ∧ p.cls = .boatTail
    · have e' := h1 hc
      rw [e] at e'
      obtain rfl := Except.ok.inj e'
      refine ⟨fun ha => ?_, e, rfl, rfl, rfl, rfl⟩
      rcases hc with hc | ⟨p, hp, hb⟩
      · rw [hc] at ha; cases ha
      · exact ⟨ss, s, p, hs, hp, hb⟩
    · rw [not_or] at hc
      have ha : h.addTails = true := by simpa using hc.1
      obtain ⟨h3, h4⟩ := h2 ha hc.2
      have hfree : ∀ L, h.log = some L → LogFree L := by
        intro L hL
        by_contra hn
        rw [h3 L hL hn] at e
        cases e
      obtain ⟨log, _, e'⟩ := h4 hfree
      rw [e] at e'
      obtain rfl := Except.ok.inj e'
      have low : (HullStage.mk s.position (s.parts ++ [⟨.boatTail, s.bottom, 0, h.maxDiameter, h.maxDiameter, 0⟩]) s.off).Lowest
          ⟨.boatTail, s.bottom, 0, h.maxDiameter, h.maxDiameter, 0⟩ :=
        ⟨s.parts, [], rfl, Or.inr (Or.inr (Or.inr rfl)), by simp⟩
      refine ⟨fun _ => ⟨ss, _, _, rfl, low, rfl⟩, (ensureTail_spec _ ss _ rfl).1 (Or.inr ⟨_, low, rfl⟩), ?_, ?_, rfl, ha.symm⟩
      · rw [hs]; simp
      · rw [hs]; simp

/-- **C70.** The boat tails of a rocket: the drag coefficient is the sum over all of them, in all stages. -/
theorem baseCd_sum (h : Hull) (mach time : ℝ) (c : ℝ) : h.baseCd mach time = .ok c ↔
    ∃ cs, List.Forall₂ (fun (sp : HullStage × HullPart) x => h.tailCd mach time sp.1 sp.2 = .ok x)
      (h.stages.flatMap fun s => (s.parts.filter (fun p => p.cls = .boatTail)).map (fun p => (s, p))) cs ∧ c = cs.sum := by
  have key : ∀ (l : List (HullStage × HullPart)) (r : List ℝ),
      (l.map fun sp => h.tailCd mach time sp.1 sp.2).mapM id = Except.ok r ↔
        List.Forall₂ (fun (sp : HullStage × HullPart) x => h.tailCd mach time sp.1 sp.2 = .ok x) l r := by
    intro l
    induction l with
    | nil =>
      intro r
      simp only [List.map_nil, List.mapM_nil, List.forall₂_nil_left_iff]
      exact ⟨fun e => (Except.ok.inj e).symm, fun e => by rw [e]; rfl⟩
    | cons a l ih =>
      intro r
      rw [List.map_cons, List.mapM_cons]
      constructor
      · intro e
        cases h1 : h.tailCd mach time a.1 a.2 with
        | error x => rw [h1] at e; cases e
        | ok x =>
          cases h2 : (l.map fun sp => h.tailCd mach time sp.1 sp.2).mapM id with
          | error y => rw [h1, h2] at e; cases e
          | ok y =>
            rw [h1, h2] at e
            obtain rfl : x :: y = r := Except.ok.inj e
            exact .cons h1 ((ih y).1 h2)
      · intro e
        cases e with
        | @cons _ x _ y h1 h2 => rw [h1, (ih y).2 h2]; rfl
  have e : (h.stages.flatMap fun (s : HullStage) => (s.parts.filter (fun p => p.cls = .boatTail)).map (h.tailCd mach time s)) =
      (h.stages.flatMap fun s => (s.parts.filter (fun p => p.cls = .boatTail)).map (fun p => (s, p))).map
        fun sp => h.tailCd mach time sp.1 sp.2 := by
    rw [List.map_flatMap]
    congr 1
    funext s
    rw [List.map_map]
    rfl
  unfold Hull.baseCd
  rw [e]
  constructor
  · intro h1
    cases h2 : ((h.stages.flatMap fun s => (s.parts.filter (fun p => p.cls = .boatTail)).map (fun p => (s, p))).map
        fun sp => h.tailCd mach time sp.1 sp.2).mapM id with
    | error x => rw [h2] at h1; cases h1
    | ok r =>
      rw [h2] at h1
      exact ⟨r, (key _ r).1 h2, (Except.ok.inj h1).symm⟩
  · rintro ⟨cs, h1, rfl⟩
    rw [(key _ cs).2 h1]
    rfl

/-- With one boat tail in the whole rocket the drag is that of this one. -/
theorem baseCd_one (h : Hull) (mach time : ℝ) (s : HullStage) (p : HullPart)
    (e : (h.stages.flatMap fun s => (s.parts.filter (fun p => p.cls = .boatTail)).map (fun p => (s, p))) = [(s, p)]) :
    h.baseCd mach time = h.tailCd mach time s p := by
  have e' : (h.stages.flatMap fun (s : HullStage) => (s.parts.filter (fun p => p.cls = .boatTail)).map (h.tailCd mach time s)) =
      [h.tailCd mach time s p] := by
    have := congrArg (List.map fun sp : HullStage × HullPart => h.tailCd mach time sp.1 sp.2) e
    rw [List.map_flatMap] at this
    simpa [List.map_map, Function.comp_def] using this
  unfold Hull.baseCd
  rw [e']
  cases h.tailCd mach time s p with
  | error x => rfl
  | ok x => simp [List.mapM_cons, Except.map, bind, Except.bind, pure, Except.pure]

/-- The boat tails after one was added to a rocket without any. -/
theorem tails_added (ss : List HullStage) (s : HullStage) (p : HullPart) (hp : p.cls = .boatTail)
    (hn : ∀ s' ∈ ss ++ [s], ∀ p ∈ s'.parts, p.cls ≠ .boatTail) :
    ((ss ++ [(⟨s.position, s.parts ++ [p], s.off⟩ : HullStage)]).flatMap fun s =>
      (s.parts.filter (fun p => p.cls = .boatTail)).map (fun p => (s, p))) = [(⟨s.position, s.parts ++ [p], s.off⟩, p)] := by
  have nil : ∀ s' ∈ ss ++ [s], s'.parts.filter (fun p => p.cls = .boatTail) = [] := by
    intro s' hs'
    rw [List.filter_eq_nil_iff]
    intro p hp
    simpa using hn s' hs' p hp
  simp only [List.flatMap_append, List.flatMap_cons, List.flatMap_nil, List.append_nil, List.filter_append,
    nil s (by simp), List.nil_append]
  have e0 : (ss.flatMap fun s => (s.parts.filter (fun p => p.cls = .boatTail)).map (fun p => (s, p))) = [] := by
    rw [List.flatMap_eq_nil_iff]
    intro s' hs'
    rw [nil s' (by simp [hs'])]
    rfl
  rw [e0, List.nil_append]
  simp [hp]

/-- The engine of a stage is off: it has none, or the shut-off time has passed. -/
def HullStage.Coasting (s : HullStage) (time : ℝ) : Prop := ∀ o, s.off = some o → o < time

open Classical in
/-- **C70.** A boat tail of no length and equal diameters has exactly the drag of its base, and only while the engine is off. -/
theorem tailCd_flat (h : Hull) (mach time : ℝ) (s : HullStage) (p : HullPart) (hD : 0 < h.maxDiameter) (hp : p.top = p.base) :
    h.tailCd mach time s p =
      .ok (if s.Coasting time then baseDragCd mach * (p.base ^ 2 / h.maxDiameter ^ 2) else 0) := by
  have ha : h.aref ≠ 0 := by unfold Hull.aref; positivity
  have hpi := Real.pi_ne_zero
  unfold Hull.tailCd
  obtain ⟨⟨c, h1, h2⟩, h3⟩ := Trans.boatTail_base ⟨p.top, p.base, p.length, p.position.getD 0⟩ mach h.aref ha hp.ge
  have hc := h3 hp.symm
  rw [h1] at hc
  obtain rfl := Except.ok.inj hc
  have e : baseDragCd mach * (Trans.mk p.top p.base p.length (p.position.getD 0)).bottomArea / h.aref =
      baseDragCd mach * (p.base ^ 2 / h.maxDiameter ^ 2) := by
    unfold Trans.bottomArea Hull.aref
    have := hD.ne'
    field_simp
  rw [zero_add, e] at h2
  cases ho : s.off with
  | none =>
    simp only
    rw [h2, if_pos (by intro o h; rw [ho] at h; cases h)]
  | some o =>
    simp only
    by_cases ht : o < time
    · rw [if_pos (by intro o' h; rw [ho] at h; rwa [← Option.some.inj h])]
      simpa [ht] using h2
    · rw [if_neg (fun hc => ht (hc o ho))]
      simpa [ht] using h1

open Classical in
/-- **C70.** A rocket without boat tails, accounted for: its boat tail drag is the drag of a base as large as the reference area while
the engine of the bottom stage is off, and none while it burns. -/
theorem base_drag_partial (h h' : Hull) (ss : List HullStage) (s : HullStage) (hs : h.stages = ss ++ [s]) (ha : h.addTails = true)
    (hD : 0 < h.maxDiameter) (hn : ∀ s ∈ h.stages, ∀ p ∈ s.parts, p.cls ≠ .boatTail) (e : h.ensureTail = .ok h') (mach time : ℝ) :
    h'.baseCd mach time = .ok (if s.Coasting time then baseDragCd mach else 0) := by
  have hno : ¬ ∃ p, s.Lowest p ∧ p.cls = .boatTail := by
    rintro ⟨p, ⟨a, b, hp, _⟩, hc⟩
    exact hn s (by rw [hs]; simp) p (by rw [hp]; simp) hc
  obtain ⟨h3, h4⟩ := (ensureTail_spec h ss s hs).2 ha hno
  have hfree : ∀ L, h.log = some L → LogFree L := by
    intro L hL
    by_contra hx
    rw [h3 L hL hx] at e
    cases e
  obtain ⟨log, _, e'⟩ := h4 hfree
  rw [e] at e'
  obtain rfl := Except.ok.inj e'
  refine (baseCd_one _ mach time _ _ (tails_added ss s _ rfl (by rwa [← hs]))).trans ?_
  refine (tailCd_flat _ mach time _ _ hD rfl).trans ?_
  have : h.maxDiameter ^ 2 ≠ 0 := by positivity
  simp only [div_self this, mul_one]
  rfl

/-- **C70 (negation of "with the area of the base").** The drag is right exactly when the base is as wide as the widest tube of the
whole rocket: the base drag area of a coasting rocket equals the drag coefficient times the area of its lowest body component's lower end
only then. -/
theorem base_area_violated (h h' : Hull) (ss : List HullStage) (s : HullStage) (hs : h.stages = ss ++ [s]) (ha : h.addTails = true)
    (hD : 0 < h.maxDiameter) (hn : ∀ s ∈ h.stages, ∀ p ∈ s.parts, p.cls ≠ .boatTail) (e : h.ensureTail = .ok h') (mach time : ℝ)
    (hm : 0 < mach) (hc : s.Coasting time) (p : HullPart) (_hp : s.Lowest p) (h0 : 0 ≤ p.base) :
    ∃ c, h'.baseCd mach time = .ok c ∧
      (c * (Real.pi * h.maxDiameter ^ 2 / 4) = baseDragCd mach * (Real.pi * p.base ^ 2 / 4) ↔ p.base = h.maxDiameter) := by
  refine ⟨_, base_drag_partial h h' ss s hs ha hD hn e mach time, ?_⟩
  rw [if_pos hc]
  have hb : baseDragCd mach ≠ 0 := by
    unfold baseDragCd
    split
    · positivity
    · positivity
  rw [mul_right_inj' hb]
  have hpi := Real.pi_pos
  constructor
  · intro e
    have e2 : p.base ^ 2 = h.maxDiameter ^ 2 := by
      have := mul_left_cancel₀ hpi.ne' (show Real.pi * p.base ^ 2 = Real.pi * h.maxDiameter ^ 2 by linarith)
      exact this
    exact (pow_left_inj₀ h0 hD.le two_ne_zero).1 e2
  · intro e; rw [e]

/-- **C70 (negation of "at every separation").** In a rocket with a force log whose two lowest stages have no boat tail, the set-up adds
one and the first separation raises ValueError: the log already has the columns of a boat tail of that name. -/
theorem second_tail_violated (h : Hull) (ss : List HullStage) (s1 s2 : HullStage) (hs : h.stages = ss ++ [s1, s2]) (ha : h.addTails = true)
    (hD : 0 < h.maxDiameter) (h1 : ¬ ∃ p, s1.Lowest p ∧ p.cls = .boatTail) (h2 : ¬ ∃ p, s2.Lowest p ∧ p.cls = .boatTail)
    (L : LogM.Log ℝ (V3 ℝ)) (hL : h.log = some L) (hf : LogFree L) :
    ∃ h', h.setUp = .ok h' ∧ ∀ off, h'.drop off = .error .valueError := by
  have hs' : h.stages = (ss ++ [s1]) ++ [s2] := by rw [hs]; simp
  obtain ⟨_, h4⟩ := (ensureTail_spec h _ s2 hs').2 ha h2
  obtain ⟨log, el, e⟩ := h4 (fun L' hL' => by rw [hL] at hL'; rwa [← Option.some.inj hL'])
  obtain ⟨L', el', ht, hcols⟩ := (logTail_some L).1 hf
  rw [hL, el'] at el
  obtain rfl := Except.ok.inj el
  refine ⟨_, by unfold Hull.setUp; rw [if_pos hD]; exact e, fun off => ?_⟩
  have hL' : ¬ LogFree L' := by
    intro hx
    apply hx.1
    rw [hcols]
    simp [Dict.keys]
  unfold Hull.drop
  simp only [List.dropLast_concat]
  cases ss with
  | nil =>
    simp only [List.nil_append]
    have hlow : ¬ ∃ p, (HullStage.mk s1.position s1.parts (some off)).Lowest p ∧ p.cls = .boatTail := h1
    exact ((ensureTail_spec ⟨[⟨s1.position, s1.parts, some off⟩], h.maxDiameter, true, some L'⟩ [] _ rfl).2 rfl hlow).1 L' rfl hL'
  | cons s0 ss =>
    simp only [List.cons_append]
    exact ((ensureTail_spec ⟨⟨s0.position, s0.parts, some off⟩ :: (ss ++ [s1]), h.maxDiameter, true, some L'⟩
      (⟨s0.position, s0.parts, some off⟩ :: ss) s1 rfl).2 rfl h1).1 L' rfl hL'

/-- **C70.** Without a force log separations succeed, with or without boat tails, as long as a stage is left. -/
theorem drop_ok (h : Hull) (ss : List HullStage) (s1 s2 : HullStage) (hs : h.stages = ss ++ [s1, s2]) (hl : h.log = none) (off : ℝ) :
    ∃ h', h.drop off = .ok h' := by
  have hs' : h.stages.dropLast = ss ++ [s1] := by
    rw [hs, show ss ++ [s1, s2] = (ss ++ [s1]) ++ [s2] by simp, List.dropLast_concat]
  have key : ∀ (h : Hull), h.log = none → h.stages ≠ [] → ∃ h', h.ensureTail = .ok h' := by
    intro h hl hne
    rcases List.eq_nil_or_concat h.stages with hs | ⟨ss, s, hs⟩
    · exact absurd hs hne
    · rw [List.concat_eq_append] at hs
      obtain ⟨h1, h2⟩ := ensureTail_spec h ss s hs
      by_cases hc : h.addTails = false ∨ ∃ p, s.Lowest p ∧ p.cls = .boatTail
      · exact ⟨h, h1 hc⟩
      · rw [not_or] at hc
        obtain ⟨log, _, e⟩ := (h2 (by simpa using hc.1) hc.2).2 (fun L hL => by rw [hl] at hL; cases hL)
        exact ⟨_, e⟩
  unfold Hull.drop
  rw [hs']
  cases ss with
  | nil => exact key _ hl (by simp)
  | cons s0 ss => exact key _ hl (by simp)

/-- A stage with one tube of diameter `d` and length 1, its top at height `z`. -/
noncomputable def tubeStage (d z : ℝ) (off : Option ℝ) : HullStage := ⟨⟨0, 0, z⟩, [⟨.bodyTube, some ⟨0, 0, z⟩, 1, d, d, 2⟩], off⟩

/-- The same with a boat tail of no length below it. -/
noncomputable def tailedStage (d z : ℝ) (off : Option ℝ) : HullStage :=
  ⟨⟨0, 0, z⟩, [⟨.bodyTube, some ⟨0, 0, z⟩, 1, d, d, 2⟩, ⟨.boatTail, some ⟨0, 0, z - 1⟩, 0, d, d, 0⟩], off⟩

theorem tubeStage_low (d z : ℝ) (off : Option ℝ) :
    (tubeStage d z off).Lowest ⟨.bodyTube, some ⟨0, 0, z⟩, 1, d, d, 2⟩ ∧
    ¬ ∃ p, (tubeStage d z off).Lowest p ∧ p.cls = .boatTail := by
  constructor
  · exact ⟨[], [], rfl, Or.inr (Or.inl rfl), by simp⟩
  · rintro ⟨p, ⟨a, b, e, _⟩, hc⟩
    have : p ∈ (tubeStage d z off).parts := by rw [e]; simp
    simp only [tubeStage, List.mem_singleton] at this
    rw [this] at hc
    cases hc

theorem tailedStage_low (d z : ℝ) (off : Option ℝ) : ∃ p, (tailedStage d z off).Lowest p ∧ p.cls = .boatTail :=
  ⟨⟨.boatTail, some ⟨0, 0, z - 1⟩, 0, d, d, 0⟩, ⟨[⟨.bodyTube, some ⟨0, 0, z⟩, 1, d, d, 2⟩], [], rfl, Or.inr (Or.inr (Or.inr rfl)), by simp⟩, rfl⟩

/-- A concrete rocket meeting the hypotheses of `second_tail_violated`: two tubes, the option on, an empty force log. -/
example : ∃ h', Hull.setUp ⟨[tubeStage 1 0 none, tubeStage 1 (-1) none], 1, true, some ⟨[], [], [], 0⟩⟩ = .ok h' ∧
    ∀ off, h'.drop off = .error .valueError :=
  second_tail_violated _ [] _ _ rfl rfl (by norm_num) (tubeStage_low _ _ _).2 (tubeStage_low _ _ _).2 _ rfl ⟨by simp [Dict.keys], by simp [Dict.keys]⟩

/-- And of `base_drag_partial` and `base_area_violated`: a single tube as wide as the rocket. -/
example (mach : ℝ) : ∃ h', Hull.ensureTail ⟨[tubeStage 1 0 none], 1, true, none⟩ = .ok h' ∧ h'.baseCd mach 3 = .ok (baseDragCd mach) := by
  obtain ⟨log, el, e⟩ := ((ensureTail_spec ⟨[tubeStage 1 0 none], 1, true, none⟩ [] _ rfl).2 rfl (tubeStage_low _ _ _).2).2
    (fun L hL => by cases hL)
  refine ⟨_, e, ?_⟩
  rw [base_drag_partial _ _ [] _ rfl rfl (by norm_num) (by simp [tubeStage]) e mach 3, if_pos]
  intro o ho
  cases ho

/-- **C70 (negation, witness).** A narrow upper stage (diameter 1) on a wide booster (diameter 2): after the booster is dropped the upper
stage has the base drag of the booster, four times its own. -/
theorem narrow_stage_violated (mach time off : ℝ) (ht : off < time) :
    ∃ h h', Hull.setUp ⟨[tubeStage 1 0 none, tubeStage 2 (-1) none], 2, true, none⟩ = .ok h ∧ h.drop off = .ok h' ∧
      h'.baseCd mach time = .ok (baseDragCd mach) ∧
      baseDragCd mach * (Real.pi * 2 ^ 2 / 4) = 4 * (baseDragCd mach * (Real.pi * 1 ^ 2 / 4)) := by
  obtain ⟨_, h4⟩ := (ensureTail_spec ⟨[tubeStage 1 0 none, tubeStage 2 (-1) none], 2, true, none⟩ [tubeStage 1 0 none] _ rfl).2 rfl
    (tubeStage_low _ _ _).2
  obtain ⟨log, el, e⟩ := h4 (fun L hL => by cases hL)
  obtain rfl := Except.ok.inj el
  obtain ⟨_, h4⟩ := (ensureTail_spec ⟨[tubeStage 1 0 (some off)], 2, true, none⟩ [] _ rfl).2 rfl (tubeStage_low _ _ _).2
  obtain ⟨log, el, e2⟩ := h4 (fun L hL => by cases hL)
  have hset : Hull.setUp ⟨[tubeStage 1 0 none, tubeStage 2 (-1) none], 2, true, none⟩ =
      Hull.ensureTail ⟨[tubeStage 1 0 none, tubeStage 2 (-1) none], 2, true, none⟩ := by
    unfold Hull.setUp
    rw [if_pos (by norm_num)]
  refine ⟨_, _, hset.trans e, e2, ?_, by ring⟩
  have := base_drag_partial _ _ [] _ rfl rfl (by norm_num) (by simp [tubeStage]) e2 mach time
  rw [this, if_pos]
  intro o ho
  obtain rfl := Option.some.inj ho
  exact ht

/-- **C70 (negation of "once").** A boat tail of an upper stage has base drag although the stage below covers it: a coasting rocket of two
equal stages with boat tails has twice the base drag of its base. -/
theorem stacked_tail_violated (mach time : ℝ) :
    Hull.setUp ⟨[tailedStage 1 0 none, tailedStage 1 (-1) none], 1, true, none⟩ =
      .ok ⟨[tailedStage 1 0 none, tailedStage 1 (-1) none], 1, true, none⟩ ∧
    Hull.baseCd ⟨[tailedStage 1 0 none, tailedStage 1 (-1) none], 1, true, none⟩ mach time = .ok (2 * baseDragCd mach) := by
  constructor
  · unfold Hull.setUp
    rw [if_pos (by norm_num)]
    exact (ensureTail_spec _ [tailedStage 1 0 none] _ rfl).1 (Or.inr (tailedStage_low _ _ _))
  · refine (baseCd_sum _ _ _ _).2 ⟨[baseDragCd mach, baseDragCd mach], ?_, by simp; ring⟩
    have hc : ∀ z, (tailedStage 1 z none).Coasting time := by intro z o ho; cases ho
    have he : ([tailedStage 1 0 none, tailedStage 1 (-1) none].flatMap fun s =>
        (s.parts.filter (fun p => p.cls = .boatTail)).map (fun p => (s, p))) =
        [(tailedStage 1 0 none, ⟨.boatTail, some ⟨0, 0, 0 - 1⟩, 0, 1, 1, 0⟩), (tailedStage 1 (-1) none, ⟨.boatTail, some ⟨0, 0, -1 - 1⟩, 0, 1, 1, 0⟩)] := by
      simp [tailedStage]
    show List.Forall₂ _ ([tailedStage 1 0 none, tailedStage 1 (-1) none].flatMap _) _
    rw [he]
    refine .cons ?_ (.cons ?_ .nil)
    · refine (tailCd_flat _ mach time _ _ (by norm_num) rfl).trans ?_
      rw [if_pos (hc 0)]; norm_num
    · refine (tailCd_flat _ mach time _ _ (by norm_num) rfl).trans ?_
      rw [if_pos (hc (-1))]; norm_num

/-- **C70 (negation of "rockets without body tubes").** The set-up leaves a rocket without body tubes alone, but a separation adds a boat
tail whose drag divides by the reference area zero, so the flight ends with ZeroDivisionError. -/
theorem no_tube_violated (h : Hull) (ss : List HullStage) (s1 s2 : HullStage) (hs : h.stages = ss ++ [s1, s2]) (ha : h.addTails = true)
    (hD : h.maxDiameter = 0) (hl : h.log = none) (hn : ∀ s ∈ h.stages, ∀ p ∈ s.parts, p.cls ≠ .boatTail) (off : ℝ) :
    h.setUp = .ok h ∧ ∃ h', h.drop off = .ok h' ∧ ∀ mach time, h'.baseCd mach time = .error .zeroDivision := by
  have hset : h.setUp = .ok h := by
    unfold Hull.setUp
    rw [if_neg (by rw [hD]; norm_num)]
  refine ⟨hset, ?_⟩
  have key : ∀ (g : Hull) (ss : List HullStage) (s : HullStage), g.stages = ss ++ [s] → g.addTails = true → g.maxDiameter = 0 →
      g.log = none → (∀ s ∈ g.stages, ∀ p ∈ s.parts, p.cls ≠ .boatTail) →
      ∃ h', g.ensureTail = .ok h' ∧ ∀ mach time, h'.baseCd mach time = .error .zeroDivision := by
    intro g ss s hs ha hD hl hn
    have hno : ¬ ∃ p, s.Lowest p ∧ p.cls = .boatTail := by
      rintro ⟨p, ⟨a, b, hp, _⟩, hc⟩
      exact hn s (by rw [hs]; simp) p (by rw [hp]; simp) hc
    obtain ⟨log, _, e⟩ := ((ensureTail_spec g ss s hs).2 ha hno).2 (fun L hL => by rw [hl] at hL; cases hL)
    refine ⟨_, e, fun mach time => ?_⟩
    refine (baseCd_one _ mach time _ _ (tails_added ss s _ rfl (by rwa [← hs]))).trans ?_
    unfold Hull.tailCd Trans.boatTailCd Trans.cdFactor Hull.aref
    simp [hD]
  have hs' : h.stages.dropLast = ss ++ [s1] := by
    rw [hs, show ss ++ [s1, s2] = (ss ++ [s1]) ++ [s2] by simp, List.dropLast_concat]
  have hn' : ∀ s ∈ ss ++ [s1], ∀ p ∈ s.parts, p.cls ≠ .boatTail := by
    intro s hs2
    refine hn s ?_
    rw [hs]
    simp only [List.mem_append, List.mem_cons, List.not_mem_nil, or_false] at hs2 ⊢
    tauto
  unfold Hull.drop
  rw [hs']
  cases ss with
  | nil => exact key _ [] ⟨s1.position, s1.parts, some off⟩ rfl ha hD hl (by simpa using hn')
  | cons s0 ss => exact key _ (⟨s0.position, s0.parts, some off⟩ :: ss) s1 rfl ha hD hl (by simpa using hn')

example : Hull.setUp ⟨[⟨0, [], none⟩, ⟨0, [], none⟩], 0, true, none⟩ = .ok ⟨[⟨0, [], none⟩, ⟨0, [], none⟩], 0, true, none⟩ :=
  (no_tube_violated ⟨[⟨0, [], none⟩, ⟨0, [], none⟩], 0, true, none⟩ [] _ _ rfl rfl rfl rfl (by simp) 0).1

/-! ## Fineness ratio -/

section fineness
variable {K : Type} [Field K] [LinearOrder K] [IsStrictOrderedRing K]

/-- **C44.** The length of a rocket is the sum of the lengths of the stages that have body components. -/
theorem rocketLength_spec (stages : List (List (BodyComp K))) : rocketLength stages = (stages.filterMap stageLength).sum := by
  have key : ∀ (l : List (List (BodyComp K))) (t : K),
      l.foldl (fun t s => match stageLength s with | some x => t + x | none => t) t = t + (l.filterMap stageLength).sum := by
    intro l
    induction l with
    | nil => intro t; simp
    | cons s l ih =>
      intro t
      rw [List.foldl_cons, ih]
      cases h : stageLength s with
      | none => rw [List.filterMap_cons_none h]
      | some x => rw [List.filterMap_cons_some h, List.sum_cons, add_assoc]
  exact (key stages 0).trans (zero_add _)

/-- **C44.** The fineness ratio is the length over the largest body diameter; undefined exactly when no stage has a body diameter. -/
theorem finenessRatio_spec (stages : List (List (BodyComp K))) :
    (stages = [] → finenessRatio stages = .error .valueError) ∧
    (stages ≠ [] → ∃ m, (∀ s ∈ stages, stageMaxDiameter s ≤ m) ∧ (∃ s ∈ stages, m = stageMaxDiameter s) ∧
      finenessRatio stages = .ok (if m = 0 then none else some ((stages.filterMap stageLength).sum / m))) := by
  constructor
  · rintro rfl; rfl
  · intro hne
    obtain ⟨s, l, rfl⟩ := List.exists_cons_of_ne_nil hne
    have key : ∀ (l : List K) (m : K), let r := l.foldl max m; m ≤ r ∧ (∀ x ∈ l, x ≤ r) ∧ (r = m ∨ r ∈ l) := by
      intro l
      induction l with
      | nil => intro m; simp
      | cons a l ih =>
        intro m
        obtain ⟨h1, h2, h3⟩ := ih (max m a)
        simp only [List.foldl_cons]
        refine ⟨(le_max_left _ _).trans h1, ?_, ?_⟩
        · intro x hx
          rcases List.mem_cons.1 hx with rfl | hx
          · exact (le_max_right _ _).trans h1
          · exact h2 x hx
        · rcases h3 with h3 | h3
          · rcases max_choice m a with hm | hm
            · exact Or.inl (h3.trans hm)
            · exact Or.inr (by rw [h3, hm]; simp)
          · exact Or.inr (List.mem_cons_of_mem _ h3)
    obtain ⟨h1, h2, h3⟩ := key (l.map stageMaxDiameter) (stageMaxDiameter s)
    refine ⟨(l.map stageMaxDiameter).foldl max (stageMaxDiameter s), ?_, ?_, ?_⟩
    · intro s' hs'
      rcases List.mem_cons.1 hs' with rfl | hs'
      · exact h1
      · exact h2 _ (List.mem_map_of_mem hs')
    · rcases h3 with h3 | h3
      · exact ⟨s, by simp, h3⟩
      · obtain ⟨s', hs', e⟩ := List.mem_map.1 h3
        exact ⟨s', List.mem_cons_of_mem _ hs', e.symm⟩
    · unfold finenessRatio
      rw [List.map_cons]
      simp only [rocketLength_spec]

end fineness

end Mapleaf.Rocket
