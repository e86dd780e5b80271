import Verif.Rocket.MissionProps
import Verif.Rocket.MissionDropSample

/-!
# C100 (continued): what a separation lights

After a stage has been dropped, the motor of the top stage burns from now on, its shut-off time is now plus its burn time, and every boat
tail and jet damping of that stage reads that time. The shut-off times of the stages in between are left as they were.
-/

namespace Mapleaf.Rocket
open Mapleaf.Motion

/-- what the parts of a stage read of its motor, after it has been lit at `t` with the shut-off time `off` -/
def ReadsMotor (t off : ℝ) (p : Part) : Prop :=
  (∀ n k r o, p = .boatTail n k r o → o = some off) ∧ (∀ a b x, p = .jet a b x → a = t ∧ b = off)

theorem lit_reads (t off : ℝ) (i : Item) : ReadsMotor t off (i.lit t off).part := by
  obtain ⟨p, b, m⟩ := i
  refine ⟨fun n k r o h => ?_, fun a b x h => ?_⟩ <;> cases p <;> cases m <;> simp_all [Item.lit]

theorem lit_motor (t off : ℝ) : ∀ (is : List Item) (m : Motor ℝ), LiveStage.motor ⟨q, o, is, f⟩ = some m →
    LiveStage.motor ⟨q, o, is.map (Item.lit t off), f'⟩ = some { m with ignition := t } := by
  intro is
  induction is with
  | nil => intro m h; simp [LiveStage.motor] at h
  | cons i is ih =>
    intro m h
    obtain ⟨p, b, mn⟩ := i
    unfold LiveStage.motor at h ih ⊢
    simp only [List.map_cons, List.findSome?_cons] at h ⊢
    cases p <;> cases mn <;> simp only [Item.lit] at h ⊢ <;> first | exact ih m h | (simp only [Option.some.injEq] at h ⊢; rw [h])

theorem motor_append {q o f f'} (is js : List Item) {m : Motor ℝ} (h : LiveStage.motor ⟨q, o, is, f⟩ = some m) :
    LiveStage.motor ⟨q, o, is ++ js, f'⟩ = some m := by
  unfold LiveStage.motor at h ⊢
  simp only [List.findSome?_append] at h ⊢
  rw [h]; rfl

/-- **C100.** What a separation lights. The bottom stage leaves; the motor of the top stage is lit now; the shut-off time of that stage is
now plus the last time of its thrust curve, and the boat tails and the jet damping of the stage read just that. The shut-off times of the
stages in between stay. -/
theorem separation_lit {P : Setup} {v v' : Vessel} {ds : List Vessel} (h : v.separate P = .ok (v', ds)) :
    ∃ (top : LiveStage) (mid : List LiveStage) (bottom : LiveStage) (m : Motor ℝ) (burn : ℝ) (top' : LiveStage) (mid' : List LiveStage),
      v.stages = top :: (mid ++ [bottom]) ∧ top.motor = some m ∧ m.times.getLast? = some burn ∧ v'.stages = top' :: mid' ∧
      top'.motor = some { m with ignition := v.phase.time } ∧ top'.off = some (v.phase.time + burn) ∧
      (∀ i ∈ top'.items, ReadsMotor v.phase.time (v.phase.time + burn) i.part) ∧
      mid'.map LiveStage.off = mid.map LiveStage.off := by
  unfold Vessel.separate at h
  obtain ⟨dropped, -, h⟩ := bind_ok h
  split at h
  · cases h
  rename_i top rest hst
  obtain ⟨lit, h3, h⟩ := bind_ok h
  obtain ⟨ss, h4, h⟩ := bind_ok h
  obtain ⟨fin, -, h⟩ := bind_ok h
  obtain ⟨rfl, rfl⟩ := Prod.mk.inj (Except.ok.inj h)
  have hne : v.stages ≠ [] := by
    intro e; rw [e] at hst; cases hst
  have hall : v.stages = top :: (rest ++ [v.stages.getLast hne]) := by
    rw [← List.cons_append, ← hst, List.dropLast_append_getLast]
  unfold LiveStage.ignite at h3
  split at h3
  · cases h3
  rename_i m hm
  split at h3
  · cases h3
  rename_i burn hb
  obtain rfl := Except.ok.inj h3
  have hmot := lit_motor (f' := some (v.phase.time + burn)) v.phase.time (v.phase.time + burn) top.items m (q := top.position) (o := top.over)
    (f := top.off) hm
  have hread : ∀ i ∈ top.items.map (Item.lit v.phase.time (v.phase.time + burn)), ReadsMotor v.phase.time (v.phase.time + burn) i.part := by
    intro i hi
    obtain ⟨i, -, rfl⟩ := List.mem_map.1 hi
    exact lit_reads _ _ i
  unfold tailLive at h4
  split at h4
  · cases h4
  rename_i s hlast
  split at h4
  · obtain ⟨s', h5, rfl⟩ := map_ok h4
    unfold LiveStage.withTail at h5
    split at h5
    · cases h5
    dsimp only at h5
    split at h5
    · cases h5
    obtain rfl := Except.ok.inj h5
    cases rest using List.reverseRecOn with
    | nil =>
      simp only [List.getLast?_singleton, Option.some.injEq] at hlast
      subst hlast
      refine ⟨_, _, _, m, burn, _, _, hall, hm, hb, rfl, motor_append _ _ hmot, rfl, fun i hi => ?_, rfl⟩
      rcases List.mem_append.1 hi with hi | hi
      · exact hread i hi
      · rw [List.mem_singleton] at hi
        subst hi
        exact ⟨fun n k r o e => by simp only [Part.boatTail.injEq] at e; exact e.2.2.2.symm, fun a b x e => by cases e⟩
    | append_singleton init last _ =>
      rw [← List.cons_append, List.getLast?_concat, Option.some.injEq] at hlast
      subst hlast
      rw [← List.cons_append, List.dropLast_concat]
      exact ⟨_, _, _, m, burn, _, _, hall, hm, hb, rfl, hmot, rfl, hread, by simp⟩
  · obtain rfl := Except.ok.inj h4
    exact ⟨_, _, _, m, burn, _, _, hall, hm, hb, rfl, hmot, rfl, hread, rfl⟩

/-- **C100.** So with two stages the burn-out event, which asks the bottom stage, fires the burn time after the separation; before, it asked
the stage that is gone. -/
theorem burnout_after {P : Setup} {v v' : Vessel} {ds ds' : List Vessel} {e : Option PyErr} (h : v.separate P = .ok (v', ds))
    (h2 : v.stages.length = 2) : ∃ top m burn, v.stages.head? = some top ∧ top.motor = some m ∧ m.times.getLast? = some burn ∧
      (missionWorld P).shutOff ⟨v', ds', e⟩ = v.phase.time + burn := by
  obtain ⟨top, mid, bottom, m, burn, top', mid', e1, e2, e3, e4, -, e5, -, e6⟩ := separation_lit h
  have hm : mid = [] := by
    rw [e1] at h2
    simpa using h2
  subst hm
  have hm' : mid' = [] := by simpa using e6
  subst hm'
  refine ⟨top, m, burn, by rw [e1]; rfl, e2, e3, ?_⟩
  change ((v'.stages.getLast?).bind LiveStage.off).getD 0 = _
  rw [e4]
  simp [e5]

/-- the lowest body component of a stage in flight -/
def LowestItem (s : LiveStage) (i : Item) : Prop :=
  ∃ a b, s.items = a ++ i :: b ∧ i.body ≠ none ∧ ∀ j ∈ b, j.body = none

theorem lowest_find (s : LiveStage) (i : Item) : s.items.reverse.find? (fun i => i.body.isSome) = some i ↔ LowestItem s i := by
  rw [List.find?_eq_some_iff_append]
  constructor
  · rintro ⟨h, as, bs, e, hn⟩
    refine ⟨bs.reverse, as.reverse, ?_, ?_, fun j hj => ?_⟩
    · have := congrArg List.reverse e
      simpa using this
    · intro hb; rw [hb] at h; cases h
    · have := hn j (by simpa using hj)
      cases hb : j.body with
      | none => rfl
      | some b => rw [hb] at this; cases this
  · rintro ⟨a, b, e, h, hn⟩
    refine ⟨?_, b.reverse, a.reverse, by rw [e]; simp, fun j hj => ?_⟩
    · cases hb : i.body with
      | none => exact absurd hb h
      | some b => rfl
    · rw [hn j (by simpa using hj)]; rfl

/-- the lowest body component of the stage is a boat tail -/
def EndsInTail (s : LiveStage) : Prop := ∃ i, LowestItem s i ∧ ∃ n k r o, i.part = .boatTail n k r o

theorem hasTail_live (s : LiveStage) : s.hasTail = true ↔ EndsInTail s := by
  unfold LiveStage.hasTail EndsInTail
  cases h : s.items.reverse.find? (fun i => i.body.isSome) with
  | none =>
    simp only [Bool.false_eq_true, false_iff]
    rintro ⟨i, hi, -⟩
    rw [(lowest_find s i).2 hi] at h; cases h
  | some i =>
    simp only
    constructor
    · intro ht
      refine ⟨i, (lowest_find s i).1 h, ?_⟩
      split at ht
      · rename_i n k r o e; exact ⟨n, k, r, o, e⟩
      · cases ht
    · rintro ⟨j, hj, n, k, r, o, e⟩
      rw [(lowest_find s j).2 hj] at h
      obtain rfl := Option.some.inj h
      rw [e]

theorem firstBody_lowest (s : LiveStage) (b : BodyPart ℝ) :
    firstBody (s.items.map Item.body).reverse = some b ↔ ∃ i, LowestItem s i ∧ i.body = some b := by
  unfold firstBody
  rw [← List.map_reverse, List.findSome?_map]
  constructor
  · intro h
    obtain ⟨l1, i, l2, e, h1, h2⟩ := List.findSome?_eq_some_iff.1 h
    refine ⟨i, ⟨l2.reverse, l1.reverse, ?_, ?_, fun j hj => ?_⟩, h1⟩
    · have := congrArg List.reverse e
      simpa using this
    · intro hb; simp [hb] at h1
    · exact h2 j (by simpa using hj)
  · rintro ⟨i, ⟨a, c, e, -, hn⟩, hi⟩
    exact List.findSome?_eq_some_iff.2 ⟨c.reverse, i, a.reverse, by rw [e]; simp, hi, fun j hj => hn j (by simpa using hj)⟩

theorem flat_check (d : ℝ) (p : V3 ℝ) : Trans.check ⟨d, d, 0, p⟩ = .ok () := by
  unfold Trans.check Trans.geometry Trans.halfAngle
  simp [bind, Except.bind]

/-- **C70, C100.** Base drag after a separation, exactly: the new bottom stage keeps its components if it ends in a boat tail or if none are
to be added. Otherwise it gets a boat tail without mass and length, as wide as the rocket, at the lower end of its lowest body component,
which knows the shut-off time of the stage; without a body component the separation fails. -/
theorem tail_after (d r : ℝ) (flag : Bool) (ss out : List LiveStage) : tailLive d r flag ss = .ok out ↔
    ∃ (init : List LiveStage) (s : LiveStage), ss = init ++ [s] ∧
      (((flag = false ∨ EndsInTail s) ∧ out = ss) ∨
       (flag = true ∧ ¬ EndsInTail s ∧ ∃ i b, LowestItem s i ∧ i.body = some b ∧
          out = init ++ [{ s with items := s.items ++ [⟨.boatTail ⟨⟨0, 0, 0⟩, ⟨0, 0, 0⟩, 0, ⟨0, 0, 0⟩⟩ ⟨d, d, 0, ⟨s.position.x, s.position.y, b.z - b.length⟩⟩ r s.off,
            some (Trans.body ⟨d, d, 0, ⟨s.position.x, s.position.y, b.z - b.length⟩⟩ false), false⟩] }])) := by
  cases ss using List.reverseRecOn with
  | nil =>
    constructor
    · intro h; simp [tailLive] at h
    · rintro ⟨init, s, e, -⟩; simp at e
  | append_singleton init s _ =>
    have hun : ∀ (P : List LiveStage → LiveStage → Prop), (∃ (init' : List LiveStage) (s' : LiveStage), init ++ [s] = init' ++ [s'] ∧ P init' s') ↔
        P init s := by
      intro P
      constructor
      · rintro ⟨i', s', e, h⟩
        obtain ⟨rfl, e2⟩ := List.append_inj' e rfl
        obtain rfl : s = s' := by simpa using e2
        exact h
      · exact fun h => ⟨init, s, rfl, h⟩
    rw [hun fun init s => _]
    unfold tailLive
    simp only [List.getLast?_concat, List.dropLast_concat]
    by_cases ht : EndsInTail s
    · rw [if_neg (by rw [(hasTail_live s).2 ht]; simp)]
      simp only [Except.ok.injEq, ht, or_true, true_and, not_true_eq_false, false_and, and_false, or_false]
      exact eq_comm
    have hf : s.hasTail = false := by
      cases e : s.hasTail with
      | false => rfl
      | true => exact absurd ((hasTail_live s).1 e) ht
    cases flag with
    | false =>
      rw [if_neg (by simp)]
      simp only [Except.ok.injEq, true_or, true_and, Bool.false_eq_true, false_and, or_false]
      exact eq_comm
    | true =>
      rw [if_pos ⟨hf, rfl⟩]
      simp only [Bool.true_eq_false, ht, or_self, false_and, false_or, not_false_eq_true, true_and]
      unfold LiveStage.withTail
      cases hb : firstBody (s.items.map Item.body).reverse with
      | none =>
        simp only [Except.map, reduceCtorEq, false_iff, not_exists, not_and]
        intro i b h1 h2
        rw [(firstBody_lowest s b).2 ⟨i, h1, h2⟩] at hb; cases hb
      | some b =>
        simp only
        obtain ⟨i, h1, h2⟩ := (firstBody_lowest s b).1 hb
        have hu : ∀ i' b', LowestItem s i' → i'.body = some b' → b' = b := by
          intro i' b' h1' h2'
          rw [(firstBody_lowest s b').2 ⟨i', h1', h2'⟩] at hb
          exact Option.some.inj hb
        rw [flat_check]
        simp only [Except.map, Except.ok.injEq]
        constructor
        · rintro rfl
          exact ⟨i, b, h1, h2, rfl⟩
        · rintro ⟨i', b', h1', h2', rfl⟩
          obtain rfl := hu i' b' h1' h2'
          rfl

/-- a stage whose lowest body component is a tube from `0` to `-2` gets a boat tail at `-2` -/
example (w : Inertia ℝ) (f : ℝ → Except PyErr ℝ) : ∃ out x, tailLive 1 0 true
    [⟨⟨0, 0, 0⟩, ⟨none, none, none⟩, [⟨.recovery w, some ⟨0, 2, 1, f, true⟩, false⟩, ⟨.recovery w, none, false⟩], some 5⟩] = .ok [out] ∧
    out.items.length = 3 ∧ out.items.getLast? = some x ∧ ∃ b, x.body = some b ∧ b.z = -2 ∧ b.length = 0 := by
  refine ⟨_, _, (tail_after _ _ _ _ _).2 ⟨[], _, rfl, Or.inr ⟨rfl, ?_, ⟨.recovery w, some ⟨0, 2, 1, f, true⟩, false⟩, _,
    ⟨[], [⟨.recovery w, none, false⟩], rfl, by simp, by simp⟩, rfl, rfl⟩⟩, rfl, rfl, _, rfl, ?_, rfl⟩
  · rintro ⟨i, ⟨a, b, e, h1, h2⟩, n, k, r, o, hp⟩
    have hi : i ∈ [(⟨.recovery w, some ⟨0, 2, 1, f, true⟩, false⟩ : Item), ⟨.recovery w, none, false⟩] := by
      have e' : [(⟨.recovery w, some ⟨0, 2, 1, f, true⟩, false⟩ : Item), ⟨.recovery w, none, false⟩] = a ++ i :: b := e
      rw [e']; simp
    simp only [List.mem_cons, List.not_mem_nil, or_false] at hi
    rcases hi with rfl | rfl <;> cases hp
  · change (0 : ℝ) - 2 = -2
    norm_num

/-- a rocket of two stages drops the lower one; the motor of the upper one burns for a second from there -/
example (ph : Phase) : ∃ v' d, (Trip.pair ph).separate { Trip.setup with src := Trip.source2 } = .ok (v', [d]) ∧
    (missionWorld { Trip.setup with src := Trip.source2 }).shutOff ⟨v', [d], none⟩ = ph.time + 1 := by
  obtain ⟨v', d, h⟩ := Trip.pair_separate ph
  refine ⟨v', d, h, ?_⟩
  obtain ⟨top, m, burn, h1, h2, h3, h4⟩ := burnout_after (ds' := [d]) (e := none) h rfl
  obtain rfl : _ = top := Option.some.inj h1
  obtain rfl : _ = m := Option.some.inj h2
  obtain rfl : (1 : ℝ) = burn := Option.some.inj h3
  exact h4

end Mapleaf.Rocket
