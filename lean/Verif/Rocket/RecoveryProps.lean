import Verif.Rocket.RecoveryModel
import Verif.Rocket.EventProps
import Verif.Motion.VectorProps
import Verif.Motion.InterpProps

/-!
# C32: recovery stages deploy once each, in order
-/

namespace Mapleaf.Rocket
open Mapleaf.Motion V3

section
variable {σ K : Type} [Field K] [LinearOrder K]

/-- every stage has a known trigger, with a value where one is needed -/
def Triggers (cs : List (Chute K)) : Prop := ∀ c ∈ cs, ∃ k, triggerKind c.trigger c.value = .ok k

/-- the registration made for stage `i` (0-based), none after the last -/
def NextSub (cs : List (Chute K)) (i : Nat) (subs : List (Sub K)) : Prop :=
  (cs.length ≤ i → subs = []) ∧
  (i < cs.length → ∃ (c : Chute K) (k : Kind K), cs[i]? = some c ∧ triggerKind c.trigger c.value = .ok k ∧ subs = [⟨k, 0, c.delay⟩])

/-! ## One deployment -/

/-- **C32.** A deployment during the flight succeeds; what it changes. -/
theorem deploy_total (cs : List (Chute K)) (hv : Triggers cs) (w : Flight σ K) (b : Body K) (hb : w.body = some b) (i : Nat)
    (hi : w.current = i) (hn : i < cs.length) :
    ∃ (w' : Flight σ K) (subs : List (Sub K)), deployNext cs w = .ok (w', subs) ∧ w'.current = i + 1 ∧ w'.rest = w.rest ∧
      w'.body = some (if i = 0 then b.switchTo3DoF else b) ∧ w'.underChute = (if i = 0 then true else w.underChute) ∧
      w'.mainTime = (if i + 1 = cs.length then some b.time else w.mainTime) ∧ NextSub cs (i + 1) subs := by
  have hc : ((i : Int) + 1 = 1) ↔ i = 0 := by omega
  have hl : ((i : Int) + 1 = (cs.length : Int)) ↔ i + 1 = cs.length := by omega
  have hlt : ((i : Int) + 1 < (cs.length : Int)) ↔ i + 1 < cs.length := by omega
  have htn : ((i : Int) + 1).toNat = i + 1 := by omega
  unfold deployNext
  simp only [hi, hc, hb]
  by_cases h0 : i = 0
  · subst h0
    simp only [if_true, Nat.cast_zero, zero_add]
    by_cases h1 : 1 = cs.length
    · rw [if_pos (by rw [← h1]; rfl)]
      simp only [if_pos h1]
      rw [if_neg (by rw [← h1]; simp)]
      exact ⟨_, _, rfl, rfl, rfl, rfl, rfl, rfl, fun _ => rfl, fun h => absurd h (by omega)⟩
    · rw [if_neg (by omega)]
      simp only [if_neg h1]
      rw [if_pos (by omega)]
      have hlen : 1 < cs.length := by omega
      obtain ⟨k, hk⟩ := hv _ (List.getElem_mem hlen)
      simp only [Int.toNat_one, List.getElem?_eq_getElem hlen, hk]
      refine ⟨_, _, rfl, rfl, rfl, rfl, rfl, rfl, fun h => absurd h (by omega), fun _ => ⟨_, k, List.getElem?_eq_getElem hlen, hk, rfl⟩⟩
  · simp only [if_neg h0]
    by_cases h1 : i + 1 = cs.length
    · simp only [hl, if_pos h1]
      rw [if_neg (by omega)]
      exact ⟨_, _, rfl, rfl, rfl, rfl, rfl, rfl, fun _ => rfl, fun h => absurd h (by omega)⟩
    · simp only [hl, if_neg h1]
      have hlen : i + 1 < cs.length := by omega
      rw [if_pos (by omega)]
      obtain ⟨k, hk⟩ := hv _ (List.getElem_mem hlen)
      simp only [htn, List.getElem?_eq_getElem hlen, hk]
      refine ⟨_, _, rfl, rfl, rfl, rfl, rfl, rfl, fun h => absurd h (by omega), fun _ => ⟨_, k, List.getElem?_eq_getElem hlen, hk, rfl⟩⟩

/-- **C32.** At start-up nothing is deployed and the trigger of the first stage is registered. Without any stage the start-up fails. -/
theorem init_spec (cs : List (Chute K)) (hv : Triggers cs) (s : σ) :
    (cs = [] → initRecovery cs s = .error .attributeError) ∧
    (cs ≠ [] → ∃ subs, initRecovery cs s = .ok (⟨s, none, 0, false, none⟩, subs) ∧ NextSub cs 0 subs) := by
  constructor
  · rintro rfl; rfl
  · intro h
    have hlen : 0 < cs.length := List.length_pos_iff.2 h
    obtain ⟨k, hk⟩ := hv _ (List.getElem_mem hlen)
    unfold initRecovery deployNext
    have h0 : ¬ ((0 : Int) = (cs.length : Int)) := by omega
    simp only [Int.reduceNeg, Int.add_left_neg]
    rw [if_neg (by decide)]
    simp only [if_neg h0]
    rw [if_pos (by omega)]
    simp only [Int.toNat_zero, List.getElem?_eq_getElem hlen, hk]
    exact ⟨_, rfl, fun h => absurd h (by omega), fun _ => ⟨_, k, by simp [hlen], hk, rfl⟩⟩

/-- A bad trigger of a later stage is only noticed in flight: the deployment of the stage before it fails. -/
theorem late_error_violated (cs : List (Chute K)) (w : Flight σ K) (b : Body K) (hb : w.body = some b) (i : Nat)
    (hi : w.current = i) (hn : i + 1 < cs.length) (e : PyErr) (he : triggerKind cs[i + 1].trigger cs[i + 1].value = .error e) :
    deployNext cs w = .error e := by
  have hc : ((i : Int) + 1 = 1) ↔ i = 0 := by omega
  have htn : ((i : Int) + 1).toNat = i + 1 := by omega
  unfold deployNext
  simp only [hi, hc, hb]
  by_cases h0 : i = 0
  · subst h0
    simp only [if_true, Nat.cast_zero, zero_add]
    rw [if_neg (by omega)]
    dsimp only
    rw [if_pos (by omega)]
    simp only [Int.toNat_one, List.getElem?_eq_getElem hn]
    simp only [Nat.zero_add] at he
    rw [he]
  · simp only [if_neg h0]
    rw [if_neg (by omega)]
    dsimp only
    rw [if_pos (by omega)]
    simp only [htn, List.getElem?_eq_getElem hn]
    rw [he]

/-! ## One pass of the event detector -/

/-- the pending deployment events -/
def pending (d : Detector K) : List (Ev K) := d.evs.filter (fun e => e.cb == 0)

/-- what the recovery system looks like from outside -/
def view (w : Flight σ K) : Option (Body K) × Int × Bool × Option K := (w.body, w.current, w.underChute, w.mainTime)

theorem numbered_shifted (n : Nat) (ss : List (Sub K)) :
    (numbered n (ss.map fun s => { s with cb := s.cb + 1 })).filter (fun e => e.cb == 0) = [] := by
  induction ss generalizing n with
  | nil => rfl
  | cons s ss ih => simp [numbered, ih]

theorem sweep_others (o : Outside σ K) (cs : List (Chute K)) (last : Option (K × K)) (z vz : K) (l : List (Ev K))
    (hl : ∀ e ∈ l, e.cb ≠ 0) (a : Sweep (Flight σ K) K) :
    view (sweepFrom (recoveryWorld o cs) last z vz l a).w = view a.w ∧
    (sweepFrom (recoveryWorld o cs) last z vz l a).kept.filter (fun e => e.cb == 0) = a.kept.filter (fun e => e.cb == 0) ∧
    (sweepFrom (recoveryWorld o cs) last z vz l a).added.filter (fun e => e.cb == 0) = a.added.filter (fun e => e.cb == 0) := by
  induction l generalizing a with
  | nil => exact ⟨rfl, rfl, rfl⟩
  | cons e l ih =>
    rw [show sweepFrom (recoveryWorld o cs) last z vz (e :: l) a =
      sweepFrom (recoveryWorld o cs) last z vz l (sweepStep (recoveryWorld o cs) last z vz a e) from rfl]
    obtain ⟨h1, h2, h3⟩ := ih (fun x hx => hl x (List.mem_cons_of_mem _ hx)) (sweepStep (recoveryWorld o cs) last z vz a e)
    rw [h1, h2, h3]
    have he : e.cb ≠ 0 := hl e (List.mem_cons_self ..)
    have hb : (e.cb == 0) = false := by simpa using he
    obtain ⟨n, hn⟩ := Nat.exists_eq_succ_of_ne_zero he
    unfold sweepStep
    split
    · split
      · refine ⟨?_, rfl, ?_⟩
        · simp only [hn, Nat.succ_eq_add_one, recoveryWorld, view]
        · simp only [hn, Nat.succ_eq_add_one, recoveryWorld, List.filter_append]
          rw [numbered_shifted]; simp
      · refine ⟨rfl, rfl, ?_⟩
        simp [List.filter_append, hb]
    · split <;> refine ⟨rfl, ?_, rfl⟩ <;> simp [List.filter_append, hb]

/-- **C32.** One pass of the event detector: the recovery system is unchanged, or its single pending event is due and has a delay
and is rescheduled, or it is due and the next stage is deployed - never more than one stage. -/
theorem pass_effect (o : Outside σ K) (cs : List (Chute K)) (w w' : Flight σ K) (d d' : Detector K) (est : K) (ex : Bool)
    (h : triggerEvents (recoveryWorld o cs) w d = .ok (w', d', est, ex)) :
    (pending d = [] → view w' = view w ∧ pending d' = []) ∧
    (∀ e, pending d = [e] → ∃ s : σ,
      let W := recoveryWorld o cs
      let due := occurs W (W.posZ w) (W.velZ w) { w with rest := s } e.kind
      (due = false → view w' = view w ∧ pending d' = [e]) ∧
      (due = true → e.delay ≠ 0 → view w' = view w ∧ pending d' = [⟨.timeReached (W.time w + e.delay), 0, 0, e.origin⟩]) ∧
      (due = true → e.delay = 0 → ∀ w1 subs, deployNext cs { w with rest := s } = .ok (w1, subs) → view w' = view w1 ∧
        ∃ n, pending d' = numbered n (subs.filter (fun x => x.cb == 0)))) := by
  rw [trigger_sweep] at h
  simp only [Except.ok.injEq, Prod.mk.injEq] at h
  obtain ⟨hw, hd, _, _⟩ := h
  subst hw; subst hd
  unfold pending
  simp only [List.filter_append]
  constructor
  · intro hp
    have hl : ∀ e ∈ d.evs, e.cb ≠ 0 := by
      intro e he hc
      have := List.filter_eq_nil_iff.1 hp e he
      simp [hc] at this
    obtain ⟨h1, h2, h3⟩ := sweep_others o cs d.last ((recoveryWorld o cs).posZ w) ((recoveryWorld o cs).velZ w) d.evs hl
      ⟨w, [], [], d.fresh, d.log, 10 ^ 10, false⟩
    refine ⟨h1, ?_⟩
    unfold sweep
    rw [h2, h3]; rfl
  · intro e hp
    obtain ⟨l1, l2, hevs, hl1, hpe, hl2⟩ := List.filter_eq_cons_iff.1 hp
    have hl1 : ∀ x ∈ l1, x.cb ≠ 0 := by intro x hx hc; exact hl1 x hx (by simp [hc])
    have hl2 : ∀ x ∈ l2, x.cb ≠ 0 := by
      intro x hx hc
      have := List.filter_eq_nil_iff.1 hl2 x hx
      simp [hc] at this
    have hcb : e.cb = 0 := by simpa using hpe
    set z := (recoveryWorld o cs).posZ w with hz
    set vz := (recoveryWorld o cs).velZ w with hvz
    set a0 : Sweep (Flight σ K) K := ⟨w, [], [], d.fresh, d.log, 10 ^ 10, false⟩ with ha0
    set a1 := sweepFrom (recoveryWorld o cs) d.last z vz l1 a0 with ha1
    obtain ⟨v1, k1, p1⟩ := sweep_others o cs d.last z vz l1 hl1 a0
    rw [← ha1] at v1 k1 p1
    have hsw : sweep (recoveryWorld o cs) w d d.evs =
        sweepFrom (recoveryWorld o cs) d.last z vz l2 (sweepStep (recoveryWorld o cs) d.last z vz a1 e) := by
      unfold sweep
      rw [hevs, sweepFrom_append]
      rfl
    rw [hsw]
    obtain ⟨v2, k2, p2⟩ := sweep_others o cs d.last z vz l2 hl2 (sweepStep (recoveryWorld o cs) d.last z vz a1 e)
    rw [v2, k2, p2]
    have hk0 : a0.kept.filter (fun e => e.cb == 0) = [] := rfl
    have hp0 : a0.added.filter (fun e => e.cb == 0) = [] := rfl
    rw [hk0] at k1
    rw [hp0] at p1
    have hw1 : a1.w = { w with rest := a1.w.rest } := by
      simp only [view, Prod.mk.injEq, ha0] at v1
      obtain ⟨q1, q2, q3, q4⟩ := v1
      cases hh : a1.w
      rw [hh] at q1 q2 q3 q4
      simp_all
    refine ⟨a1.w.rest, ?_⟩
    rw [← hw1]
    have hb : (e.cb == 0) = true := by simp [hcb]
    refine ⟨?_, ?_, ?_⟩
    · intro hdue
      unfold sweepStep
      rw [if_neg (by rw [hdue]; simp)]
      split <;> refine ⟨v1, ?_⟩ <;> simp [List.filter_append, hb, k1, p1]
    · intro hdue hdel
      unfold sweepStep
      rw [if_pos hdue, if_neg hdel]
      refine ⟨v1, ?_⟩
      simp only [List.filter_append, k1, p1, hcb, List.nil_append]
      have ht : (recoveryWorld o cs).time a1.w = (recoveryWorld o cs).time w := by
        rw [hw1]; rfl
      rw [ht]; rfl
    · intro hdue hdel w1 subs hdep
      unfold sweepStep
      rw [if_pos hdue, if_pos hdel]
      have hcall : (recoveryWorld o cs).call e.cb a1.w = (w1, subs) := by
        rw [hcb]; simp only [recoveryWorld, hdep]
      rw [hcall]
      refine ⟨rfl, ?_⟩
      simp only [List.filter_append, k1, p1, List.nil_append]
      have hsub : ∀ (ss : List (Sub K)), (∃ k c, ss = [⟨k, 0, c⟩]) ∨ ss = [] → ∀ n, ∃ m,
          (numbered n ss).filter (fun e => e.cb == 0) = numbered m (ss.filter (fun x => x.cb == 0)) := by
        rintro ss (⟨k, c, rfl⟩ | rfl) n
        · exact ⟨n, rfl⟩
        · exact ⟨n, rfl⟩
      refine hsub subs ?_ _
      unfold deployNext at hdep
      dsimp only at hdep
      split at hdep
      · exact absurd hdep (by simp)
      split at hdep
      · exact absurd hdep (by simp)
      split at hdep
      · split at hdep
        · exact absurd hdep (by simp)
        split at hdep
        · exact absurd hdep (by simp)
        simp only [Except.ok.injEq, Prod.mk.injEq] at hdep
        exact Or.inl ⟨_, _, hdep.2.symm⟩
      · simp only [Except.ok.injEq, Prod.mk.injEq] at hdep
        exact Or.inr hdep.2.symm

/-! ## Whole flights -/

/-- Every state the simulation can be in. `hist` lists the stages deployed so far. -/
inductive Flown (o : Outside σ K) (cs : List (Chute K)) : Flight σ K → Detector K → List Int → Prop
  /-- start-up, then creation of the rigid body (rocket.py:198-199), six degrees of freedom -/
  | init (s : σ) (w : Flight σ K) (subs : List (Sub K)) (b : Body K) : initRecovery cs s = .ok (w, subs) → b.rot.isSome →
      Flown o cs { w with body := some b } (subs.foldl Detector.subscribe ⟨[], none, 0, []⟩) []
  /-- anything else in the program registers an event -/
  | sub (w : Flight σ K) (d : Detector K) (hist : List Int) (s : Sub K) : Flown o cs w d hist → s.cb ≠ 0 →
      Flown o cs w (d.subscribe s) hist
  /-- a time step: the body moves but stays of its kind; anything else changes -/
  | move (w : Flight σ K) (d : Detector K) (hist : List Int) (b b' : Body K) (s : σ) : Flown o cs w d hist → w.body = some b →
      (b'.rot = none ↔ b.rot = none) → Flown o cs { w with body := some b', rest := s } d hist
  /-- a pass of the event detector -/
  | pass (w w' : Flight σ K) (d d' : Detector K) (hist : List Int) (est : K) (ex : Bool) : Flown o cs w d hist →
      triggerEvents (recoveryWorld o cs) w d = .ok (w', d', est, ex) →
      Flown o cs w' d' (if w'.current = w.current then hist else hist ++ [w'.current])

/-- the pending event belongs to the next stage: its trigger with its delay, or its delay running -/
def Awaits (cs : List (Chute K)) (i : Nat) (l : List (Ev K)) : Prop :=
  (cs.length ≤ i → l = []) ∧
  (i < cs.length → ∃ (c : Chute K) (e : Ev K), cs[i]? = some c ∧ l = [e] ∧ e.cb = 0 ∧
    ((triggerKind c.trigger c.value = .ok e.kind ∧ e.delay = c.delay) ∨
     (c.delay ≠ 0 ∧ (∃ t, e.kind = .timeReached t) ∧ e.delay = 0)))

theorem NextSub.awaits {cs : List (Chute K)} {i : Nat} {subs : List (Sub K)} (h : NextSub cs i subs) (n : Nat) :
    Awaits cs i (numbered n (subs.filter (fun x => x.cb == 0))) := by
  constructor
  · intro hi; rw [h.1 hi]; rfl
  · intro hi
    obtain ⟨c, k, h1, h2, h3⟩ := h.2 hi
    rw [h3]
    exact ⟨c, ⟨k, 0, c.delay, n⟩, h1, rfl, rfl, Or.inl ⟨h2, rfl⟩⟩

/-- **C32.** In every state of every flight: the stages deployed so far are 1, 2, …, i in this order, each once; exactly the trigger of
stage i+1 is pending (nothing after the last); the rocket is under chute and has three degrees of freedom exactly if the
first stage has been deployed; the main chute time is recorded exactly if all stages have been deployed. -/
theorem flown_invariant (o : Outside σ K) (cs : List (Chute K)) (hv : Triggers cs) (w : Flight σ K) (d : Detector K) (hist : List Int)
    (h : Flown o cs w d hist) :
    ∃ (i : Nat) (b : Body K), w.current = i ∧ i ≤ cs.length ∧ hist = (List.range' 1 i).map (fun n : Nat => (n : Int)) ∧
      w.body = some b ∧
      (w.underChute = true ↔ 1 ≤ i) ∧ (b.rot = none ↔ 1 ≤ i) ∧ (w.mainTime ≠ none ↔ i = cs.length) ∧ Awaits cs i (pending d) := by
  induction h with
  | init s w subs b hi hrot =>
    obtain ⟨i1, i2⟩ := init_spec cs hv s
    by_cases hcs : cs = []
    · rw [i1 hcs] at hi; exact absurd hi (by simp)
    · obtain ⟨subs', hs, hn⟩ := i2 hcs
      rw [hs] at hi
      simp only [Except.ok.injEq, Prod.mk.injEq] at hi
      obtain ⟨rfl, rfl⟩ := hi
      have hlen : 0 < cs.length := List.length_pos_iff.2 hcs
      refine ⟨0, b, rfl, by omega, rfl, rfl, by simp, ?_, by simp; omega, ?_⟩
      · simp only [Nat.le_zero, Nat.one_ne_zero, iff_false]
        exact Option.isSome_iff_ne_none.1 hrot
      · rw [subscribe_all]
        unfold pending
        simp only [List.nil_append]
        obtain ⟨c, k, h1, h2, h3⟩ := hn.2 hlen
        rw [h3]
        exact ⟨fun h => absurd h (by omega), fun _ => ⟨c, _, h1, rfl, rfl, Or.inl ⟨h2, rfl⟩⟩⟩
  | sub w d hist s _ hs ih =>
    obtain ⟨i, b, h1, h2, h3, h4, h5, h6, h7, h8⟩ := ih
    refine ⟨i, b, h1, h2, h3, h4, h5, h6, h7, ?_⟩
    have : pending (d.subscribe s) = pending d := by
      unfold pending Detector.subscribe
      simp [List.filter_append, hs]
    rw [this]; exact h8
  | move w d hist b b' s _ hb hrot ih =>
    obtain ⟨i, b0, h1, h2, h3, h4, h5, h6, h7, h8⟩ := ih
    rw [hb, Option.some.injEq] at h4
    subst h4
    exact ⟨i, b', h1, h2, h3, rfl, h5, hrot.trans h6, h7, h8⟩
  | pass w w' d d' hist est ex _ ht ih =>
    obtain ⟨i, b, h1, h2, h3, h4, h5, h6, h7, h8⟩ := ih
    obtain ⟨p1, p2⟩ := pass_effect o cs w w' d d' est ex ht
    have same : view w' = view w → Awaits cs i (pending d') →
        ∃ (i : Nat) (b : Body K), w'.current = i ∧ i ≤ cs.length ∧
          (if w'.current = w.current then hist else hist ++ [w'.current]) = (List.range' 1 i).map (fun n : Nat => (n : Int)) ∧
          w'.body = some b ∧
          (w'.underChute = true ↔ 1 ≤ i) ∧ (b.rot = none ↔ 1 ≤ i) ∧ (w'.mainTime ≠ none ↔ i = cs.length) ∧
          Awaits cs i (pending d') := by
      intro hv' haw
      simp only [view, Prod.mk.injEq] at hv'
      obtain ⟨q1, q2, q3, q4⟩ := hv'
      exact ⟨i, b, by rw [q2, h1], h2, by rw [if_pos q2, h3], by rw [q1, h4], by rw [q3, h5], h6, by rw [q4, h7], haw⟩
    rcases Nat.lt_or_ge i cs.length with hi | hi
    · obtain ⟨c, e, hc, hpe, hcb, hk⟩ := h8.2 hi
      obtain ⟨s, r1, r2, r3⟩ := p2 e hpe
      cases hdue : occurs (recoveryWorld o cs) ((recoveryWorld o cs).posZ w) ((recoveryWorld o cs).velZ w)
          { w with rest := s } e.kind with
      | false =>
        obtain ⟨v, pd⟩ := r1 hdue
        exact same v (by rw [pd, ← hpe]; exact h8)
      | true =>
        by_cases hdel : e.delay = 0
        · obtain ⟨w1, subs, hdep, d1, d2, d3, d4, d5, d6⟩ := deploy_total cs hv { w with rest := s } b h4 i h1 hi
          obtain ⟨v, n, pd⟩ := r3 hdue hdel w1 subs hdep
          simp only [view, Prod.mk.injEq] at v
          obtain ⟨q1, q2, q3, q4⟩ := v
          have hcur : w'.current = ((i + 1 : Nat) : Int) := by rw [q2, d1]; rfl
          refine ⟨i + 1, _, hcur, by omega, ?_, by rw [q1, d3], ?_, ?_, ?_, ?_⟩
          · rw [if_neg (by rw [hcur, h1]; omega), h3, hcur, List.range'_concat]
            simp [add_comm]
          · rw [q3, d4]
            by_cases h0 : i = 0
            · simp [h0]
            · simp only [if_neg h0, h5]; omega
          · by_cases h0 : i = 0
            · simp [h0, Body.switchTo3DoF]
            · simp only [if_neg h0, h6]; omega
          · rw [q4, d5]
            by_cases hl : i + 1 = cs.length
            · simp [hl]
            · have : w.mainTime = none := by
                by_contra hne
                have := h7.1 hne; omega
              simp [hl, this]
          · rw [pd]; exact d6.awaits n
        · obtain ⟨v, pd⟩ := r2 hdue hdel
          refine same v ?_
          rw [pd]
          refine ⟨fun h => absurd h (by omega), fun _ => ⟨c, _, hc, rfl, rfl, Or.inr ⟨?_, ⟨_, rfl⟩, rfl⟩⟩⟩
          rcases hk with ⟨_, hk⟩ | ⟨_, _, hk⟩
          · rwa [← hk]
          · exact absurd hk hdel
    · obtain ⟨v, pd⟩ := p1 (h8.1 hi)
      exact same v ⟨fun _ => pd, fun h => absurd h (by omega)⟩

/-- **C32.** A stage is deployed in a pass exactly when the pending event is due and has no (remaining) delay. -/
theorem deploys_iff_due (o : Outside σ K) (cs : List (Chute K)) (hv : Triggers cs) (w w' : Flight σ K) (d d' : Detector K)
    (hist : List Int) (h : Flown o cs w d hist) (est : K) (ex : Bool)
    (ht : triggerEvents (recoveryWorld o cs) w d = .ok (w', d', est, ex)) (e : Ev K) (he : pending d = [e])
    (hk : e.kind ≠ .burnout) :
    (w'.current = w.current + 1 ↔ Due (recoveryWorld o cs) w e.kind ∧ e.delay = 0) ∧
    (w'.current = w.current ∨ w'.current = w.current + 1) ∧
    (∀ b b', w.body = some b → w'.body = some b' → b'.pos = b.pos ∧ b'.vel = b.vel ∧ b'.time = b.time) := by
  obtain ⟨i, b, h1, h2, h3, h4, h5, h6, h7, h8⟩ := flown_invariant o cs hv w d hist h
  have hi : i < cs.length := by
    by_contra hge
    rw [h8.1 (by omega)] at he
    exact absurd he (by simp)
  obtain ⟨s, r1, r2, r3⟩ := (pass_effect o cs w w' d d' est ex ht).2 e he
  have hocc := occurs_due (recoveryWorld o cs) w { w with rest := s } e.kind rfl (fun h => absurd h hk)
  cases hdue : occurs (recoveryWorld o cs) ((recoveryWorld o cs).posZ w) ((recoveryWorld o cs).velZ w)
      { w with rest := s } e.kind with
  | false =>
    have hnd : ¬ Due (recoveryWorld o cs) w e.kind := by rw [← hocc, hdue]; simp
    obtain ⟨v, _⟩ := r1 hdue
    simp only [view, Prod.mk.injEq] at v
    refine ⟨?_, Or.inl v.2.1, ?_⟩
    · rw [v.2.1]
      constructor
      · intro hh; omega
      · exact fun hh => absurd hh.1 hnd
    · intro b1 b2 hb1 hb2
      rw [v.1, hb1, Option.some.injEq] at hb2
      subst hb2; exact ⟨rfl, rfl, rfl⟩
  | true =>
    have hd : Due (recoveryWorld o cs) w e.kind := hocc.1 hdue
    by_cases hdel : e.delay = 0
    · obtain ⟨w1, subs, hdep, d1, d2, d3, d4, d5, d6⟩ := deploy_total cs hv { w with rest := s } b h4 i h1 hi
      obtain ⟨v, n, pd⟩ := r3 hdue hdel w1 subs hdep
      simp only [view, Prod.mk.injEq] at v
      have hcur : w'.current = w.current + 1 := by rw [v.2.1, d1, h1]
      refine ⟨⟨fun _ => ⟨hd, hdel⟩, fun _ => hcur⟩, Or.inr hcur, ?_⟩
      intro b1 b2 hb1 hb2
      rw [h4, Option.some.injEq] at hb1
      subst hb1
      rw [v.1, d3, Option.some.injEq] at hb2
      subst hb2
      split <;> exact ⟨rfl, rfl, rfl⟩
    · obtain ⟨v, _⟩ := r2 hdue hdel
      simp only [view, Prod.mk.injEq] at v
      refine ⟨?_, Or.inl v.2.1, ?_⟩
      · rw [v.2.1]
        constructor
        · intro hh; omega
        · exact fun hh => absurd hh.2 hdel
      · intro b1 b2 hb1 hb2
        rw [v.1, hb1, Option.some.injEq] at hb2
        subst hb2; exact ⟨rfl, rfl, rfl⟩

end

/-! ## The force -/

/-- **C32.** The force of the recovery system: none before the first deployment, afterwards the drag of the last deployed
chute, directed along the relative air flow, so it never adds energy relative to the air. -/
theorem chute_force (cs : List (Chute ℝ)) (i : Nat) (hi : i ≤ cs.length) (vel wind : V3 ℝ) (density : ℝ) :
    (i = 0 → chuteForce cs i vel wind density = .ok ⟨0, 0, 0⟩) ∧
    (∀ c, 1 ≤ i → cs[i - 1]? = some c → ∃ f : V3 ℝ, chuteForce cs i vel wind density = .ok ⟨f, 0, 0⟩ ∧
      f = (-(c.cd * c.area * density / 2 * (vel - wind).length)) • (vel - wind) ∧
      (0 ≤ c.cd * c.area * density → dot f (vel - wind) ≤ 0)) := by
  constructor
  · rintro rfl
    unfold chuteForce
    rw [if_pos (by simp)]; rfl
  · intro c h1 hc
    have hlen : i - 1 < cs.length := by omega
    have hcs : cs[i - 1] = c := by
      rw [List.getElem?_eq_getElem hlen] at hc
      exact Option.some.inj hc
    obtain ⟨j, rfl⟩ : ∃ j, i = j + 1 := ⟨i - 1, by omega⟩
    simp only [Nat.add_sub_cancel] at hlen hcs hc
    have hg1 : pyGet (0 :: cs.map (·.cd)) ((j + 1 : Nat) : Int) = .ok c.cd := by
      unfold pyGet
      dsimp only
      rw [if_neg (by omega), if_neg (by omega), Int.toNat_natCast, List.getElem?_cons_succ, List.getElem?_map, hc]
      rfl
    have hg2 : pyGet (0 :: cs.map (·.area)) ((j + 1 : Nat) : Int) = .ok c.area := by
      unfold pyGet
      dsimp only
      rw [if_neg (by omega), if_neg (by omega), Int.toNat_natCast, List.getElem?_cons_succ, List.getElem?_map, hc]
      rfl
    have hf : chuteForce cs ((j + 1 : Nat) : Int) vel wind density =
        .ok ⟨(c.cd * c.area * (((-1 : ℝ) • (vel - wind)).length * ((-1 : ℝ) • (vel - wind)).length * density / 2)) •
          ((-1 : ℝ) • (vel - wind)).normalize, 0, 0⟩ := by
      unfold chuteForce
      rw [if_neg (by omega), hg1, hg2]; rfl
    have hlen1 : ((-1 : ℝ) • (vel - wind)).length = (vel - wind).length := by
      rw [length_smul]; simp
    have hn := (normalize_spec ((-1 : ℝ) • (vel - wind))).2.2
    refine ⟨_, hf, ?_, ?_⟩
    · rw [hlen1] at hn ⊢
      rw [show c.cd * c.area * ((vel - wind).length * (vel - wind).length * density / 2) =
        (c.cd * c.area * density / 2 * (vel - wind).length) * (vel - wind).length from by ring, mul_smul, hn, smul_smul]
      congr 1; ring
    · intro hpos
      rw [hlen1] at hn ⊢
      rw [show c.cd * c.area * ((vel - wind).length * (vel - wind).length * density / 2) =
        (c.cd * c.area * density / 2 * (vel - wind).length) * (vel - wind).length from by ring, mul_smul, hn, smul_smul]
      set u := vel - wind
      have hd : dot ((c.cd * c.area * density / 2 * u.length * -1) • u) u = -(c.cd * c.area * density / 2 * u.length) * dot u u := by
        simp only [dot, smul_x, smul_y, smul_z]; ring
      rw [hd, ← length_sq]
      have hl := length_nonneg u
      have : 0 ≤ c.cd * c.area * density / 2 * u.length * (u.length * u.length) := by positivity
      linarith

/-! ## Witness -/

/-- a drogue at apogee after two seconds, a main chute at 300 m -/
def dualDeploy : List (Chute ℚ) := [⟨"Apogee", none, 2, 3/2, 2⟩, ⟨"Altitude", some 300, 10, 2, 0⟩]

def skyWorld : Outside Unit ℚ := ⟨fun p _ => p.z, fun _ v => v.z, fun _ => 10 ^ 9, fun _ s => (s, [])⟩

theorem dualDeploy_triggers : Triggers dualDeploy := by
  intro c hc
  simp only [dualDeploy, List.mem_cons, List.not_mem_nil, or_false] at hc
  rcases hc with rfl | rfl
  · exact ⟨.apogee, by unfold triggerKind; rw [if_pos (by decide)]⟩
  · refine ⟨.below 300, ?_⟩
    unfold triggerKind
    rw [if_neg (by decide), if_neg (by decide), if_pos (by decide)]

/-- the drogue deploys two seconds after apogee, the main chute below 300 m -/
example :
    (triggerEvents (recoveryWorld skyWorld dualDeploy)
      ⟨(), some ⟨⟨0, 0, 900⟩, ⟨0, 0, -20⟩, some (⟨1, 0, 0, 0⟩, ⟨0, 0, 0⟩), 16⟩, 0, false, none⟩
      ⟨[⟨.timeReached 15, 0, 0, 0⟩], none, 1, []⟩).toOption.map
      (fun r => (r.1.current, r.1.underChute, r.1.mainTime, r.2.1.evs.length)) = some (1, true, none, 1) ∧
    (triggerEvents (recoveryWorld skyWorld dualDeploy)
      ⟨(), some ⟨⟨0, 0, 299⟩, ⟨0, 0, -20⟩, none, 60⟩, 1, true, none⟩
      ⟨[⟨.below 300, 0, 0, 1⟩], none, 2, []⟩).toOption.map
      (fun r => (r.1.current, r.1.underChute, r.1.mainTime, r.2.1.evs.length)) =
      some (2, true, some 60, 0) := by
  refine ⟨by decide +kernel, by decide +kernel⟩

/-- a flight exists -/
example : ∃ w d, Flown skyWorld dualDeploy w d [] := by
  obtain ⟨subs, h, _⟩ := (init_spec dualDeploy dualDeploy_triggers ()).2 (by simp [dualDeploy])
  exact ⟨_, _, .init () _ subs ⟨⟨0, 0, 0⟩, ⟨0, 0, 0⟩, some (⟨1, 0, 0, 0⟩, ⟨0, 0, 0⟩), 0⟩ h rfl⟩

example : ([⟨"Apogee", none, 2, 3/2, 2⟩] : List (Chute ℝ))[1 - 1]? = some ⟨"Apogee", none, 2, 3/2, 2⟩ ∧
    (0 : ℝ) ≤ 3/2 * 2 * 1.2 := by
  refine ⟨rfl, by norm_num⟩

end Mapleaf.Rocket
