import Verif.Rocket.EventModel
import Mathlib.Data.List.Perm.Basic
import Mathlib.Data.List.Nodup
import Mathlib.Tactic.Linarith
import Mathlib.Tactic.Positivity
import Mathlib.Tactic.FieldSimp
import Mathlib.Tactic.Ring
import Mathlib.Tactic.NormNum

/-!
# C27 (events fire once, in order, when due) and C28 (timed events are not overshot)
-/

namespace Mapleaf.Rocket

variable {σ K : Type} [Field K] [LinearOrder K]

/-! ### What one pass does, without indices -/

/-- the running result of going through the pending events in order -/
structure Sweep (σ K : Type) where
  w : σ
  kept : List (Ev K)
  added : List (Ev K)
  fresh : Nat
  log : List Nat
  est : K
  exact : Bool

/-- subscriptions numbered from `n` on -/
def numbered (n : Nat) : List (Sub K) → List (Ev K)
  | [] => []
  | s :: ss => ⟨s.kind, s.cb, s.delay, n⟩ :: numbered (n + 1) ss

/-- one event: if it has occurred, call it or schedule it; otherwise keep it and note its waiting time -/
def sweepStep (W : World σ K) (last : Option (K × K)) (z vz : K) (a : Sweep σ K) (e : Ev K) : Sweep σ K :=
  if occurs W z vz a.w e.kind then
    if e.delay = 0 then
      { a with w := (W.call e.cb a.w).1, added := a.added ++ numbered a.fresh (W.call e.cb a.w).2,
               fresh := a.fresh + (W.call e.cb a.w).2.length, log := a.log ++ [e.origin] }
    else { a with added := a.added ++ [⟨.timeReached (W.time a.w + e.delay), e.cb, 0, e.origin⟩] }
  else
    if (waiting W last z vz a.w e.kind).1 < a.est then
      { a with kept := a.kept ++ [e], est := (waiting W last z vz a.w e.kind).1,
               exact := (waiting W last z vz a.w e.kind).2 }
    else { a with kept := a.kept ++ [e] }

/-- the pass over a list of events -/
def sweepFrom (W : World σ K) (last : Option (K × K)) (z vz : K) (evs : List (Ev K)) (a : Sweep σ K) : Sweep σ K :=
  evs.foldl (sweepStep W last z vz) a

def sweep (W : World σ K) (w : σ) (d : Detector K) (evs : List (Ev K)) : Sweep σ K :=
  sweepFrom W d.last (W.posZ w) (W.velZ w) evs ⟨w, [], [], d.fresh, d.log, 10 ^ 10, false⟩

theorem subscribe_all (ss : List (Sub K)) (d : Detector K) :
    ss.foldl Detector.subscribe d = { d with evs := d.evs ++ numbered d.fresh ss, fresh := d.fresh + ss.length } := by
  induction ss generalizing d with
  | nil => simp [numbered]
  | cons s ss ih =>
    rw [List.foldl_cons, ih]
    simp only [Detector.subscribe, numbered, List.append_assoc, List.cons_append, List.nil_append, List.length_cons]
    congr 1
    omega

/-- deleting from the back is a right fold -/
theorem deleteMarked_foldr (evs : List (Ev K)) (r : List Nat) :
    deleteMarked evs r = r.foldr (fun i l => l.eraseIdx i) evs := by
  have h1 : (List.range r.length).map (fun i => r.getD (r.length - 1 - i) 0) = r.reverse := by
    apply List.ext_getElem
    · simp
    · intro n h1 h2
      simp only [List.length_map, List.length_range] at h1
      simp only [List.getElem_map, List.getElem_range, List.getElem_reverse]
      rw [List.getD_eq_getElem?_getD, List.getElem?_eq_getElem (by omega)]
      rfl
  unfold deleteMarked
  rw [← List.foldl_reverse, ← h1, List.foldl_map]

theorem erase_prefix {α : Type} (rest : List α) (r : List Nat) : ∀ (pre : List α), r.Pairwise (· < ·) →
    (∀ i ∈ r, i < pre.length) →
    r.foldr (fun i l => l.eraseIdx i) (pre ++ rest) = r.foldr (fun i l => l.eraseIdx i) pre ++ rest := by
  induction r using List.reverseRecOn with
  | nil => intro pre _ _; rfl
  | append_singleton r i ih =>
    intro pre hp hlt
    have hi : i < pre.length := hlt i (by simp)
    rw [List.foldr_append, List.foldr_append]
    simp only [List.foldr_cons, List.foldr_nil]
    rw [List.eraseIdx_append_of_lt_length hi]
    rw [List.pairwise_append] at hp
    apply ih _ hp.1
    intro j hj
    have h1 : j < i := hp.2.2 j hj i (by simp)
    rw [List.length_eraseIdx_of_lt hi]
    omega

theorem passLoop_sweep (W : World σ K) (z vz : K) (last : Option (K × K)) (evs0 : List (Ev K)) :
    ∀ (post pre : List (Ev K)) (p : Pass σ K) (a : Sweep σ K), evs0 = pre ++ post →
    p.w = a.w → p.d = ⟨evs0 ++ a.added, last, a.fresh, a.log⟩ → p.est = a.est → p.exact = a.exact →
    p.remove.Pairwise (· < ·) → (∀ i ∈ p.remove, i < pre.length) →
    p.remove.foldr (fun i l => l.eraseIdx i) pre = a.kept →
    ∃ p', passLoop W z vz (List.range' pre.length post.length) p = .ok p' ∧
      p'.w = (sweepFrom W last z vz post a).w ∧
      p'.d = ⟨evs0 ++ (sweepFrom W last z vz post a).added, last, (sweepFrom W last z vz post a).fresh,
        (sweepFrom W last z vz post a).log⟩ ∧
      p'.est = (sweepFrom W last z vz post a).est ∧ p'.exact = (sweepFrom W last z vz post a).exact ∧
      p'.remove.Pairwise (· < ·) ∧ (∀ i ∈ p'.remove, i < evs0.length) ∧
      p'.remove.foldr (fun i l => l.eraseIdx i) evs0 = (sweepFrom W last z vz post a).kept := by
  intro post
  induction post with
  | nil =>
    intro pre p a h0 h1 h2 h3 h4 h5 h6 h7
    rw [List.append_nil] at h0
    subst h0
    exact ⟨p, rfl, h1, h2, h3, h4, h5, h6, h7⟩
  | cons e post ih =>
    intro pre p a h0 h1 h2 h3 h4 h5 h6 h7
    have hget : p.d.evs[pre.length]? = some e := by
      rw [h2, h0]; simp
    rw [List.length_cons, List.range'_succ]
    rw [passLoop, passBody, hget]
    simp only
    have hpre : evs0 = (pre ++ [e]) ++ post := by rw [h0]; simp
    have hlenpre : pre.length + 1 = (pre ++ [e]).length := by simp
    rw [show sweepFrom W last z vz (e :: post) a = sweepFrom W last z vz post (sweepStep W last z vz a e) from rfl]
    have hlast : p.d.last = last := by rw [h2]
    by_cases ho : occurs W z vz p.w e.kind = true
    · have ho' : occurs W z vz a.w e.kind = true := by rw [← h1]; exact ho
      have hr5 : (p.remove ++ [pre.length]).Pairwise (· < ·) := by
        rw [List.pairwise_append]
        exact ⟨h5, by simp, fun x hx y hy => by simp at hy; subst hy; exact h6 x hx⟩
      have hr6 : ∀ i ∈ p.remove ++ [pre.length], i < (pre ++ [e]).length := by
        intro i hi
        rcases List.mem_append.1 hi with hi | hi
        · have := h6 i hi; simp; omega
        · simp at hi; subst hi; simp
      have hr7 : (p.remove ++ [pre.length]).foldr (fun i l => l.eraseIdx i) (pre ++ [e]) = a.kept := by
        rw [List.foldr_append]
        simp only [List.foldr_cons, List.foldr_nil]
        rw [List.eraseIdx_append_of_length_le (le_refl _)]
        simpa using h7
      simp only [ho, Bool.true_eq_false, and_false, if_false, if_true]
      by_cases hd : e.delay = 0
      · simp only [hd, if_true]
        have hs : sweepStep W last z vz a e = { a with
            w := (W.call e.cb a.w).1
            added := a.added ++ numbered a.fresh (W.call e.cb a.w).2
            fresh := a.fresh + (W.call e.cb a.w).2.length
            log := a.log ++ [e.origin] } := by
          unfold sweepStep; rw [if_pos ho', if_pos hd]
        rw [hs, hlenpre]
        refine ih (pre ++ [e]) _ _ hpre ?_ ?_ ?_ ?_ ?_ ?_ ?_
        · simp only [h1]
        · simp only [h1, h2]
          rw [subscribe_all]
          simp only [List.append_assoc]
        · exact h3
        · exact h4
        · exact hr5
        · exact hr6
        · exact hr7
      · simp only [hd, if_false]
        have hs : sweepStep W last z vz a e =
            { a with added := a.added ++ [⟨.timeReached (W.time a.w + e.delay), e.cb, 0, e.origin⟩] } := by
          unfold sweepStep; rw [if_pos ho', if_neg hd]
        rw [hs, hlenpre]
        refine ih (pre ++ [e]) _ _ hpre ?_ ?_ ?_ ?_ ?_ ?_ ?_
        · exact h1
        · simp only [h1, h2, List.append_assoc]
        · exact h3
        · exact h4
        · exact hr5
        · exact hr6
        · exact hr7
    · have hof : occurs W z vz p.w e.kind = false := by simpa using ho
      have ho' : ¬ occurs W z vz a.w e.kind = true := by rw [← h1]; exact ho
      have hr6 : ∀ i ∈ p.remove, i < (pre ++ [e]).length := by
        intro i hi; have := h6 i hi; simp; omega
      have hr7 : p.remove.foldr (fun i l => l.eraseIdx i) (pre ++ [e]) = a.kept ++ [e] := by
        rw [erase_prefix [e] p.remove pre h5 h6, h7]
      simp only [hof, and_true, Bool.false_eq_true, if_false, hlast]
      rw [h1]
      by_cases hw : (waiting W last z vz a.w e.kind).1 < p.est
      · simp only [hw, if_true]
        have hs : sweepStep W last z vz a e = { a with kept := a.kept ++ [e], est := (waiting W last z vz a.w e.kind).1, exact := (waiting W last z vz a.w e.kind).2 } := by
          unfold sweepStep; rw [if_neg ho', if_pos (by rw [← h3]; exact hw)]
        rw [hs, hlenpre]
        refine ih (pre ++ [e]) _ { a with kept := a.kept ++ [e], est := (waiting W last z vz a.w e.kind).1, exact := (waiting W last z vz a.w e.kind).2 } hpre rfl h2 rfl rfl h5 hr6 hr7
      · simp only [hw, if_false]
        have hs : sweepStep W last z vz a e = { a with kept := a.kept ++ [e] } := by
          unfold sweepStep; rw [if_neg ho', if_neg (by rw [← h3]; exact hw)]
        rw [hs, hlenpre]
        refine ih (pre ++ [e]) _ { a with kept := a.kept ++ [e] } hpre h1 h2 h3 h4 h5 hr6 hr7

/-- **C27.** `triggerEvents` never fails, goes through the pending events in registration order, and leaves exactly the events
that have not occurred, followed by the newly registered ones: no index is deleted wrongly, whatever subset occurs and
whatever the callbacks register. -/
theorem trigger_sweep (W : World σ K) (w : σ) (d : Detector K) :
    triggerEvents W w d = .ok ((sweep W w d d.evs).w,
      ⟨(sweep W w d d.evs).kept ++ (sweep W w d d.evs).added, some (W.velZ w, W.time (sweep W w d d.evs).w),
        (sweep W w d d.evs).fresh, (sweep W w d d.evs).log⟩,
      (sweep W w d d.evs).est, (sweep W w d d.evs).exact) := by
  obtain ⟨p', h1, h2, h3, h4, h5, h6, h7, h8⟩ := passLoop_sweep W (W.posZ w) (W.velZ w) d.last d.evs d.evs []
    ⟨w, d, [], 10 ^ 10, false⟩ ⟨w, [], [], d.fresh, d.log, 10 ^ 10, false⟩ rfl rfl (by simp) rfl rfl
    List.Pairwise.nil (by simp) rfl
  unfold triggerEvents
  simp only
  rw [List.range_eq_range', show (0 : Nat) = ([] : List (Ev K)).length from rfl, h1]
  simp only
  have hsw : sweep W w d d.evs = sweepFrom W d.last (W.posZ w) (W.velZ w) d.evs ⟨w, [], [], d.fresh, d.log, 10 ^ 10, false⟩ := rfl
  rw [hsw, h2, h4, h5, h3]
  simp only
  rw [deleteMarked_foldr, erase_prefix _ _ _ h6 h7, h8]

/-! ### Each registration is called at most once -/

theorem numbered_origins (n : Nat) (ss : List (Sub K)) : (numbered n ss).map Ev.origin = List.range' n ss.length := by
  induction ss generalizing n with
  | nil => rfl
  | cons s ss ih => simp [numbered, ih, List.range'_succ]

/-- accounting: every registration number is either called or still pending, exactly once -/
def Accounted (log : List Nat) (pending : List (Ev K)) (fresh : Nat) : Prop :=
  (log ++ pending.map Ev.origin).Perm (List.range fresh)

theorem sweep_accounted (W : World σ K) (last : Option (K × K)) (z vz : K) (post : List (Ev K)) (a : Sweep σ K)
    (h : Accounted a.log (a.kept ++ post ++ a.added) a.fresh) :
    Accounted (sweepFrom W last z vz post a).log
      ((sweepFrom W last z vz post a).kept ++ (sweepFrom W last z vz post a).added) (sweepFrom W last z vz post a).fresh := by
  induction post generalizing a with
  | nil => simpa [sweepFrom] using h
  | cons e post ih =>
    rw [show sweepFrom W last z vz (e :: post) a = sweepFrom W last z vz post (sweepStep W last z vz a e) from rfl]
    apply ih
    unfold sweepStep Accounted at *
    split
    · split
      · simp only [List.map_append, numbered_origins, List.map_cons, List.append_assoc] at h ⊢
        have hr : List.range (a.fresh + (W.call e.cb a.w).2.length) =
            List.range a.fresh ++ List.range' a.fresh (W.call e.cb a.w).2.length := by
          rw [List.range_eq_range', List.range_eq_range', ← List.range'_append_1, Nat.zero_add]
        rw [hr]
        have h2 := h.append_right (List.range' a.fresh (W.call e.cb a.w).2.length)
        refine List.Perm.trans ?_ h2
        simp only [List.append_assoc, List.cons_append, List.nil_append]
        apply List.Perm.append_left
        exact List.perm_middle.symm
      · simp only [List.map_append, List.map_cons, List.map_nil, List.append_assoc] at h ⊢
        refine List.Perm.trans ?_ h
        apply List.Perm.append_left
        apply List.Perm.append_left
        rw [← List.append_assoc]
        exact (List.perm_append_singleton _ _)
    · split
      · simpa [List.append_assoc] using h
      · simpa [List.append_assoc] using h

/-- The states a detector can reach: freshly made, after a subscription at any time, after a pass at any world whatsoever (the
world evolves arbitrarily between the passes). -/
inductive Reach (W : World σ K) : Detector K → Prop where
  | init : Reach W ⟨[], none, 0, []⟩
  | sub {d : Detector K} (s : Sub K) : Reach W d → Reach W (d.subscribe s)
  | pass {d d' : Detector K} {w w' : σ} {est : K} {ex : Bool} :
      Reach W d → triggerEvents W w d = .ok (w', d', est, ex) → Reach W d'

/-- **C27.** Over every history of subscriptions and passes, for every world and all callbacks: each registration has either been
called exactly once or is still pending exactly once — none is lost, none is called twice, none is called and still pending. -/
theorem accounted (W : World σ K) (d : Detector K) (h : Reach W d) :
    (d.log ++ d.evs.map Ev.origin).Perm (List.range d.fresh) := by
  induction h with
  | init => exact List.Perm.refl _
  | sub s _ ih =>
    simp only [Detector.subscribe, List.map_append, List.map_cons, List.map_nil]
    rw [List.range_succ, ← List.append_assoc]
    exact ih.append_right _
  | pass _ ht ih =>
    rename_i d d' w w' est ex _
    rw [trigger_sweep] at ht
    simp only [Except.ok.injEq, Prod.mk.injEq] at ht
    obtain ⟨_, hd, _, _⟩ := ht
    subst hd
    exact sweep_accounted W d.last (W.posZ w) (W.velZ w) d.evs ⟨w, [], [], d.fresh, d.log, 10 ^ 10, false⟩
      (by simpa [Accounted] using ih)

/-- **C27.** No callback registration is called twice, and a called one is not pending. -/
theorem called_once (W : World σ K) (d : Detector K) (h : Reach W d) :
    d.log.Nodup ∧ (d.evs.map Ev.origin).Nodup ∧ ∀ e ∈ d.evs, e.origin ∉ d.log := by
  have hn := (accounted W d h).nodup_iff.2 List.nodup_range
  rw [List.nodup_append] at hn
  refine ⟨hn.1, hn.2.1, ?_⟩
  intro e he hc
  exact hn.2.2 e.origin hc e.origin (List.mem_map_of_mem he) rfl

/-! ### Called exactly when due, and in order -/

theorem sweepFrom_append (W : World σ K) (last : Option (K × K)) (z vz : K) (l1 l2 : List (Ev K)) (a : Sweep σ K) :
    sweepFrom W last z vz (l1 ++ l2) a = sweepFrom W last z vz l2 (sweepFrom W last z vz l1 a) := by
  unfold sweepFrom; rw [List.foldl_append]

/-- what a pass has accumulated is not lost by the rest of the pass -/
theorem sweepFrom_grows (W : World σ K) (last : Option (K × K)) (z vz : K) (l : List (Ev K)) (a : Sweep σ K) :
    (∃ x, (sweepFrom W last z vz l a).kept = a.kept ++ x) ∧ (∃ x, (sweepFrom W last z vz l a).added = a.added ++ x) ∧
    (∃ fired : List (Ev K), fired.Sublist l ∧ (∀ e ∈ fired, e.delay = 0) ∧ (sweepFrom W last z vz l a).log = a.log ++ fired.map Ev.origin) ∧
    (sweepFrom W last z vz l a).est ≤ a.est := by
  induction l generalizing a with
  | nil => exact ⟨⟨[], by simp [sweepFrom]⟩, ⟨[], by simp [sweepFrom]⟩, ⟨[], by simp [sweepFrom]⟩, le_refl _⟩
  | cons e l ih =>
    rw [show sweepFrom W last z vz (e :: l) a = sweepFrom W last z vz l (sweepStep W last z vz a e) from rfl]
    obtain ⟨⟨x1, h1⟩, ⟨x2, h2⟩, ⟨f, hf1, hf2, hf3⟩, h4⟩ := ih (sweepStep W last z vz a e)
    rw [h1, h2, hf3]
    refine ⟨?_, ?_, ?_, le_trans h4 ?_⟩
    · unfold sweepStep
      split
      · split <;> exact ⟨x1, rfl⟩
      · split <;> exact ⟨e :: x1, by simp⟩
    · unfold sweepStep
      split
      · split
        · exact ⟨numbered a.fresh (W.call e.cb a.w).2 ++ x2, by simp⟩
        · exact ⟨⟨.timeReached (W.time a.w + e.delay), e.cb, 0, e.origin⟩ :: x2, by simp⟩
      · split <;> exact ⟨x2, rfl⟩
    · unfold sweepStep
      split
      · split
        · rename_i hd
          refine ⟨e :: f, hf1.cons_cons e, ?_, by simp⟩
          intro e' he'
          rcases List.mem_cons.1 he' with rfl | he'
          · exact hd
          · exact hf2 e' he'
        · exact ⟨f, hf1.cons e, hf2, rfl⟩
      · split <;> exact ⟨f, hf1.cons e, hf2, rfl⟩
    · unfold sweepStep
      split
      · split <;> exact le_refl _
      · split
        · rename_i hw; exact hw.le
        · exact le_refl _

/-- **C27.** The callbacks called in a pass are those of a sublist of the pending events, in registration order; only events
without delay are called directly. -/
theorem calls_in_order (W : World σ K) (w w' : σ) (d d' : Detector K) (est : K) (ex : Bool)
    (h : triggerEvents W w d = .ok (w', d', est, ex)) :
    ∃ fired : List (Ev K), fired.Sublist d.evs ∧ (∀ e ∈ fired, e.delay = 0) ∧ d'.log = d.log ++ fired.map Ev.origin := by
  rw [trigger_sweep] at h
  simp only [Except.ok.injEq, Prod.mk.injEq] at h
  obtain ⟨_, hd, _, _⟩ := h
  subst hd
  exact (sweepFrom_grows W d.last (W.posZ w) (W.velZ w) d.evs ⟨w, [], [], d.fresh, d.log, 10 ^ 10, false⟩).2.2.1

/-- all callbacks leave the clock alone (true of every callback in MAPLEAF: the events act between time steps) -/
def KeepsTime (W : World σ K) : Prop := ∀ c w, W.time (W.call c w).1 = W.time w

/-- no callback changes when the bottom stage's motor burns out (true unless stages separate) -/
def KeepsShutOff (W : World σ K) : Prop := ∀ c w, W.shutOff (W.call c w).1 = W.shutOff w

theorem sweepFrom_time (W : World σ K) (hW : KeepsTime W) (last : Option (K × K)) (z vz : K) (l : List (Ev K)) (a : Sweep σ K) :
    W.time (sweepFrom W last z vz l a).w = W.time a.w ∧
    (KeepsShutOff W → W.shutOff (sweepFrom W last z vz l a).w = W.shutOff a.w) := by
  induction l generalizing a with
  | nil => exact ⟨rfl, fun _ => rfl⟩
  | cons e l ih =>
    rw [show sweepFrom W last z vz (e :: l) a = sweepFrom W last z vz l (sweepStep W last z vz a e) from rfl]
    obtain ⟨h1, h2⟩ := ih (sweepStep W last z vz a e)
    have : W.time (sweepStep W last z vz a e).w = W.time a.w ∧
        (KeepsShutOff W → W.shutOff (sweepStep W last z vz a e).w = W.shutOff a.w) := by
      unfold sweepStep
      split
      · split
        · exact ⟨hW _ _, fun h => h _ _⟩
        · exact ⟨rfl, fun _ => rfl⟩
      · split
        · exact ⟨rfl, fun _ => rfl⟩
        · exact ⟨rfl, fun _ => rfl⟩
    exact ⟨h1.trans this.1, fun h => (h2 h).trans (this.2 h)⟩

/-- The condition of an event as a proposition about the state at the beginning of the pass -/
def Due (W : World σ K) (w : σ) : Kind K → Prop
  | .apogee => W.velZ w ≤ 0 ∧ 1 < W.time w
  | .above h => h ≤ W.posZ w ∧ 0 < W.velZ w
  | .below h => W.posZ w ≤ h ∧ W.velZ w < 0
  | .burnout => W.shutOff w ≤ W.time w
  | .timeReached t => t ≤ W.time w

theorem occurs_due (W : World σ K) (w w1 : σ) (k : Kind K) (ht : W.time w1 = W.time w)
    (hs : k = .burnout → W.shutOff w1 = W.shutOff w) : occurs W (W.posZ w) (W.velZ w) w1 k = true ↔ Due W w k := by
  cases k <;> simp [occurs, Due, ht]
  rw [hs rfl]

/-- **C27.** A pending event without delay is called in a pass if and only if its condition holds at that pass; otherwise it stays
pending. An event with a delay is, at the first pass at which its condition holds, replaced by a timed event at that time plus
the delay with the same callback. So no event fires early, and each fires at the first pass at which it is due. (For the burnout condition the
shut-off time must not be changed by an earlier callback of the same pass, that is, by a stage separation; `trigger_sweep` covers that.) -/
theorem fires_iff_due (W : World σ K) (hW : KeepsTime W) (w w' : σ) (d d' : Detector K) (est : K) (ex : Bool)
    (hr : Reach W d) (h : triggerEvents W w d = .ok (w', d', est, ex)) (e : Ev K) (he : e ∈ d.evs)
    (hs : e.kind = .burnout → KeepsShutOff W) :
    (e.delay = 0 → (e.origin ∈ d'.log ↔ Due W w e.kind)) ∧ (¬ Due W w e.kind → e ∈ d'.evs) ∧
    (e.delay ≠ 0 → Due W w e.kind →
      (⟨.timeReached (W.time w + e.delay), e.cb, 0, e.origin⟩ : Ev K) ∈ d'.evs ∧ e.origin ∉ d'.log) := by
  have hr' : Reach W d' := .pass hr h
  obtain ⟨_, _, hdisj⟩ := called_once W d' hr'
  rw [trigger_sweep] at h
  simp only [Except.ok.injEq, Prod.mk.injEq] at h
  obtain ⟨_, hd, _, _⟩ := h
  obtain ⟨pre, post, hsplit⟩ := List.append_of_mem he
  set z := W.posZ w
  set vz := W.velZ w
  set a0 : Sweep σ K := ⟨w, [], [], d.fresh, d.log, 10 ^ 10, false⟩ with ha0
  have hsw : sweep W w d d.evs = sweepFrom W d.last z vz post
      (sweepStep W d.last z vz (sweepFrom W d.last z vz pre a0) e) := by
    rw [show sweep W w d d.evs = sweepFrom W d.last z vz d.evs a0 from rfl, hsplit, sweepFrom_append]; rfl
  obtain ⟨ht, hso⟩ := sweepFrom_time W hW d.last z vz pre a0
  set a := sweepFrom W d.last z vz pre a0 with ha
  have hdue : occurs W z vz a.w e.kind = true ↔ Due W w e.kind := occurs_due W w a.w e.kind ht (fun hk => hso (hs hk))
  rw [hsw] at hd
  obtain ⟨⟨x1, g1⟩, ⟨x2, g2⟩, ⟨f, _, _, g3⟩, _⟩ := sweepFrom_grows W d.last z vz post (sweepStep W d.last z vz a e)
  have hkeep : ¬ Due W w e.kind → e ∈ d'.evs := by
    intro hn
    have hocc : ¬ occurs W z vz a.w e.kind = true := fun hc => hn (hdue.1 hc)
    rw [← hd]
    simp only [List.mem_append]
    left
    rw [g1]
    have : (sweepStep W d.last z vz a e).kept = a.kept ++ [e] := by
      unfold sweepStep; rw [if_neg hocc]; split <;> rfl
    rw [this]; simp
  refine ⟨?_, hkeep, ?_⟩
  · intro hd0
    constructor
    · intro hlog
      by_contra hn
      exact hdisj e (hkeep hn) hlog
    · intro hD
      rw [← hd]
      simp only
      rw [g3]
      have : (sweepStep W d.last z vz a e).log = a.log ++ [e.origin] := by
        unfold sweepStep; rw [if_pos (hdue.2 hD), if_pos hd0]
      rw [this]; simp
  · intro hd0 hD
    have hmem : (⟨.timeReached (W.time w + e.delay), e.cb, 0, e.origin⟩ : Ev K) ∈ d'.evs := by
      rw [← hd]
      simp only [List.mem_append]
      right
      rw [g2]
      have : (sweepStep W d.last z vz a e).added =
          a.added ++ [⟨.timeReached (W.time w + e.delay), e.cb, 0, e.origin⟩] := by
        unfold sweepStep; rw [if_pos (hdue.2 hD), if_neg hd0]; simp only [ht]; rfl
      rw [this]; simp
    exact ⟨hmem, fun hl => hdisj _ hmem hl⟩

section order
variable [IsStrictOrderedRing K]

/-- an event that has not occurred has a positive waiting time -/
theorem waiting_pos (W : World σ K) (last : Option (K × K)) (z vz : K) (w : σ) (k : Kind K)
    (h : ¬ occurs W z vz w k = true) : 0 < (waiting W last z vz w k).1 := by
  have big : (0 : K) < 10 ^ 10 := by positivity
  cases k with
  | apogee =>
    simp only [waiting]
    cases last with
    | none => exact big
    | some p =>
      obtain ⟨lv, lt⟩ := p
      simp only
      split
      · exact big
      · split
        · rename_i hc
          exact div_pos_of_neg_of_neg (neg_neg_of_pos hc.2) hc.1
        · exact big
  | above a =>
    simp only [waiting]
    split
    · rename_i hv
      simp only [occurs, ge_iff_le, gt_iff_lt, Bool.and_eq_true, decide_eq_true_eq, not_and] at h
      have : ¬ a ≤ z := fun hc => h hc hv
      exact div_pos (sub_pos.2 (not_le.1 this)) hv
    · exact big
  | below a =>
    simp only [waiting]
    split
    · rename_i hv
      simp only [occurs, Bool.and_eq_true, decide_eq_true_eq, not_and] at h
      have : ¬ z ≤ a := fun hc => h hc hv
      exact div_pos_of_neg_of_neg (sub_neg.2 (not_le.1 this)) hv
    · exact big
  | burnout =>
    simp only [occurs, ge_iff_le, decide_eq_true_eq, not_le] at h
    exact sub_pos.2 h
  | timeReached t =>
    simp only [occurs, ge_iff_le, decide_eq_true_eq, not_le] at h
    exact sub_pos.2 h

/-- **C27.** The reported waiting time is positive, is at most the waiting time of every event that was pending at the start of the pass
and did not occur, and is the waiting time of one of them (with its exactness flag) or the default 10¹⁰. -/
theorem reported_wait (W : World σ K) (hW : KeepsTime W) (hS : KeepsShutOff W) (w w' : σ) (d d' : Detector K) (est : K) (ex : Bool)
    (h : triggerEvents W w d = .ok (w', d', est, ex)) :
    0 < est ∧ (∀ e ∈ d.evs, ¬ Due W w e.kind → est ≤ (waiting W d.last (W.posZ w) (W.velZ w) w e.kind).1) ∧
    ((est = 10 ^ 10 ∧ ex = false) ∨
      ∃ e ∈ d.evs, ¬ Due W w e.kind ∧ waiting W d.last (W.posZ w) (W.velZ w) w e.kind = (est, ex)) := by
  rw [trigger_sweep] at h
  simp only [Except.ok.injEq, Prod.mk.injEq] at h
  obtain ⟨_, _, he, hx⟩ := h
  have wait_same : ∀ (w1 : σ) (k : Kind K), W.time w1 = W.time w → W.shutOff w1 = W.shutOff w →
      waiting W d.last (W.posZ w) (W.velZ w) w1 k = waiting W d.last (W.posZ w) (W.velZ w) w k := by
    intro w1 k h1 h2
    cases k <;> simp [waiting, h1, h2]
  have gen : ∀ (l : List (Ev K)) (a : Sweep σ K), W.time a.w = W.time w → W.shutOff a.w = W.shutOff w → 0 < a.est →
      0 < (sweepFrom W d.last (W.posZ w) (W.velZ w) l a).est ∧
      (∀ e ∈ l, ¬ Due W w e.kind → (sweepFrom W d.last (W.posZ w) (W.velZ w) l a).est ≤
        (waiting W d.last (W.posZ w) (W.velZ w) w e.kind).1) ∧
      (((sweepFrom W d.last (W.posZ w) (W.velZ w) l a).est = a.est ∧
          (sweepFrom W d.last (W.posZ w) (W.velZ w) l a).exact = a.exact) ∨
        ∃ e ∈ l, ¬ Due W w e.kind ∧ waiting W d.last (W.posZ w) (W.velZ w) w e.kind =
          ((sweepFrom W d.last (W.posZ w) (W.velZ w) l a).est, (sweepFrom W d.last (W.posZ w) (W.velZ w) l a).exact)) := by
    intro l
    induction l with
    | nil => intro a _ _ h0; exact ⟨h0, by simp, Or.inl ⟨rfl, rfl⟩⟩
    | cons e l ih =>
      intro a ht hs h0
      rw [show sweepFrom W d.last (W.posZ w) (W.velZ w) (e :: l) a =
        sweepFrom W d.last (W.posZ w) (W.velZ w) l (sweepStep W d.last (W.posZ w) (W.velZ w) a e) from rfl]
      have hdue : occurs W (W.posZ w) (W.velZ w) a.w e.kind = true ↔ Due W w e.kind := occurs_due W w a.w e.kind ht (fun _ => hs)
      have hww := wait_same a.w e.kind ht hs
      obtain ⟨t1, t2⟩ := sweepFrom_time W hW d.last (W.posZ w) (W.velZ w) [e] a
      have t3 := t2 hS
      rw [show sweepFrom W d.last (W.posZ w) (W.velZ w) [e] a = sweepStep W d.last (W.posZ w) (W.velZ w) a e from rfl] at t1 t3
      by_cases ho : occurs W (W.posZ w) (W.velZ w) a.w e.kind = true
      · have e1 : (sweepStep W d.last (W.posZ w) (W.velZ w) a e).est = a.est ∧
            (sweepStep W d.last (W.posZ w) (W.velZ w) a e).exact = a.exact := by
          unfold sweepStep; rw [if_pos ho]; split <;> exact ⟨rfl, rfl⟩
        obtain ⟨p1, p2, p3⟩ := ih (sweepStep W d.last (W.posZ w) (W.velZ w) a e) (t1.trans ht) (t3.trans hs) (by rw [e1.1]; exact h0)
        refine ⟨p1, ?_, ?_⟩
        · intro e' he' hn
          rcases List.mem_cons.1 he' with rfl | he'
          · exact absurd (hdue.1 ho) hn
          · exact p2 e' he' hn
        · rcases p3 with p3 | ⟨e', q1, q2, q3⟩
          · left; rw [p3.1, p3.2]; exact e1
          · right; exact ⟨e', List.mem_cons_of_mem _ q1, q2, q3⟩
      · have hpos := waiting_pos W d.last (W.posZ w) (W.velZ w) a.w e.kind ho
        by_cases hlt : (waiting W d.last (W.posZ w) (W.velZ w) a.w e.kind).1 < a.est
        · have e1 : (sweepStep W d.last (W.posZ w) (W.velZ w) a e).est = (waiting W d.last (W.posZ w) (W.velZ w) a.w e.kind).1 ∧
              (sweepStep W d.last (W.posZ w) (W.velZ w) a e).exact = (waiting W d.last (W.posZ w) (W.velZ w) a.w e.kind).2 := by
            unfold sweepStep; rw [if_neg ho, if_pos hlt]; exact ⟨rfl, rfl⟩
          obtain ⟨p1, p2, p3⟩ := ih (sweepStep W d.last (W.posZ w) (W.velZ w) a e) (t1.trans ht) (t3.trans hs) (by rw [e1.1]; exact hpos)
          have hle := (sweepFrom_grows W d.last (W.posZ w) (W.velZ w) l (sweepStep W d.last (W.posZ w) (W.velZ w) a e)).2.2.2
          refine ⟨p1, ?_, ?_⟩
          · intro e' he' hn
            rcases List.mem_cons.1 he' with rfl | he'
            · rw [← hww, ← e1.1]; exact hle
            · exact p2 e' he' hn
          · right
            rcases p3 with p3 | ⟨e', q1, q2, q3⟩
            · exact ⟨e, by simp, fun hc => ho (hdue.2 hc), by rw [p3.1, p3.2, e1.1, e1.2, hww]⟩
            · exact ⟨e', List.mem_cons_of_mem _ q1, q2, q3⟩
        · have e1 : (sweepStep W d.last (W.posZ w) (W.velZ w) a e).est = a.est ∧
              (sweepStep W d.last (W.posZ w) (W.velZ w) a e).exact = a.exact := by
            unfold sweepStep; rw [if_neg ho, if_neg hlt]; exact ⟨rfl, rfl⟩
          obtain ⟨p1, p2, p3⟩ := ih (sweepStep W d.last (W.posZ w) (W.velZ w) a e) (t1.trans ht) (t3.trans hs) (by rw [e1.1]; exact h0)
          have hle := (sweepFrom_grows W d.last (W.posZ w) (W.velZ w) l (sweepStep W d.last (W.posZ w) (W.velZ w) a e)).2.2.2
          refine ⟨p1, ?_, ?_⟩
          · intro e' he' hn
            rcases List.mem_cons.1 he' with rfl | he'
            · rw [← hww]; exact le_trans hle (by rw [e1.1]; exact not_lt.1 hlt)
            · exact p2 e' he' hn
          · rcases p3 with p3 | ⟨e', q1, q2, q3⟩
            · left; rw [p3.1, p3.2]; exact e1
            · right; exact ⟨e', List.mem_cons_of_mem _ q1, q2, q3⟩
  have := gen d.evs ⟨w, [], [], d.fresh, d.log, 10 ^ 10, false⟩ rfl rfl (by positivity)
  rw [show sweepFrom W d.last (W.posZ w) (W.velZ w) d.evs ⟨w, [], [], d.fresh, d.log, 10 ^ 10, false⟩ = sweep W w d d.evs from rfl,
    he, hx] at this
  exact this

/-! ### C28: the step taken -/

/-- **C28 (partial).** With an adaptive method, an accepted step (at most the requested one, or the smallest allowed step) never ends
later than a pending timed event plus the largest of the 10⁻⁵ s tolerance, the smallest allowed step and the event time step.
Missing: fixed-step methods (`fixed_step_violated`) and events registered during the same pass (`same_pass_violated`); and the bound
uses the smallest allowed steps (`min_step_violated`). -/
theorem not_overshot_partial (W : World σ K) (hW : KeepsTime W) (hS : KeepsShutOff W) (w w' : σ) (d d' : Detector K) (est : K)
    (ex : Bool) (h : triggerEvents W w d = .ok (w', d', est, ex)) (T : K) (c : Nat) (del : K) (o : Nat)
    (he : (⟨.timeReached T, c, del, o⟩ : Ev K) ∈ d.evs) (hT : W.time w < T) (dt minStep eventStep taken : K)
    (htaken : taken ≤ max minStep (overrideStep true eventStep est ex dt)) :
    W.time w + taken ≤ max (T + 1 / 100000) (W.time w + max minStep eventStep) := by
  obtain ⟨h0, h1, _⟩ := reported_wait W hW hS w w' d d' est ex h
  have hle : est ≤ T - W.time w := h1 _ he (by simp [Due, hT])
  have hstep : overrideStep true eventStep est ex dt ≤ max (T - W.time w + 1 / 100000) eventStep := by
    unfold overrideStep
    split
    · split
      · exact le_trans (by linarith) (le_max_left _ _)
      · apply max_le _ (le_max_right _ _)
        refine le_trans ?_ (le_max_left _ _)
        rw [div_le_iff₀ (by norm_num)]
        have : (0 : K) < 1 / 100000 := by norm_num
        linarith
    · rename_i hc
      have : dt ≤ est := by
        by_contra hn
        exact hc ⟨rfl, not_le.1 hn⟩
      have h2 : (0 : K) < 1 / 100000 := by norm_num
      exact le_trans (by linarith) (le_max_left _ _)
  rcases le_max_iff.1 htaken with h | h
  · refine le_trans ?_ (le_max_right _ _)
    linarith [le_max_left minStep eventStep]
  · rcases le_max_iff.1 (le_trans h hstep) with h | h
    · exact le_trans (by linarith) (le_max_left _ _)
    · refine le_trans ?_ (le_max_right _ _)
      linarith [le_max_right minStep eventStep]

/-- **C28 (partial, the timed event first).** When the reported event is exact and the step is not below the smallest allowed one, the
step ends at the event plus 10⁻⁵ s — so the next pass triggers it — or before it. -/
theorem exact_hit_partial (est dt eventStep : K) (hlt : est < dt) :
    overrideStep true eventStep est true dt = est + 1 / 100000 ∧ (est ≥ dt → overrideStep true eventStep est true dt = dt) := by
  unfold overrideStep
  constructor
  · rw [if_pos ⟨rfl, hlt⟩]; simp
  · intro hge; exact absurd hlt (not_lt.2 hge)

/-- **C28 (events without a known time).** Towards an altitude or velocity event the step covers two thirds of the estimated wait, and never
less than the event time step; the wait left is a third of the estimate as long as two thirds of it are at least an event time step, and
below that it is less than half an event time step. -/
theorem approach_step (est dt eventStep : K) (hlt : est < dt) :
    overrideStep true eventStep est false dt = max (2 / 3 * est) eventStep ∧
    (eventStep ≤ 2 / 3 * est → est - overrideStep true eventStep est false dt = est / 3) ∧
    (2 / 3 * est < eventStep → est - overrideStep true eventStep est false dt < eventStep / 2) := by
  have h : overrideStep true eventStep est false dt = max (2 / 3 * est) eventStep := by
    unfold overrideStep
    rw [if_pos ⟨rfl, hlt⟩, if_neg (by simp)]
    congr 1
    field_simp
  refine ⟨h, fun he => ?_, fun he => ?_⟩
  · rw [h, max_eq_left he]; ring
  · rw [h, max_eq_right he.le]; linarith

example : (1 : ℚ) < 2 ∧ (1 / 100 : ℚ) ≤ 2 / 3 * 1 := by norm_num

/-- **C28 (violated, fixed steps).** With a fixed-step method the step is not adapted to timed events, for any event and step. -/
theorem fixed_step_violated (est eventStep dt : K) (ex : Bool) : overrideStep false eventStep est ex dt = dt := by
  unfold overrideStep
  rw [if_neg (by simp)]

end order

/-! ### Witnesses -/

/-- a world whose state is only the time; callback 1 registers a timed event 1/1000 s later -/
def clock : World ℚ ℚ :=
  ⟨fun t => t, fun _ => 10 ^ 9, fun _ => 0, fun _ => 0, fun c t => (t, if c = 1 then [⟨.timeReached (t + 1/1000), 2, 0⟩] else [])⟩

/-- **C28 (violated).** An event registered during a pass (by a callback or through a delay) is not in the reported waiting time: here an
event due in 1/1000 s is pending after the pass, but the reported waiting time is the default 10¹⁰, so a step of 1 s is
not shortened. -/
theorem same_pass_violated :
    ((triggerEvents clock 5 ⟨[⟨.timeReached 5, 1, 0, 0⟩], none, 1, []⟩).toOption.map
      fun r => (r.2.1.evs.length, r.2.1.log, r.2.2.1, overrideStep true (1/100) r.2.2.1 r.2.2.2 1)) =
      some (1, [0], 10 ^ 10, 1) ∧
    ((triggerEvents clock 5 ⟨[⟨.timeReached 5, 0, 1/1000, 0⟩], none, 1, []⟩).toOption.map
      fun r => (r.2.1.evs.length, r.2.1.log, r.2.2.1, overrideStep true (1/100) r.2.2.1 r.2.2.2 1)) =
      some (1, [], 10 ^ 10, 1) := by
  decide +kernel

/-- **C28 (violated).** An altitude event estimated a little earlier than a timed event makes the step at least the event time step, past
the timed event: here timed event in 2/1000 s, altitude estimate 1/1000 s, event time step 1/100 s. -/
theorem min_step_violated : ∃ est T eventStep dt : ℚ, est < T ∧ T + 1 / 100000 < overrideStep true eventStep est false dt :=
  ⟨1/1000, 2/1000, 1/100, 1, by norm_num, by unfold overrideStep; norm_num⟩

theorem clock_keeps : KeepsTime clock ∧ KeepsShutOff clock := ⟨fun _ _ => rfl, fun _ _ => rfl⟩

/-- three events, two due in the same pass: reachable, called in order, each once -/
example : Reach clock ⟨[⟨.timeReached 5, 0, 0, 0⟩, ⟨.timeReached 9, 3, 0, 1⟩, ⟨.timeReached 4, 1, 0, 2⟩], none, 3, []⟩ ∧
    ((triggerEvents clock 6 ⟨[⟨.timeReached 5, 0, 0, 0⟩, ⟨.timeReached 9, 3, 0, 1⟩, ⟨.timeReached 4, 1, 0, 2⟩], none, 3,
      []⟩).toOption.map fun r => (r.2.1.evs.map Ev.origin, r.2.1.log, r.2.2)) = some ([1, 3], [0, 2], (3, true)) :=
  ⟨.sub ⟨.timeReached 4, 1, 0⟩ (.sub ⟨.timeReached 9, 3, 0⟩ (.sub ⟨.timeReached 5, 0, 0⟩ .init)), by decide +kernel⟩

end Mapleaf.Rocket
