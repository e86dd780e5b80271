import Verif.Run.RunModel
import Mathlib.Algebra.Order.Archimedean.Basic
import Mathlib.Tactic.Linarith
import Mathlib.Tactic.NormNum
import Mathlib.Tactic.FieldSimp

/-!
# When a simulation stops

C46: the end time is met exactly with fixed steps, every condition stops at the first recorded state
that satisfies it, and every dropped stage is followed to its own end condition from the moment of
separation.
-/

namespace Mapleaf.Run

variable {K : Type} [Field K] [LinearOrder K] [IsStrictOrderedRing K] {S : Type}

/-- What the user means by each end condition -/
def EndCond.Holds (c : EndCond K) (o : Obs K) : Prop :=
  match c with
  | .afterApogee => o.velZ ≤ 0 ∧ 1 < o.time
  | .aboveAltitude v => v ≤ o.posZ
  | .belowAltitude v => o.altitude ≤ v
  | .endTime v => v ≤ o.time

/-- A detector ends the simulation exactly when its condition holds, whatever the step size -/
theorem detect_iff (c : EndCond K) (o : Obs K) (dt : K) : (c.detect o dt).1 = true ↔ c.Holds o := by
  cases c with
  | afterApogee => simp [EndCond.detect, EndCond.Holds]
  | aboveAltitude v => simp [EndCond.detect, EndCond.Holds]
  | belowAltitude v => simp [EndCond.detect, EndCond.Holds]
  | endTime v =>
    simp only [EndCond.detect, EndCond.Holds]
    split_ifs with h1 h2
    · simp [h1.1]
    · simp [h2]
    · simp [h2]

/-- An altitude condition looks upwards exactly when the rocket starts below it; every name other than
`Apogee` and `Altitude` means an end time -/
theorem chooseEnd_spec (name : Str) (v : K) (o : Obs K) :
    (name = "Apogee".toList → chooseEnd name v o = .afterApogee) ∧
    (name = "Altitude".toList → chooseEnd name v o = if o.posZ < v then .aboveAltitude v else .belowAltitude v) ∧
    (name ≠ "Apogee".toList → name ≠ "Altitude".toList → chooseEnd name v o = .endTime v) := by
  have hne : ¬ "Altitude".toList = "Apogee".toList := by decide
  refine ⟨fun h => by rw [chooseEnd, if_pos h], fun h => ?_, fun h1 h2 => ?_⟩
  · subst h
    rw [chooseEnd, if_neg hne]
    by_cases h2 : o.posZ < v
    · rw [if_pos ⟨rfl, h2⟩, if_pos h2]
    · rw [if_neg (fun h => h2 h.2), if_pos rfl, if_neg h2]
  · rw [chooseEnd, if_neg h1, if_neg (fun h => h2 h.1), if_neg h2]

/-- One step of the loop on stage `i`, seen from outside: which step was asked for and what came back -/
theorem advance_at {sim : Sim S K} {i : Nat} {slots slots' : List (Slot S K)} {s : Slot S K} {o : Option K}
    (hs : slots[i]? = some s) (h : advance sim i slots s o = .ok slots') :
    ∃ res, sim.step s.rocket (o.getD s.dt) = .ok res ∧
      slots'.length = slots.length + res.dropped.length ∧
      slots'[i]? = some { s with rocket := res.rocket, dt := res.dt * res.factor,
                                 flight := s.flight ++ [res.rocket] } ∧
      (∀ j < slots.length, j ≠ i → slots'[j]? = slots[j]?) ∧
      (∀ j, ∀ r, res.dropped[j]? = some r → ∃ f, (slots[0]?).map Slot.flight = some f ∧
        ∃ d, slots'[slots.length + j]? = some { rocket := r, dt := d, cond := sim.droppedEnd r, flight := f }) := by
  obtain ⟨hi, hs'⟩ := List.getElem?_eq_some_iff.1 hs
  unfold advance at h
  cases hst : sim.step s.rocket (o.getD s.dt) with
  | error e => simp [hst] at h
  | ok res =>
    refine ⟨res, rfl, ?_⟩
    simp only [hst, Except.ok.injEq] at h
    have hne : slots ≠ [] := by rintro rfl; simp at hi
    obtain ⟨top, tl, htop⟩ : ∃ top tl, slots.set i { s with dt := o.getD s.dt } = top :: tl := by
      cases hc : slots.set i { s with dt := o.getD s.dt } with
      | nil => have := congrArg List.length hc; simp at this; exact absurd this hne
      | cons a b => exact ⟨a, b, rfl⟩
    have hhead : (slots.set i { s with dt := o.getD s.dt }).head? = some top := by rw [htop]; rfl
    rw [hhead] at h
    simp only at h
    have hflight : (slots[0]?).map Slot.flight = some top.flight := by
      cases i with
      | zero =>
        cases slots with
        | nil => exact absurd rfl hne
        | cons a b =>
          simp at hs'; simp at htop; subst hs'
          simp [← htop.1]
      | succ i =>
        cases slots with
        | nil => exact absurd rfl hne
        | cons a b => simp at htop; simp [htop.1]
    subst h
    refine ⟨by simp, ?_, ?_, ?_⟩
    · rw [List.getElem?_set_self (by simp; omega)]
    · intro j hj hji
      rw [List.getElem?_set_ne (by omega), List.getElem?_append_left (by simpa using hj),
        List.getElem?_set_ne (by omega)]
    · intro j r hr
      refine ⟨top.flight, hflight, top.dt, ?_⟩
      rw [List.getElem?_set_ne (by omega), List.getElem?_append_right (by simp)]
      simp [hr, detach]

/-- More fuel never changes a finished run -/
theorem inner_mono {sim : Sim S K} {i n : Nat} {slots slots' : List (Slot S K)}
    (h : inner sim i n slots = .ok slots') : ∀ m, n ≤ m → inner sim i m slots = .ok slots' := by
  induction n generalizing slots with
  | zero => simp [inner] at h
  | succ n ih =>
    intro m hm
    obtain ⟨m, rfl⟩ : ∃ k, m = k + 1 := ⟨m - 1, by omega⟩
    simp only [inner] at h ⊢
    split at h
    · simp at h
    · split at h
      · exact h
      · split at h
        · simp at h
        · exact ih h m (by omega)

/-- A sequence of recorded states is *legal* from `r` when every state comes out of a time step from the
one before, and the end condition did not hold at any state from which a step was taken -/
def Legal (sim : Sim S K) (c : EndCond K) : S → List S → Prop
  | r, [] => c.Holds (sim.obs r)
  | r, r' :: rest => ¬ c.Holds (sim.obs r) ∧ (∃ dt res, sim.step r dt = .ok res ∧ res.rocket = r') ∧
      Legal sim c r' rest

/-- **First stop.**  When the loop for stage `i` returns, the states it added to the flight are the
results of successive time steps, the end condition holds at the last of them, and it held at none
before: no state is skipped and the simulation ends at the first one satisfying the condition. -/
theorem first_stop {sim : Sim S K} {i n : Nat} {slots slots' : List (Slot S K)} {s : Slot S K}
    (hs : slots[i]? = some s) (h : inner sim i n slots = .ok slots') :
    ∃ new s', slots'[i]? = some s' ∧ s'.flight = s.flight ++ new ∧ s'.cond = s.cond ∧
      s'.rocket = (s.rocket :: new).getLast (by simp) ∧ Legal sim s.cond s.rocket new := by
  induction n generalizing slots s with
  | zero => simp [inner] at h
  | succ n ih =>
    simp only [inner, hs] at h
    split at h
    · rename_i hd
      obtain rfl : slots = slots' := by simpa using h
      refine ⟨[], s, hs, by simp, rfl, rfl, ?_⟩
      exact (detect_iff s.cond (sim.obs s.rocket) s.dt).1 (by rw [hd])
    · rename_i o hd
      split at h
      · simp at h
      · rename_i slots1 hadv
        obtain ⟨res, hst, -, hat, -, -⟩ := advance_at hs hadv
        obtain ⟨new, s', h1, h2, h3, h4, h5⟩ := ih hat h
        refine ⟨res.rocket :: new, s', h1, by simpa using h2, h3, ?_, ?_, ⟨_, res, hst, rfl⟩, h5⟩
        · simpa using h4
        · intro hh
          have := (detect_iff s.cond (sim.obs s.rocket) s.dt).2 hh
          rw [hd] at this; simp at this

/-- `Legal` put without recursion: the condition holds at the last state and at no earlier one -/
theorem Legal.first {sim : Sim S K} {c : EndCond K} {r : S} {new : List S} (h : Legal sim c r new) :
    c.Holds (sim.obs ((r :: new).getLast (by simp))) ∧
      ∀ k, ∀ hk : k < new.length, ¬ c.Holds (sim.obs ((r :: new)[k]'(by simp; omega))) := by
  induction new generalizing r with
  | nil => exact ⟨h, by simp⟩
  | cons a t ih =>
    obtain ⟨h1, h2, h3⟩ := h
    obtain ⟨h4, h5⟩ := ih h3
    refine ⟨by simpa using h4, fun k hk => ?_⟩
    cases k with
    | zero => simpa using h1
    | succ k => simpa using h5 k (by simpa using hk)

/-- A fixed-step integrator: every positive step is taken as asked and the clock moves by it -/
def Fixed (sim : Sim S K) : Prop :=
  ∀ r dt, 0 < dt → ∃ res, sim.step r dt = .ok res ∧ res.dt = dt ∧ res.factor = 1 ∧
    (sim.obs res.rocket).time = (sim.obs r).time + dt

/-- the end time plus the documented margin -/
private theorem eps_pos : (0 : K) < 1 / 10 ^ 14 := by positivity

theorem fixed_end_aux {sim : Sim S K} (hf : Fixed sim) (T : K) {i : Nat} (N : Nat) :
    ∀ {slots : List (Slot S K)} {s : Slot S K}, slots[i]? = some s → s.cond = .endTime T → 0 < s.dt →
      (N : K) * s.dt < T - (sim.obs s.rocket).time → T - (sim.obs s.rocket).time ≤ (N + 1 : ℕ) * s.dt →
      ∃ slots' s' new, inner sim i (N + 2) slots = .ok slots' ∧ slots'[i]? = some s' ∧
        s'.flight = s.flight ++ new ∧ new.length = N + 1 ∧
        new.map (fun r => (sim.obs r).time) =
          (List.range N).map (fun k : ℕ => (sim.obs s.rocket).time + ((k : K) + 1) * s.dt) ++ [T + 1 / 10 ^ 14] := by
  induction N with
  | zero =>
    intro slots s hs hc hdt h1 h2
    simp at h1 h2
    have hov : s.cond.detect (sim.obs s.rocket) s.dt = (false, some (T + 1 / 10 ^ 14 - (sim.obs s.rocket).time)) := by
      rw [hc]; simp only [EndCond.detect]; rw [if_pos ⟨h1, by linarith⟩]
    have hpos : 0 < T + 1 / 10 ^ 14 - (sim.obs s.rocket).time := by have := eps_pos (K := K); linarith
    obtain ⟨res, hst, hrd, hrf, hrt⟩ := hf s.rocket _ hpos
    have hadv : ∃ sl, advance sim i slots s (some (T + 1 / 10 ^ 14 - (sim.obs s.rocket).time)) = .ok sl := by
      unfold advance; simp only [Option.getD_some, hst]; exact ⟨_, rfl⟩
    obtain ⟨sl, hadv⟩ := hadv
    obtain ⟨res', hst', -, hat, -, -⟩ := advance_at hs hadv
    obtain rfl : res' = res := by
      simp only [Option.getD_some] at hst'; rw [hst] at hst'; exact (Except.ok.inj hst').symm
    refine ⟨sl, _, [res'.rocket], ?_, hat, rfl, rfl, ?_⟩
    · simp only [inner, hs, hov, hadv, hat]
      have : (s.cond.detect (sim.obs res'.rocket) (res'.dt * res'.factor)) = (true, none) := by
        rw [hc]; simp only [EndCond.detect]
        have he := eps_pos (K := K)
        rw [if_neg (by rw [hrt]; intro hh; linarith [hh.1]), if_pos (by rw [hrt]; linarith)]
      simp [this]
    · simp [hrt]
  | succ N ih =>
    intro slots s hs hc hdt h1 h2
    push_cast at h1 h2
    have hN : (0 : K) ≤ N := Nat.cast_nonneg N
    have hov : s.cond.detect (sim.obs s.rocket) s.dt = (false, none) := by
      rw [hc]; simp only [EndCond.detect]
      have : (0 : K) ≤ N * s.dt := by positivity
      rw [if_neg (by intro hh; nlinarith [hh.2]), if_neg (by intro hh; nlinarith)]
    obtain ⟨res, hst, hrd, hrf, hrt⟩ := hf s.rocket _ hdt
    have hadv : ∃ sl, advance sim i slots s none = .ok sl := by
      unfold advance; simp only [Option.getD_none, hst]; exact ⟨_, rfl⟩
    obtain ⟨sl, hadv⟩ := hadv
    obtain ⟨res', hst', -, hat, -, -⟩ := advance_at hs hadv
    obtain rfl : res' = res := by
      simp only [Option.getD_none] at hst'; rw [hst] at hst'; exact (Except.ok.inj hst').symm
    obtain ⟨sl2, s2, new, hin, hat2, hfl, hlen, htimes⟩ := ih (slots := sl) hat (by simpa using hc)
      (by simp [hrd, hrf]; exact hdt)
      (by simp only [hrd, hrf, mul_one, hrt]; nlinarith)
      (by simp only [hrd, hrf, mul_one, hrt]; push_cast; nlinarith)
    refine ⟨sl2, s2, res'.rocket :: new, ?_, hat2, by simpa using hfl, by simp [hlen], ?_⟩
    · rw [inner]
      simp only [hs, hov, hadv]
      exact hin
    · simp only [List.map_cons, htimes, hrt, hrd, hrf, mul_one]
      rw [List.range_succ_eq_map]
      simp only [List.map_cons, List.map_map, List.cons_append]
      congr 1
      · simp
      · congr 1
        apply List.map_congr_left
        intro k _
        simp only [Function.comp, Nat.cast_succ]
        ring

/-- **Exact end time.**  With a fixed-step integrator and any positive step `h` the simulation of a stage
that starts before the end time `T` stops after `⌈(T − t₀)/h⌉` steps.  The recorded times are `t₀ + h`,
`t₀ + 2h`, … and finally `T + 10⁻¹⁴`: the last step is shortened so that the end time is met to within
`10⁻¹⁴` and never passed by more, whether or not `h` divides `T − t₀`. -/
theorem fixed_end [Archimedean K] {sim : Sim S K} (hf : Fixed sim) (T : K) {i : Nat}
    {slots : List (Slot S K)} {s : Slot S K} (hs : slots[i]? = some s) (hc : s.cond = .endTime T)
    (hdt : 0 < s.dt) (ht : (sim.obs s.rocket).time < T) :
    ∃ (N : Nat) (slots' : List (Slot S K)) (s' : Slot S K) (new : List S),
      (N : K) * s.dt < T - (sim.obs s.rocket).time ∧ T - (sim.obs s.rocket).time ≤ (N + 1 : ℕ) * s.dt ∧
      (∀ fuel, N + 2 ≤ fuel → inner sim i fuel slots = .ok slots') ∧ slots'[i]? = some s' ∧
      s'.flight = s.flight ++ new ∧ new.length = N + 1 ∧
      new.map (fun r => (sim.obs r).time) =
        (List.range N).map (fun k : ℕ => (sim.obs s.rocket).time + ((k : K) + 1) * s.dt) ++ [T + 1 / 10 ^ 14] := by
  have hex : ∃ n : ℕ, T - (sim.obs s.rocket).time ≤ (n : K) * s.dt := by
    obtain ⟨n, hn⟩ := exists_nat_ge ((T - (sim.obs s.rocket).time) / s.dt)
    exact ⟨n, by rwa [div_le_iff₀ hdt] at hn⟩
  classical
  set n := Nat.find hex with hn
  have hspec := Nat.find_spec hex
  have hn0 : n ≠ 0 := by
    intro h0
    rw [← hn, h0] at hspec
    simp at hspec
    linarith
  obtain ⟨N, hN⟩ : ∃ N, n = N + 1 := ⟨n - 1, by omega⟩
  have hmin : (N : K) * s.dt < T - (sim.obs s.rocket).time := by
    have := Nat.find_min hex (m := N) (by omega)
    exact not_le.1 this
  have hle : T - (sim.obs s.rocket).time ≤ (N + 1 : ℕ) * s.dt := by
    rw [← hn, hN] at hspec; exact hspec
  obtain ⟨slots', s', new, h1, h2, h3, h4, h5⟩ := fixed_end_aux hf T N hs hc hdt hmin hle
  exact ⟨N, slots', s', new, hmin, hle, fun fuel hfuel => inner_mono h1 fuel hfuel, h2, h3, h4, h5⟩

/-- A simulation that starts at or after its end time takes no step -/
theorem late_start {sim : Sim S K} (T : K) {i : Nat} {slots : List (Slot S K)} {s : Slot S K}
    (hs : slots[i]? = some s) (hc : s.cond = .endTime T) (ht : T ≤ (sim.obs s.rocket).time) (n : Nat) :
    inner sim i (n + 1) slots = .ok slots := by
  simp only [inner, hs]
  have : s.cond.detect (sim.obs s.rocket) s.dt = (true, none) := by
    rw [hc]; simp only [EndCond.detect]
    rw [if_neg (by intro h; exact absurd h.1 (not_lt.2 ht)), if_pos ht]
  simp [this]

/-- **Overshoot.**  Whatever the integrator (adaptive steps, steps changed to hit events), if no step
moves the clock by more than the requested step plus `m`, the final time exceeds the end time by no more
than `10⁻¹⁴ + m`. -/
theorem overshoot_le {sim : Sim S K} {T m : K} (hm : 0 ≤ m)
    (hstep : ∀ r dt res, sim.step r dt = .ok res → (sim.obs res.rocket).time ≤ (sim.obs r).time + dt + m)
    {i n : Nat} {slots slots' : List (Slot S K)} {s : Slot S K}
    (hs : slots[i]? = some s) (hc : s.cond = .endTime T) (ht : (sim.obs s.rocket).time ≤ T + 1 / 10 ^ 14 + m)
    (h : inner sim i n slots = .ok slots') :
    ∃ s', slots'[i]? = some s' ∧ T ≤ (sim.obs s'.rocket).time ∧
      (sim.obs s'.rocket).time ≤ T + 1 / 10 ^ 14 + m := by
  induction n generalizing slots s with
  | zero => simp [inner] at h
  | succ n ih =>
    simp only [inner, hs] at h
    split at h
    · rename_i hd
      obtain rfl : slots = slots' := by simpa using h
      refine ⟨s, hs, ?_, ht⟩
      have := (detect_iff s.cond (sim.obs s.rocket) s.dt).1 (by rw [hd])
      rwa [hc] at this
    · rename_i o hd
      split at h
      · simp at h
      · rename_i slots1 hadv
        obtain ⟨res, hst, -, hat, -, -⟩ := advance_at hs hadv
        refine ih hat (by simpa using hc) ?_ h
        have hb := hstep _ _ _ hst
        have he := eps_pos (K := K)
        simp only
        rw [hc] at hd
        simp only [EndCond.detect] at hd
        split_ifs at hd with h1 h2
        · obtain rfl : o = some (T + 1 / 10 ^ 14 - (sim.obs s.rocket).time) := by simpa using hd.symm
          simp only [Option.getD_some] at hb
          linarith
        · simp at hd
        · obtain rfl : o = none := by simpa using hd.symm
          simp only [Option.getD_none] at hb
          have : (sim.obs s.rocket).time + s.dt < T := by
            by_contra hcon
            exact h1 ⟨not_le.1 h2, not_lt.1 hcon⟩
          linarith

/-! ### the step rocket.timeStep really takes -/

open Mapleaf.Rocket in
/-- rocket.timeStep changes the requested step by at most the larger of `10⁻⁵` and `eventTimeStep`
(rocket.py:675-686), and never with a fixed-step method -/
theorem overrideStep_le (adaptive : Bool) {ets est dt : K} (exact : Bool) (hest : 0 ≤ est) (hdt : 0 ≤ dt)
    (hets : 0 ≤ ets) :
    overrideStep adaptive ets est exact dt ≤ dt + max (1 / 100000) ets ∧
    (adaptive = false → overrideStep adaptive ets est exact dt = dt) := by
  constructor
  · unfold overrideStep
    split_ifs with h1 h2
    · have := le_max_left (1 / 100000 : K) ets
      linarith [h1.2]
    · apply max_le
      · have : est / (3 / 2) ≤ est := by
          rw [div_le_iff₀ (by norm_num)]; nlinarith
        have := le_trans hets (le_max_right (1 / 100000 : K) ets)
        linarith [h1.2]
      · have := le_max_right (1 / 100000 : K) ets
        linarith
    · have : (0 : K) ≤ max (1 / 100000) ets := le_trans hets (le_max_right _ _)
      linarith
  · intro h; simp [overrideStep, h]

/-- a rocket that is only a clock, stepped as rocket.timeStep does with an event `est` seconds ahead -/
def clockSim (adaptive : Bool) (ets est : K) (exact : Bool) : Sim K K where
  obs t := { time := t, velZ := 1, posZ := t, altitude := t }
  step t dt :=
    let dt' := Mapleaf.Rocket.overrideStep adaptive ets est exact dt
    .ok { rocket := t + dt', dt := dt', factor := 1, dropped := [] }
  droppedEnd _ := .endTime 0

/-- **Violation.**  With an adaptive method the end time can be passed: an event just before the end of
the last step moves the step past the end time.  End time 1 s, event at 0.999999 s: the simulation stops
at 1.000009 s. -/
theorem end_time_violated :
    (inner (clockSim true (1 / 1000) (999999 / 1000000 : ℚ) true) 0 3
        [{ rocket := 0, dt := 1, cond := .endTime 1, flight := [0] }]).map (fun l => l.map Slot.rocket)
      = .ok [1000009 / 1000000] ∧ (1 : ℚ) + 1 / 10 ^ 14 < 1000009 / 1000000 := by
  constructor <;> decide +kernel

/-- **Violation.**  A time step of zero never ends: however long the loop runs, it has not stopped. -/
theorem zero_step_violated (n : Nat) :
    inner (clockSim false (1 / 1000) (5 : ℚ) true) 0 n
        [{ rocket := 0, dt := 0, cond := .endTime 1, flight := [0] }] = .error .outOfFuel := by
  have key : ∀ n (f : List ℚ), inner (clockSim false (1 / 1000) (5 : ℚ) true) 0 n
        [{ rocket := 0, dt := 0, cond := .endTime 1, flight := f }] = .error .outOfFuel := by
    intro n
    induction n with
    | zero => intro f; rfl
    | succ n ih =>
      intro f
      have : inner (clockSim false (1 / 1000) (5 : ℚ) true) 0 (n + 1)
          [{ rocket := 0, dt := 0, cond := .endTime 1, flight := f }]
        = inner (clockSim false (1 / 1000) (5 : ℚ) true) 0 n
          [{ rocket := 0, dt := 0, cond := .endTime 1, flight := f ++ [0] }] := by
        rw [inner]
        simp [EndCond.detect, clockSim, advance, Mapleaf.Rocket.overrideStep]
        norm_num
      rw [this, ih]
  exact key n [0]

/-- **Violation.**  "Apogee" also ends a simulation whose rocket has not left the pad: at rest more than
one second after the start, the condition holds. -/
theorem apogee_on_pad_violated : (EndCond.afterApogee : EndCond ℚ).Holds
    { time := 101 / 100, velZ := 0, posZ := 0, altitude := 0 } := by
  simp [EndCond.Holds]; norm_num

/-- The clock with a fixed-step method is a fixed-step integrator: `fixed_end` applies -/
example : Fixed (clockSim false (1 / 1000) (5 : ℚ) true) := by
  intro r dt h
  exact ⟨_, rfl, by simp [Mapleaf.Rocket.overrideStep], rfl,
    by simp [clockSim, Mapleaf.Rocket.overrideStep]⟩

/-- A step that does not divide the end time: 0.3 s steps to 1 s take four steps -/
example : (inner (clockSim false (1 / 1000) (5 : ℚ) true) 0 5
        [{ rocket := 0, dt := 3 / 10, cond := .endTime 1, flight := [0] }]).map (fun l => l.map Slot.flight)
      = .ok [[0, 3 / 10, 6 / 10, 9 / 10, 1 + 1 / 10 ^ 14]] := by
  decide +kernel

/-! ### all stages -/

/-- What is true of the list of stages while the outer loop runs: stages before `i` are finished, every
recorded flight ends with the stage's present state or (for a stage waiting for its turn) belongs to
stage 0 up to the separation -/
structure StagesInv (sim : Sim S K) (i : Nat) (slots : List (Slot S K)) : Prop where
  done : ∀ (j : Nat) (s : Slot S K), slots[j]? = some s → j < i → s.cond.Holds (sim.obs s.rocket)
  pre : ∀ (j : Nat) (s s0 : Slot S K), slots[j]? = some s → slots[0]? = some s0 → ∃ m rest,
    s.flight = s0.flight.take m ++ rest
  cond : ∀ (j : Nat) (s : Slot S K), slots[j]? = some s → 0 < j → ∃ r, s.cond = sim.droppedEnd r

theorem inner_inv {sim : Sim S K} {i n : Nat} {slots slots' : List (Slot S K)} (hi : i < slots.length)
    (hI : StagesInv sim i slots) (h : inner sim i n slots = .ok slots') :
    StagesInv sim (i + 1) slots' ∧ slots.length ≤ slots'.length ∧
      (∀ s0 s0', slots[0]? = some s0 → slots'[0]? = some s0' → s0.cond = s0'.cond ∧ s0.flight <+: s0'.flight) := by
  induction n generalizing slots with
  | zero => simp [inner] at h
  | succ n ih =>
    obtain ⟨s, hs⟩ : ∃ s, slots[i]? = some s := ⟨slots[i], List.getElem?_eq_getElem hi⟩
    simp only [inner, hs] at h
    split at h
    · rename_i hd
      obtain rfl : slots = slots' := by simpa using h
      refine ⟨⟨?_, hI.pre, hI.cond⟩, le_refl _, ?_⟩
      · intro j t ht hj
        rcases Nat.lt_succ_iff_lt_or_eq.1 hj with hj | rfl
        · exact hI.done j t ht hj
        · obtain rfl : s = t := by rw [hs] at ht; exact Option.some.inj ht
          exact (detect_iff s.cond (sim.obs s.rocket) s.dt).1 (by rw [hd])
      · intro a b ha hb
        obtain rfl : a = b := by rw [ha] at hb; exact Option.some.inj hb
        exact ⟨rfl, List.prefix_refl _⟩
    · rename_i o hd
      split at h
      · simp at h
      · rename_i slots1 hadv
        obtain ⟨res, hst, hlen, hat, hother, hnew⟩ := advance_at hs hadv
        -- stage 0 before and after the step
        have h0 : ∃ a, slots[0]? = some a := ⟨slots[0], List.getElem?_eq_getElem (by omega)⟩
        obtain ⟨a, ha⟩ := h0
        have hb : ∃ b, slots1[0]? = some b ∧ a.cond = b.cond ∧ a.flight <+: b.flight := by
          by_cases hi0 : i = 0
          · subst hi0
            obtain rfl : s = a := by rw [hs] at ha; exact Option.some.inj ha
            exact ⟨_, hat, rfl, by simp⟩
          · exact ⟨a, by rw [hother 0 (by omega) (by omega), ha], rfl, List.prefix_refl _⟩
        obtain ⟨b, hb, hcab, hpab⟩ := hb
        obtain ⟨sfx, hsfx⟩ := hpab
        have lift : ∀ f : List S, (∃ m rest, f = a.flight.take m ++ rest) → ∃ m rest, f = b.flight.take m ++ rest := by
          rintro f ⟨m, rest, rfl⟩
          refine ⟨min m a.flight.length, rest, ?_⟩
          rw [← hsfx, List.take_append_of_le_length (by omega)]
          congr 1
          rcases le_total m a.flight.length with hm | hm
          · rw [min_eq_left hm]
          · rw [min_eq_right hm, List.take_of_length_le hm, List.take_length]
        have hI1 : StagesInv sim i slots1 := by
          refine ⟨?_, ?_, ?_⟩
          · intro j t ht hj
            rw [hother j (by omega) (by omega)] at ht
            exact hI.done j t ht hj
          · intro j t s0 ht hs0
            obtain rfl : b = s0 := by rw [hb] at hs0; exact Option.some.inj hs0
            by_cases hji : j = i
            · subst hji
              rw [hat] at ht
              obtain rfl := Option.some.inj ht
              obtain ⟨m, rest, hmr⟩ := lift s.flight (hI.pre j s a hs ha)
              exact ⟨m, rest ++ [res.rocket], by simp [hmr]⟩
            · by_cases hjl : j < slots.length
              · rw [hother j hjl hji] at ht
                exact lift _ (hI.pre j t a ht ha)
              · have hjl1 : j < slots1.length := (List.getElem?_eq_some_iff.1 ht).1
                obtain ⟨k, rfl⟩ : ∃ k, j = slots.length + k := ⟨j - slots.length, by omega⟩
                obtain ⟨f, hf, d, hd'⟩ := hnew k (res.dropped[k]'(by omega))
                  (List.getElem?_eq_getElem (by omega))
                rw [hd'] at ht
                obtain rfl := Option.some.inj ht
                rw [ha] at hf
                simp at hf
                exact lift _ ⟨a.flight.length, [], by simp [hf]⟩
          · intro j t ht hj
            by_cases hji : j = i
            · subst hji
              rw [hat] at ht
              obtain rfl := Option.some.inj ht
              exact hI.cond j s hs hj
            · by_cases hjl : j < slots.length
              · rw [hother j hjl hji] at ht
                exact hI.cond j t ht hj
              · have hjl1 : j < slots1.length := (List.getElem?_eq_some_iff.1 ht).1
                obtain ⟨k, rfl⟩ : ∃ k, j = slots.length + k := ⟨j - slots.length, by omega⟩
                obtain ⟨f, hf, d, hd'⟩ := hnew k (res.dropped[k]'(by omega))
                  (List.getElem?_eq_getElem (by omega))
                rw [hd'] at ht
                obtain rfl := Option.some.inj ht
                exact ⟨_, rfl⟩
        obtain ⟨r1, r2, r3⟩ := ih (by omega) hI1 h
        refine ⟨r1, by omega, ?_⟩
        intro s0 s0' hs0 hs0'
        obtain rfl : a = s0 := by rw [ha] at hs0; exact Option.some.inj hs0
        obtain ⟨q1, q2⟩ := r3 b s0' hb hs0'
        exact ⟨hcab.trans q1, (List.IsPrefix.trans ⟨sfx, hsfx⟩ q2)⟩

theorem outer_inv {sim : Sim S K} {f n i : Nat} {slots slots' : List (Slot S K)}
    (hi : i ≤ slots.length) (hI : StagesInv sim i slots) (h : outer sim f n i slots = .ok slots') :
    StagesInv sim slots'.length slots' ∧ slots.length ≤ slots'.length ∧
      (0 < slots.length → ∀ s0 s0', slots[0]? = some s0 → slots'[0]? = some s0' → s0.cond = s0'.cond) := by
  induction n generalizing i slots with
  | zero => simp [outer] at h
  | succ n ih =>
    simp only [outer] at h
    split_ifs at h with hlt
    · split at h
      · simp at h
      · rename_i s1 hin
        obtain ⟨h1, h2, h3⟩ := inner_inv hlt hI hin
        obtain ⟨g1, g2, g3⟩ := ih (by omega) h1 h
        refine ⟨g1, by omega, fun hpos s0 s0' hs0 hs0' => ?_⟩
        have hb : s1[0]? = some (s1[0]'(by omega)) := List.getElem?_eq_getElem (by omega)
        exact (h3 s0 _ hs0 hb).1.trans (g3 (by omega) _ s0' hb hs0')
    · obtain rfl : slots = slots' := by simpa using h
      obtain rfl : i = slots.length := by omega
      refine ⟨hI, le_refl _, fun _ s0 s0' hs0 hs0' => ?_⟩
      rw [hs0] at hs0'
      rw [Option.some.inj hs0']

/-- **Every stage is followed to its end.**  When a run returns, every independent stage — the rocket and
everything dropped from it — satisfies its own end condition, the rocket's condition is the one asked
for, dropped stages have the dropped-stage condition, and each flight record starts with a part of the
rocket's own flight (the path before separation). -/
theorem all_stages_end {sim : Sim S K} {n : Nat} {r : S} {dt : K} {c : EndCond K} {slots : List (Slot S K)}
    (h : run sim n r dt c = .ok slots) :
    0 < slots.length ∧
    (∀ s ∈ slots, s.cond.Holds (sim.obs s.rocket)) ∧
    (∀ s0, slots[0]? = some s0 → s0.cond = c) ∧
    (∀ (j : Nat) (s : Slot S K), slots[j]? = some s → 0 < j → ∃ r, s.cond = sim.droppedEnd r) ∧
    (∀ (j : Nat) (s s0 : Slot S K), slots[j]? = some s → slots[0]? = some s0 → ∃ m rest, s.flight = s0.flight.take m ++ rest) := by
  unfold run at h
  have hI : StagesInv sim 0 [({ rocket := r, dt := dt, cond := c, flight := [r] } : Slot S K)] := by
    refine ⟨by intro j s _ hj; omega, ?_, ?_⟩
    · intro j s s0 hs hs0
      cases j with
      | zero =>
        obtain rfl : s = s0 := by rw [hs] at hs0; exact Option.some.inj hs0
        exact ⟨s.flight.length, [], by simp⟩
      | succ j => simp at hs
    · intro j s hs hj
      cases j with
      | zero => omega
      | succ j => simp at hs
  obtain ⟨h1, h2, h3⟩ := outer_inv (by simp) hI h
  simp only [List.length_singleton] at h2
  refine ⟨by omega, ?_, ?_, h1.cond, h1.pre⟩
  · intro s hs
    obtain ⟨j, hj, rfl⟩ := List.getElem_of_mem hs
    exact h1.done j _ (List.getElem?_eq_getElem hj) hj
  · intro s0 hs0
    exact (h3 (by simp) _ s0 rfl hs0).symm

/-- a two-stage clock: the step from 0.5 s drops a stage, which is followed to time 2 -/
def dropSim : Sim (ℚ × Bool) ℚ where
  obs r := { time := r.1, velZ := 1, posZ := r.1, altitude := r.1 }
  step r dt := .ok { rocket := (r.1 + dt, r.2), dt := dt, factor := 1,
                     dropped := if r.2 ∧ r.1 = 1 / 2 then [(r.1, false)] else [] }
  droppedEnd _ := .endTime 2

example : (run dropSim 20 (0, true) (1 / 2) (.endTime 1)).map (fun l => l.map Slot.flight) = .ok
      [[(0, true), (1 / 2, true), (1 + 1 / 10 ^ 14, true)],
       [(0, true), (1 / 2, true), (1 + 1 / 10 ^ 14, false), (3 / 2 + 2 / 10 ^ 14, false),
        (2 + 1 / 10 ^ 14, false)]] := by
  decide +kernel

end Mapleaf.Run
