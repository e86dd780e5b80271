import Verif.Log.ReplayModel
import Verif.Motion.InterpProps
import Verif.Motion.StateProps
import Verif.Run.CaseProps
import Verif.Run.OptProps
import Verif.Run.FlightModel

/-! # C82: a recorded flight, and what its animation shows -/

namespace Mapleaf.Replay

open Mapleaf.Motion Mapleaf.CaseM
open Quat (delta)
open V3 (dot cross)

/-! ## Recording -/

theorem appendEach_iff (ls : List (List ℝ)) (vs : List ℝ) (out : List (List ℝ)) :
    appendEach ls vs = .ok out ↔
      vs.length ≤ ls.length ∧ out.length = ls.length ∧
      ∀ (a : ℕ) l, ls[a]? = some l → out[a]? = some (l ++ (vs[a]?).toList) := by
  induction vs generalizing ls out with
  | nil =>
    cases ls <;> simp only [appendEach, Except.ok.injEq]
    all_goals
      constructor
      · rintro rfl; simp
      · rintro ⟨_, hl, h⟩
        apply List.ext_getElem?
        intro i
        by_cases hi : i < out.length
        · have hi' := hi
          rw [hl] at hi'
          rw [h i _ (List.getElem?_eq_getElem hi'), List.getElem?_eq_getElem hi']
          simp
        · rw [List.getElem?_eq_none (by omega), List.getElem?_eq_none (by omega)]
  | cons v vs ih =>
    cases ls with
    | nil => simp [appendEach]
    | cons l ls =>
      simp only [appendEach]
      constructor
      · intro h
        cases hr : appendEach ls vs with
        | error e => rw [hr] at h; cases h
        | ok r =>
          rw [hr] at h
          cases h
          obtain ⟨h1, h2, h3⟩ := (ih ls r).1 hr
          refine ⟨by simpa using h1, by simpa using h2, ?_⟩
          intro a l' ha
          cases a with
          | zero => simp at ha; subst ha; simp
          | succ a => simpa using h3 a l' (by simpa using ha)
      · rintro ⟨h1, h2, h3⟩
        obtain ⟨o, os, rfl⟩ : ∃ o os, out = o :: os := by
          cases out with
          | nil => simp at h2
          | cons o os => exact ⟨o, os, rfl⟩
        have h0 := h3 0 l (by simp)
        simp at h0
        have := (ih ls os).2 ⟨by simpa using h1, by simpa using h2, fun a l' ha => by
          simpa using h3 (a + 1) l' (by simpa using ha)⟩
        rw [this, h0]

/-- **C82** Recording a state appends the time and the state; the events are left alone. -/
theorem cacheState_appends (f f' : Flight) (r : Craft) (h : cacheState f r = .ok f') :
    f'.times = f.times ++ [r.time] ∧ f'.states = f.states ++ [r.state] ∧ f'.engineOff = f.engineOff ∧ f'.chute = f.chute := by
  obtain ⟨t, st, ctl⟩ := r
  unfold cacheState at h
  rcases ctl with _ | _ | _ | ⟨a, as⟩
  · cases h; exact ⟨rfl, rfl, rfl, rfl⟩
  · cases h; exact ⟨rfl, rfl, rfl, rfl⟩
  · cases h; exact ⟨rfl, rfl, rfl, rfl⟩
  · dsimp only at h
    split at h
    · split at h
      · cases h; exact ⟨rfl, rfl, rfl, rfl⟩
      · cases h
    · cases h

theorem appendEach_error (ls : List (List ℝ)) (vs : List ℝ) (e : PyErr) :
    appendEach ls vs = .error e ↔ ls.length < vs.length ∧ e = .indexError := by
  induction vs generalizing ls with
  | nil => cases ls <;> simp [appendEach]
  | cons v vs ih =>
    cases ls with
    | nil => simp [appendEach, eq_comm]
    | cons l ls =>
      have := ih ls
      simp only [appendEach, List.length_cons, Nat.add_lt_add_iff_right]
      rw [← this]
      cases appendEach ls vs <;> simp

/-- **C82** Recording fails exactly for a rocket with actuators and a flight that has no lists for them (a dropped stage with
its own control system), or fewer lists than actuators. -/
theorem cacheState_error_iff (f : Flight) (r : Craft) (e : PyErr) :
    cacheState f r = .error e ↔ ∃ acts, r.control = some (some acts) ∧ acts ≠ [] ∧
      (((f.defls = none ∨ f.targets = none) ∧ e = .typeError) ∨
       (∃ ds ts, f.defls = some ds ∧ f.targets = some ts ∧ (ds.length < acts.length ∨ ts.length < acts.length) ∧
         e = .indexError)) := by
  obtain ⟨t, st, ctl⟩ := r
  unfold cacheState
  rcases ctl with _ | _ | _ | ⟨a, as⟩
  · simp
  · simp
  · simp
  · dsimp only
    cases hd : f.defls with
    | none => simp [eq_comm]
    | some ds =>
      cases ht : f.targets with
      | none => simp [eq_comm]
      | some ts =>
        dsimp only
        have h1 := appendEach_error ds ((a :: as).map Prod.fst)
        have h2 := appendEach_error ts ((a :: as).map Prod.snd)
        have l1 : ((a :: as).map Prod.fst).length = (a :: as).length := by simp
        have l2 : ((a :: as).map Prod.snd).length = (a :: as).length := by simp
        rw [l1] at h1
        rw [l2] at h2
        cases k1 : appendEach ds ((a :: as).map Prod.fst) with
        | error e1 =>
          have := ((h1 e1).1 k1).1
          dsimp only
          constructor
          · intro h
            cases h
            exact ⟨_, rfl, by simp, Or.inr ⟨ds, ts, rfl, rfl, Or.inl this, rfl⟩⟩
          · rintro ⟨acts, _, _, ⟨h | h, _⟩ | ⟨_, _, _, _, _, h⟩⟩
            · cases h
            · cases h
            · rw [h]
        | ok d =>
          have n1 : ¬ ds.length < (a :: as).length := by
            intro h; rw [(h1 .indexError).2 ⟨h, rfl⟩] at k1; cases k1
          cases k2 : appendEach ts ((a :: as).map Prod.snd) with
          | error e2 =>
            have := ((h2 e2).1 k2).1
            dsimp only
            constructor
            · intro h
              cases h
              exact ⟨_, rfl, by simp, Or.inr ⟨ds, ts, rfl, rfl, Or.inr this, rfl⟩⟩
            · rintro ⟨acts, _, _, ⟨h | h, _⟩ | ⟨_, _, _, _, _, h⟩⟩
              · cases h
              · cases h
              · rw [h]
          | ok d2 =>
            have n2 : ¬ ts.length < (a :: as).length := by
              intro h; rw [(h2 .indexError).2 ⟨h, rfl⟩] at k2; cases k2
            dsimp only
            constructor
            · intro h; cases h
            · rintro ⟨acts, h0, _, ⟨h | h, _⟩ | ⟨_, _, h3, h4, h, _⟩⟩
              · cases h
              · cases h
              · cases h0; cases h3; cases h4
                rcases h with h | h
                · exact absurd h n1
                · exact absurd h n2

/-- **C82** The recorded times and states are those of every time step, in order, after the ones recorded before. -/
theorem record_appends (f f' : Flight) (rs : List Craft) (h : record f rs = .ok f') :
    f'.times = f.times ++ rs.map Craft.time ∧ f'.states = f.states ++ rs.map Craft.state := by
  induction rs generalizing f with
  | nil => cases h; simp
  | cons r rs ih =>
    unfold record at h
    cases hc : cacheState f r with
    | error e => rw [hc] at h; cases h
    | ok g =>
      rw [hc] at h
      obtain ⟨h1, h2⟩ := ih g h
      obtain ⟨h3, h4, _⟩ := cacheState_appends f g r hc
      rw [h1, h2, h3, h4]
      simp

/-- A rocket with `m` actuators, deflections and targets by number -/
def HasActuators (m : Nat) (r : Craft) : Prop := ∃ acts, r.control = some (some acts) ∧ acts.length = m

/-- Deflection of actuator `a` -/
def deflOf (a : Nat) (r : Craft) : ℝ :=
  match r.control with
  | some (some acts) => ((acts[a]?).map Prod.fst).getD 0
  | _ => 0

/-- Target of actuator `a` -/
def targetOf (a : Nat) (r : Craft) : ℝ :=
  match r.control with
  | some (some acts) => ((acts[a]?).map Prod.snd).getD 0
  | _ => 0

theorem record_lists (m : Nat) (rs : List Craft) (hrs : ∀ r ∈ rs, HasActuators m r) (f : Flight) (ds ts : List (List ℝ))
    (hd : f.defls = some ds) (ht : f.targets = some ts) (hdl : ds.length = m) (htl : ts.length = m) :
    ∃ f' ds' ts', record f rs = .ok f' ∧ f'.defls = some ds' ∧ f'.targets = some ts' ∧ ds'.length = m ∧ ts'.length = m ∧
      (∀ (a : ℕ) l, ds[a]? = some l → ds'[a]? = some (l ++ rs.map (deflOf a))) ∧
      (∀ (a : ℕ) l, ts[a]? = some l → ts'[a]? = some (l ++ rs.map (targetOf a))) := by
  induction rs generalizing f ds ts with
  | nil => exact ⟨f, ds, ts, rfl, hd, ht, hdl, htl, by simp, by simp⟩
  | cons r rs ih =>
    obtain ⟨acts, hc, ha⟩ := hrs r (by simp)
    have hstep : ∃ g ds' ts', cacheState f r = .ok g ∧ g.defls = some ds' ∧ g.targets = some ts' ∧ ds'.length = m ∧
        ts'.length = m ∧ (∀ (a : ℕ) l, ds[a]? = some l → ds'[a]? = some (l ++ [deflOf a r])) ∧
        (∀ (a : ℕ) l, ts[a]? = some l → ts'[a]? = some (l ++ [targetOf a r])) := by
      have mk : ∀ (ls : List (List ℝ)) (vs : List ℝ), vs.length = ls.length → ∃ out, appendEach ls vs = .ok out := by
        intro ls vs
        induction vs generalizing ls with
        | nil => intro _; exact ⟨ls, by cases ls <;> rfl⟩
        | cons v vs ih =>
          intro h
          cases ls with
          | nil => simp at h
          | cons l ls =>
            obtain ⟨o, ho⟩ := ih ls (by simpa using h)
            exact ⟨_, by simp only [appendEach]; rw [ho]⟩
      obtain ⟨ds', hds⟩ := mk ds (acts.map Prod.fst) (by simp [ha, hdl])
      obtain ⟨ts', hts⟩ := mk ts (acts.map Prod.snd) (by simp [ha, htl])
      obtain ⟨_, hd2, hd3⟩ := (appendEach_iff _ _ _).1 hds
      obtain ⟨_, ht2, ht3⟩ := (appendEach_iff _ _ _).1 hts
      have key1 : ∀ (a : ℕ) l, ds[a]? = some l → ds'[a]? = some (l ++ [deflOf a r]) := by
        intro a l hl
        have hlt : a < acts.length := by
          rw [ha, ← hdl]; exact (List.getElem?_eq_some_iff.1 hl).1
        rw [hd3 a l hl]
        simp [deflOf, hc, List.getElem?_eq_getElem hlt]
      have key2 : ∀ (a : ℕ) l, ts[a]? = some l → ts'[a]? = some (l ++ [targetOf a r]) := by
        intro a l hl
        have hlt : a < acts.length := by
          rw [ha, ← htl]; exact (List.getElem?_eq_some_iff.1 hl).1
        rw [ht3 a l hl]
        simp [targetOf, hc, List.getElem?_eq_getElem hlt]
      unfold cacheState
      rw [hc, hd, ht]
      cases acts with
      | nil =>
        simp at ha
        subst ha
        refine ⟨_, ds, ts, rfl, rfl, rfl, hdl, htl, ?_, ?_⟩
        · intro a l hl; have := (List.getElem?_eq_some_iff.1 hl).1; omega
        · intro a l hl; have := (List.getElem?_eq_some_iff.1 hl).1; omega
      | cons x xs =>
        dsimp only
        rw [hds, hts]
        exact ⟨_, ds', ts', rfl, rfl, rfl, by omega, by omega, key1, key2⟩
    obtain ⟨g, ds', ts', h1, h2, h3, h4, h5, h6, h7⟩ := hstep
    obtain ⟨f', ds'', ts'', k1, k2, k3, k4, k5, k6, k7⟩ := ih (fun r hr => hrs r (by simp [hr])) g ds' ts' h2 h3 h4 h5
    refine ⟨f', ds'', ts'', ?_, k2, k3, k4, k5, ?_, ?_⟩
    · unfold record; rw [h1]; exact k1
    · intro a l hl; rw [k6 a _ (h6 a l hl)]; simp
    · intro a l hl; rw [k7 a _ (h7 a l hl)]; simp

/-- **C82** Recording a controlled rocket that keeps its `m` actuators: one time, one state, and one deflection and one
target per actuator, for the start and for every time step. The first deflection and target are recorded as 0. -/
theorem record_controlled (m : Nat) (r0 : Craft) (rs : List Craft) (h0 : HasActuators m r0)
    (hrs : ∀ r ∈ rs, HasActuators m r) :
    ∃ f ds ts, record (setUpCaching r0) rs = .ok f ∧ f.times = r0.time :: rs.map Craft.time ∧
      f.states = r0.state :: rs.map Craft.state ∧ f.defls = some ds ∧ f.targets = some ts ∧
      ds.length = m ∧ ts.length = m ∧ (∀ (a : ℕ), a < m → ds[a]? = some (0 :: rs.map (deflOf a))) ∧
      (∀ (a : ℕ), a < m → ts[a]? = some (0 :: rs.map (targetOf a))) := by
  obtain ⟨acts, hc, ha⟩ := h0
  have hs : setUpCaching r0 = ⟨[r0.time], [r0.state], some (acts.map (fun _ => [0])), some (acts.map (fun _ => [0])),
      none, none⟩ := by unfold setUpCaching; rw [hc]
  obtain ⟨f, ds, ts, h1, h2, h3, h4, h5, h6, h7⟩ := record_lists m rs hrs (setUpCaching r0) (acts.map (fun _ => [0]))
    (acts.map (fun _ => [0])) (by rw [hs]) (by rw [hs]) (by simp [ha]) (by simp [ha])
  obtain ⟨k1, k2⟩ := record_appends _ _ _ h1
  rw [hs] at k1 k2
  refine ⟨f, ds, ts, h1, k1, k2, h2, h3, h4, h5, ?_, ?_⟩
  · intro a hlt
    exact h6 a [0] (by rw [List.getElem?_map, List.getElem?_eq_getElem (by omega)]; rfl)
  · intro a hlt
    exact h7 a [0] (by rw [List.getElem?_map, List.getElem?_eq_getElem (by omega)]; rfl)

/-- **C82** Recording a rocket without actuators to record: times and states of the start and of every time step. -/
theorem record_uncontrolled (r0 : Craft) (rs : List Craft) (h0 : ∀ acts, r0.control ≠ some (some acts))
    (hrs : ∀ r ∈ rs, ∀ acts, r.control ≠ some (some acts)) :
    record (setUpCaching r0) rs = .ok
      ⟨r0.time :: rs.map Craft.time, r0.state :: rs.map Craft.state, none, none, none, none⟩ := by
  have hs : setUpCaching r0 = ⟨[r0.time], [r0.state], none, none, none, none⟩ := by
    unfold setUpCaching
    split
    · rename_i h; exact absurd h (h0 _)
    · rfl
  rw [hs]
  have gen : ∀ (rs : List Craft), (∀ r ∈ rs, ∀ acts, r.control ≠ some (some acts)) → ∀ ts ss,
      record ⟨ts, ss, none, none, none, none⟩ rs
        = .ok ⟨ts ++ rs.map Craft.time, ss ++ rs.map Craft.state, none, none, none, none⟩ := by
    intro rs
    induction rs with
    | nil => intro _ ts ss; simp [record]
    | cons r rs ih =>
      intro h ts ss
      have hc : cacheState ⟨ts, ss, none, none, none, none⟩ r = .ok ⟨ts ++ [r.time], ss ++ [r.state], none, none, none, none⟩ := by
        have hr := h r (by simp)
        unfold cacheState
        rcases hx : r.control with _ | _ | acts
        · rfl
        · rfl
        · exact absurd hx (hr acts)
      unfold record
      rw [hc]
      dsimp only
      rw [ih (fun r hr => h r (by simp [hr]))]
      simp
  exact gen rs hrs _ _

/-! ## Weights -/

theorem weights_inside (X : List ℝ) (x : ℝ) (i : Nat) (hs : X.Pairwise (· < ·)) (hi : i + 1 < X.length) (h1 : X[i] ≤ x)
    (h2 : x < X[i + 1]) :
    linInterpWeights X x = .ok ((i : Int), (X[i + 1] - x) / (X[i + 1] - X[i]), ((i + 1 : Nat) : Int),
      (x - X[i]) / (X[i + 1] - X[i])) := by
  have hb : bisect X x = i + 1 := by
    apply bisect_eq_of (strict_le hs) (by omega)
    · intro k hk hki
      exact le_trans ((strict_index hs hk (by omega)).2 (by omega)) h1
    · intro k hk hki
      exact lt_of_lt_of_le h2 ((strict_index hs hi hk).2 hki)
  have hd : X[i + 1] - X[i] ≠ 0 := by linarith
  unfold linInterpWeights
  rw [hb]
  dsimp only
  rw [if_neg (by omega), if_neg (by omega)]
  have e : (((i + 1 : Nat) : Int) - 1) = (i : Int) := by omega
  rw [e, pyGet_nat X (i + 1) hi, pyGet_nat X i (by omega)]
  dsimp only
  rw [if_neg hd]
  congr 3
  field_simp
  ring

theorem weights_after (X : List ℝ) (x : ℝ) (hs : X.Pairwise (· < ·)) (hn : X ≠ []) (h : X.getLast hn ≤ x) :
    linInterpWeights X x = .ok (0, 0, -1, 1) := by
  have hpos : 0 < X.length := List.length_pos_of_ne_nil hn
  have hb : bisect X x = X.length := by
    apply bisect_eq_of (strict_le hs) le_rfl
    · intro k hk _
      rw [List.getLast_eq_getElem] at h
      exact le_trans ((strict_index hs hk (by omega)).2 (by omega)) h
    · intro k hk hki; omega
  unfold linInterpWeights
  rw [hb]
  simp

theorem weights_before (X : List ℝ) (x : ℝ) (hs : X.Pairwise (· < ·)) (hn : X ≠ []) (h : x < X.head hn) :
    linInterpWeights X x = .ok (0, 1, 0, 0) := by
  have hpos : 0 < X.length := List.length_pos_of_ne_nil hn
  have hb : bisect X x = 0 := by
    apply bisect_eq_of (strict_le hs) (by omega)
    · intro k hk hki; omega
    · intro k hk _
      rw [List.head_eq_getElem] at h
      exact lt_of_lt_of_le h ((strict_index hs (by omega) hk).2 (by omega))
  unfold linInterpWeights
  rw [hb]
  dsimp only
  rw [if_neg (by omega), if_pos (by omega)]

/-! ## States shown -/

/-- The orientation of a 6-DoF state has norm 1 -/
def UnitBody : Body → Prop
  | .six s => Quat.Unit s.ori
  | .three _ => True

/-- Both states have 6 degrees of freedom, or both have 3 -/
def SameKind : Body → Body → Prop
  | .six _, .six _ => True
  | .three _, .three _ => True
  | _, _ => False

/-- A flight as recorded: later times are larger, one state and one deflection per time, unit orientations -/
structure Recorded (f : Flight) : Prop where
  ne : f.times ≠ []
  strict : f.times.Pairwise (· < ·)
  len : f.states.length = f.times.length
  unit : ∀ b ∈ f.states, UnitBody b
  defl : ∀ ds, f.defls = some ds → ∀ d ∈ ds, d.length = f.times.length

theorem between_same (a b : Body) (wa wb : ℝ) (h : SameKind a b) (ha : UnitBody a) (hb : UnitBody b) (h0 : 0 ≤ wa) :
    ∃ r, between a b wa wb = .ok r ∧ UnitBody r ∧ SameKind r a ∧ r.pos = wa • a.pos + (1 - wa) • b.pos ∧
      r.vel = wa • a.vel + (1 - wa) • b.vel := by
  match a, b, h with
  | .six s, .six s', _ =>
    obtain ⟨r, hr, h1, h2, _, hu, _⟩ := interpolate_states_partial s s' wa ha hb h0
    exact ⟨.six r, by unfold between; dsimp only; rw [hr], hu, trivial, h1, h2⟩
  | .three s, .three s', _ => exact ⟨_, rfl, trivial, trivial, rfl, rfl⟩

theorem between_mixed (a b : Body) (wa wb : ℝ) (h : ¬ SameKind a b) :
    between a b wa wb = .ok (if wa < wb then b else a) := by
  match a, b, h with
  | .six s, .six s', h => exact absurd trivial h
  | .three s, .three s', h => exact absurd trivial h
  | .six s, .three s', _ => rfl
  | .three s, .six s', _ => rfl

/-- **C82** Between two recorded times of the same kind of state, position and velocity are interpolated linearly. Between
a 6-DoF and a 3-DoF state, the recorded state nearer in time is shown, the earlier one if both are equally near. -/
theorem stateAt_inside (f : Flight) (hf : Recorded f) (t : ℝ) (i : Nat) (hi : i + 1 < f.times.length)
    (h1 : f.times[i] ≤ t) (h2 : t < f.times[i + 1]) :
    ∃ b, stateAt f t = .ok b ∧ UnitBody b ∧
      (SameKind (f.states[i]'(by have := hf.len; omega)) (f.states[i + 1]'(by have := hf.len; omega)) →
        b.pos = AffineMap.lineMap (f.states[i]'(by have := hf.len; omega)).pos (f.states[i + 1]'(by have := hf.len; omega)).pos
          ((t - f.times[i]) / (f.times[i + 1] - f.times[i])) ∧
        b.vel = AffineMap.lineMap (f.states[i]'(by have := hf.len; omega)).vel (f.states[i + 1]'(by have := hf.len; omega)).vel
          ((t - f.times[i]) / (f.times[i + 1] - f.times[i]))) ∧
      (¬ SameKind (f.states[i]'(by have := hf.len; omega)) (f.states[i + 1]'(by have := hf.len; omega)) →
        b = if t - f.times[i] ≤ f.times[i + 1] - t then (f.states[i]'(by have := hf.len; omega))
          else (f.states[i + 1]'(by have := hf.len; omega))) := by
  have hl := hf.len
  have hw := weights_inside f.times t i hf.strict hi h1 h2
  have hd : 0 < f.times[i + 1] - f.times[i] := by linarith
  have hu1 := hf.unit _ (List.getElem_mem (show i < f.states.length by omega))
  have hu2 := hf.unit _ (List.getElem_mem (show i + 1 < f.states.length by omega))
  unfold stateAt
  rw [hw]
  dsimp only
  rw [pyGet_nat f.states i (by omega), pyGet_nat f.states (i + 1) (by omega)]
  dsimp only
  generalize f.states[i]'(by omega) = a at hu1
  generalize f.states[i + 1]'(by omega) = b at hu2
  by_cases hk : SameKind a b
  · obtain ⟨r, hr, hu, _, hp, hv⟩ := between_same a b ((f.times[i + 1] - t) / (f.times[i + 1] - f.times[i]))
      ((t - f.times[i]) / (f.times[i + 1] - f.times[i])) hk hu1 hu2
      (div_nonneg (by linarith) hd.le)
    refine ⟨r, hr, hu, fun _ => ?_, fun h => absurd hk h⟩
    have e1 : (f.times[i + 1] - t) / (f.times[i + 1] - f.times[i]) = 1 - (t - f.times[i]) / (f.times[i + 1] - f.times[i]) := by
      field_simp; ring
    rw [hp, hv, e1]
    constructor <;> rw [AffineMap.lineMap_apply_module, sub_sub_cancel]
  · rw [between_mixed a b _ _ hk]
    have e : ((f.times[i + 1] - t) / (f.times[i + 1] - f.times[i]) < (t - f.times[i]) / (f.times[i + 1] - f.times[i])) ↔
        ¬ (t - f.times[i] ≤ f.times[i + 1] - t) := by
      rw [div_lt_div_iff_of_pos_right hd, not_le]
    refine ⟨_, rfl, ?_, fun h => absurd h hk, fun _ => ?_⟩
    · split
      · exact hu2
      · exact hu1
    · by_cases hc : t - f.times[i] ≤ f.times[i + 1] - t
      · rw [if_pos hc, if_neg (by rw [e]; exact fun h => h hc)]
      · rw [if_neg hc, if_pos (e.2 hc)]

/-- **C82** Before the first recorded time the first position and velocity are shown. -/
theorem stateAt_before (f : Flight) (hf : Recorded f) (t : ℝ) (h : t < f.times.head hf.ne) :
    ∃ a b, f.states.head? = some a ∧ stateAt f t = .ok b ∧ UnitBody b ∧ SameKind b a ∧ b.pos = a.pos ∧ b.vel = a.vel := by
  have hl := hf.len
  have hpos : 0 < f.times.length := List.length_pos_of_ne_nil hf.ne
  have hu1 := hf.unit _ (List.getElem_mem (show 0 < f.states.length by omega))
  have hp0 := pyGet_nat f.states 0 (by omega)
  have hk : SameKind (f.states[0]'(by omega)) (f.states[0]'(by omega)) := by
    cases f.states[0]'(by omega) <;> trivial
  obtain ⟨r, hr, hu, hk2, hp, hv⟩ := between_same _ _ 1 0 hk hu1 hu1 zero_le_one
  refine ⟨f.states[0]'(by omega), r, by rw [List.head?_eq_getElem?, List.getElem?_eq_getElem], ?_, hu, hk2, ?_, ?_⟩
  · unfold stateAt
    rw [weights_before f.times t hf.strict hf.ne h]
    dsimp only
    rw [show ((0 : Int)) = ((0 : Nat) : Int) from rfl, hp0]
    exact hr
  · rw [hp]; simp
  · rw [hv]; simp

/-- **C82** From the last recorded time on the last position and velocity are shown. -/
theorem stateAt_after (f : Flight) (hf : Recorded f) (t : ℝ) (h : f.times.getLast hf.ne ≤ t) :
    ∃ z b, f.states.getLast? = some z ∧ stateAt f t = .ok b ∧ UnitBody b ∧ SameKind b z ∧ b.pos = z.pos ∧ b.vel = z.vel := by
  have hl := hf.len
  have hpos : 0 < f.times.length := List.length_pos_of_ne_nil hf.ne
  have hne : f.states ≠ [] := by intro h; rw [h] at hl; simp at hl; omega
  have hu1 := hf.unit _ (List.getElem_mem (show 0 < f.states.length by omega))
  have hu2 := hf.unit _ (List.getLast_mem hne)
  have hp0 := pyGet_nat f.states 0 (by omega)
  have hst : ∀ r, between (f.states[0]'(by omega)) (f.states.getLast hne) 0 1 = r → stateAt f t = r := by
    intro r hr
    unfold stateAt
    rw [weights_after f.times t hf.strict hf.ne h]
    dsimp only
    rw [show ((0 : Int)) = ((0 : Nat) : Int) from rfl, hp0, pyGet_neg_one f.states hne]
    exact hr
  refine ⟨f.states.getLast hne, ?_⟩
  generalize f.states[0]'(by omega) = a at hst hu1
  have hz : f.states.getLast? = some (f.states.getLast hne) := List.getLast?_eq_some_getLast hne
  rw [hz]
  generalize f.states.getLast hne = z at hst hu2
  by_cases hk : SameKind a z
  · obtain ⟨r, hr, hu, hk2, hp, hv⟩ := between_same a z 0 1 hk hu1 hu2 le_rfl
    refine ⟨r, rfl, hst _ hr, hu, ?_, by rw [hp]; simp, by rw [hv]; simp⟩
    cases r <;> cases a <;> cases z <;> simp_all [SameKind]
  · refine ⟨z, rfl, hst _ (by rw [between_mixed _ _ _ _ hk, if_pos one_pos]), hu2, ?_, rfl, rfl⟩
    cases z <;> trivial

/-- **C82** Every time has a state to show. -/
theorem stateAt_total (f : Flight) (hf : Recorded f) (t : ℝ) : ∃ b, stateAt f t = .ok b ∧ UnitBody b := by
  have hl := hf.len
  have hpos : 0 < f.times.length := List.length_pos_of_ne_nil hf.ne
  by_cases h1 : t < f.times.head hf.ne
  · obtain ⟨_, b, _, h, hu, _⟩ := stateAt_before f hf t h1; exact ⟨b, h, hu⟩
  · by_cases h2 : f.times.getLast hf.ne ≤ t
    · obtain ⟨_, b, _, h, hu, _⟩ := stateAt_after f hf t h2; exact ⟨b, h, hu⟩
    · obtain ⟨hb, hiff, _⟩ := bisect_spec f.times t (strict_le hf.strict)
      rw [List.head_eq_getElem] at h1
      rw [List.getLast_eq_getElem] at h2
      have hb0 : 0 < bisect f.times t := (hiff 0 hpos).2 (not_lt.1 h1)
      have hb1 : bisect f.times t < f.times.length := by
        by_contra hc
        exact h2 ((hiff (f.times.length - 1) (by omega)).1 (by omega))
      obtain ⟨i, hi⟩ : ∃ i, bisect f.times t = i + 1 := ⟨bisect f.times t - 1, by omega⟩
      obtain ⟨b, h, hu, _⟩ := stateAt_inside f hf t i (by omega) ((hiff i (by omega)).1 (by omega))
        (by by_contra hc; have := (hiff (i + 1) (by omega)).2 (not_lt.1 hc); omega)
      exact ⟨b, h, hu⟩

/-- **C82** The deflection shown for an actuator is the linear interpolation of its recorded deflections. -/
theorem deflAt_spec (times d : List ℝ) (t : ℝ) (hs : times.Pairwise (· < ·)) (hn : times ≠ []) (hl : times.length = d.length) :
    ∃ y, deflAt times d t = .ok y ∧ linInterp times d t = .ok y := by
  obtain ⟨i, j, wi, wj, yi, yj, h1, _, _, _, h2, h3, h4⟩ := linInterpWeights_spec times d hs hn hl t
  refine ⟨_, ?_, h4⟩
  unfold deflAt
  rw [h1]
  dsimp only
  rw [h2, h3]
  simp [mul_comm]


/-! ## Resampling -/

/-- `T` is the latest of the flights' final times, or 0 if there is no positive one -/
def Latest (flights : List Flight) (T : ℝ) : Prop :=
  (∀ f ∈ flights, ∃ t, f.times.getLast? = some t ∧ t ≤ T) ∧ 0 ≤ T ∧
    (T = 0 ∨ ∃ f ∈ flights, f.times.getLast? = some T)

/-- What one flight becomes when shown at the times `ts` -/
def ShownAt (ts : List ℝ) (f g : Flight) : Prop :=
  g.times = ts ∧ List.Forall₂ (fun t b => stateAt f t = .ok b) ts g.states ∧
  (f.defls = none → g.defls = none) ∧
  (∀ ds, f.defls = some ds → ∃ ds', g.defls = some ds' ∧
    List.Forall₂ (fun d d' => List.Forall₂ (fun t y => deflAt f.times d t = .ok y) ts d') ds ds') ∧
  g.targets = f.targets ∧ g.engineOff = f.engineOff ∧ g.chute = f.chute

theorem maxTime_gen (flights : List Flight) (m T : ℝ) :
    (flights.foldlM (fun m f =>
      match pyGet f.times (-1) with
      | .error e => .error e
      | .ok t => .ok (if m < t then t else m)) m : Except PyErr ℝ) = .ok T ↔
    (∀ f ∈ flights, ∃ t, f.times.getLast? = some t ∧ t ≤ T) ∧ m ≤ T ∧
      (T = m ∨ ∃ f ∈ flights, f.times.getLast? = some T) := by
  induction flights generalizing m with
  | nil =>
    simp only [List.foldlM_nil, pure, Except.pure, Except.ok.injEq]
    constructor
    · rintro rfl; simp
    · rintro ⟨_, _, h | ⟨f, h, _⟩⟩
      · exact h.symm
      · cases h
  | cons f fs ih =>
    rw [List.foldlM_cons]
    by_cases hne : f.times = []
    · have hp : pyGet f.times (-1) = .error .indexError := by rw [hne]; rfl
      rw [hp]
      constructor
      · intro h; cases h
      · rintro ⟨h, _⟩
        obtain ⟨t, ht, _⟩ := h f (by simp)
        rw [hne] at ht; cases ht
    · rw [pyGet_neg_one f.times hne]
      have hlast : f.times.getLast? = some (f.times.getLast hne) := List.getLast?_eq_some_getLast hne
      simp only [bind, Except.bind]
      rw [ih]
      generalize f.times.getLast hne = t at hlast
      constructor
      · rintro ⟨h1, h2, h3⟩
        have ht : t ≤ T ∧ m ≤ T := by
          split at h2
          · exact ⟨h2, by linarith⟩
          · exact ⟨by linarith, h2⟩
        refine ⟨?_, ht.2, ?_⟩
        · intro g hg
          rcases List.mem_cons.1 hg with rfl | hg
          · exact ⟨t, hlast, ht.1⟩
          · exact h1 g hg
        · rcases h3 with h3 | ⟨g, hg, h3⟩
          · split at h3
            · right; exact ⟨f, by simp, by rw [hlast, h3]⟩
            · left; exact h3
          · right; exact ⟨g, by simp [hg], h3⟩
      · rintro ⟨h1, h2, h3⟩
        obtain ⟨t', ht', hle⟩ := h1 f (by simp)
        rw [hlast] at ht'; cases ht'
        refine ⟨fun g hg => h1 g (by simp [hg]), by split <;> assumption, ?_⟩
        rcases h3 with h3 | ⟨g, hg, h3⟩
        · left
          subst h3
          rw [if_neg (by linarith)]
        · rcases List.mem_cons.1 hg with rfl | hg
          · rw [hlast] at h3
            cases h3
            left
            split
            · rfl
            · linarith
          · right; exact ⟨g, hg, h3⟩

/-- **C82** The time shown last is the latest final time of all flights. -/
theorem maxTime_spec (flights : List Flight) (T : ℝ) : maxTime flights = .ok T ↔ Latest flights T := by
  unfold maxTime Latest
  exact maxTime_gen flights 0 T

theorem resample_ok_iff (ts : List ℝ) (f g : Flight) : resample ts f = .ok g ↔ ShownAt ts f g := by
  unfold resample ShownAt
  constructor
  · intro h
    cases hs : ts.mapM (stateAt f) with
    | error e => rw [hs] at h; cases h
    | ok states =>
      rw [hs] at h
      have hs' := (Run.Opt.mapM_ok_iff _ _ _).1 hs
      dsimp only at h
      cases hd : f.defls with
      | none =>
        rw [hd] at h
        cases h
        exact ⟨rfl, hs', fun _ => rfl, fun ds h => (nomatch h), rfl, rfl, rfl⟩
      | some ds =>
        rw [hd] at h
        dsimp only at h
        cases hm : ds.mapM (fun d => ts.mapM (deflAt f.times d)) with
        | error e => rw [hm] at h; cases h
        | ok ds' =>
          rw [hm] at h
          cases h
          refine ⟨rfl, hs', fun h => (nomatch h), ?_, rfl, rfl, rfl⟩
          intro ds0 h0
          cases h0
          exact ⟨ds', rfl, ((Run.Opt.mapM_ok_iff _ _ _).1 hm).imp (fun d d' h => (Run.Opt.mapM_ok_iff _ _ _).1 h)⟩
  · rintro ⟨h1, h2, h3, h4, h5, h6, h7⟩
    rw [(Run.Opt.mapM_ok_iff _ _ _).2 h2]
    dsimp only
    obtain ⟨gt, gs, gd, gta, ge, gc⟩ := g
    cases hd : f.defls with
    | none =>
      dsimp only
      have := h3 hd
      simp only at h1 h2 h5 h6 h7 this
      subst h1 h5 h6 h7 this
      rw [← hd]
    | some ds =>
      dsimp only
      obtain ⟨ds', k1, k2⟩ := h4 ds hd
      have : ds.mapM (fun d => ts.mapM (deflAt f.times d)) = .ok ds' :=
        (Run.Opt.mapM_ok_iff _ _ _).2 (k2.imp (fun d d' h => (Run.Opt.mapM_ok_iff _ _ _).2 h))
      rw [this]
      simp only at h1 h2 h5 h6 h7 k1
      subst h1 h5 h6 h7 k1
      rfl

/-- **C82** Keeping `n` frames: every flight is shown at the same `n` equally spaced times, from 0 to the latest final time of
all flights. -/
theorem keepN_ok_iff (n : Nat) (flights out : List Flight) :
    keepN n flights = .ok out ↔ flights ≠ [] ∧ ∃ T, Latest flights T ∧
      List.Forall₂ (ShownAt ((List.range n).map (fun i : ℕ => (i : ℝ) * (T / ((n : ℝ) - 1))))) flights out := by
  unfold keepN
  cases flights with
  | nil => simp
  | cons f fs =>
    simp only [ne_eq, reduceCtorEq, not_false_eq_true, true_and]
    have hl : ∀ T : ℝ, linspace 0 T n = (List.range n).map (fun i : ℕ => (i : ℝ) * (T / ((n : ℝ) - 1))) := by
      intro T; unfold linspace; simp
    cases hT : maxTime (f :: fs) with
    | error e =>
      constructor
      · intro h; cases h
      · rintro ⟨T, hT', _⟩; rw [(maxTime_spec _ _).2 hT'] at hT; cases hT
    | ok T =>
      dsimp only
      rw [Run.Opt.mapM_ok_iff, hl]
      constructor
      · intro h
        exact ⟨T, (maxTime_spec _ _).1 hT, h.imp (fun a b h => (resample_ok_iff _ a b).1 h)⟩
      · rintro ⟨T', hT', h⟩
        rw [(maxTime_spec _ _).2 hT'] at hT
        cases hT
        exact h.imp (fun a b h => (resample_ok_iff _ a b).2 h)

theorem forall2_exists {α β : Type} {R : α → β → Prop} (l : List α) (h : ∀ a ∈ l, ∃ b, R a b) :
    ∃ r, List.Forall₂ R l r := by
  induction l with
  | nil => exact ⟨[], .nil⟩
  | cons a l ih =>
    obtain ⟨b, hb⟩ := h a (by simp)
    obtain ⟨r, hr⟩ := ih (fun a ha => h a (by simp [ha]))
    exact ⟨b :: r, .cons hb hr⟩

theorem latest_exists (flights : List Flight) (h : ∀ f ∈ flights, f.times ≠ []) : ∃ T, Latest flights T := by
  have gen : ∀ (l : List Flight), (∀ f ∈ l, f.times ≠ []) → ∀ m : ℝ, ∃ T, (l.foldlM (fun m f =>
      match pyGet f.times (-1) with
      | .error e => .error e
      | .ok t => .ok (if m < t then t else m)) m : Except PyErr ℝ) = .ok T := by
    intro l
    induction l with
    | nil => intro _ m; exact ⟨m, rfl⟩
    | cons f fs ih =>
      intro h m
      rw [List.foldlM_cons, pyGet_neg_one f.times (h f (by simp))]
      exact ih (fun g hg => h g (by simp [hg])) _
  obtain ⟨T, hT⟩ := gen flights h 0
  exact ⟨T, (maxTime_spec flights T).1 hT⟩

theorem shownAt_exists (ts : List ℝ) (f : Flight) (hf : Recorded f) : ∃ g, ShownAt ts f g := by
  obtain ⟨ss, hss⟩ := forall2_exists (R := fun t b => stateAt f t = .ok b) ts
    (fun t _ => by obtain ⟨b, hb, _⟩ := stateAt_total f hf t; exact ⟨b, hb⟩)
  cases hd : f.defls with
  | none => exact ⟨⟨ts, ss, none, f.targets, f.engineOff, f.chute⟩, rfl, hss, fun _ => rfl, fun ds h => (by rw [hd] at h; cases h),
      rfl, rfl, rfl⟩
  | some ds =>
    obtain ⟨ds', hds⟩ := forall2_exists (R := fun d d' => List.Forall₂ (fun t y => deflAt f.times d t = .ok y) ts d') ds
      (fun d hdm => forall2_exists ts (fun t _ => by
        obtain ⟨y, hy, _⟩ := deflAt_spec f.times d t hf.strict hf.ne (hf.defl ds hd d hdm).symm
        exact ⟨y, hy⟩))
    refine ⟨⟨ts, ss, some ds', f.targets, f.engineOff, f.chute⟩, rfl, hss, fun h => (by rw [hd] at h; cases h), ?_, rfl, rfl, rfl⟩
    intro ds0 h0
    rw [hd] at h0
    cases h0
    exact ⟨ds', rfl, hds⟩

/-- **C82** Flights as recorded can always be resampled: `n` frames each. -/
theorem keepN_total (n : Nat) (flights : List Flight) (hne : flights ≠ []) (h : ∀ f ∈ flights, Recorded f) :
    ∃ out, keepN n flights = .ok out ∧ out.length = flights.length ∧
      ∀ g ∈ out, g.times.length = n ∧ g.states.length = n := by
  obtain ⟨T, hT⟩ := latest_exists flights (fun f hf => (h f hf).ne)
  obtain ⟨out, ho⟩ := forall2_exists (R := ShownAt ((List.range n).map (fun i : ℕ => (i : ℝ) * (T / ((n : ℝ) - 1))))) flights
    (fun f hf => shownAt_exists _ f (h f hf))
  refine ⟨out, (keepN_ok_iff _ _ _).2 ⟨hne, T, hT, ho⟩, ho.length_eq.symm, ?_⟩
  clear hT hne
  induction ho with
  | nil => intro g hg; cases hg
  | @cons f g fs gs hfg _ ih =>
    intro g' hg'
    rcases List.mem_cons.1 hg' with rfl | hg'
    · obtain ⟨h1, h2, _⟩ := hfg
      constructor
      · rw [h1]; simp
      · rw [← h2.length_eq]; simp
    · exact ih (fun f hf => h f (by simp [hf])) g' hg'

end Mapleaf.Replay
