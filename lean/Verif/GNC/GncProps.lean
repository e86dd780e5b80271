import Verif.GNC.GncModel
import Verif.Motion.IntegModel
import Mathlib.Analysis.SpecialFunctions.ExpDeriv
import Mathlib.Tactic.FieldSimp
import Mathlib.Tactic.Linarith
import Mathlib.Tactic.Ring
import Mathlib.Tactic.Positivity
import Mathlib.Tactic.NormNum

/-! # C33 PID, C34 actuators, C35 control loop -/

set_option linter.unusedSectionVars false

namespace Mapleaf.GNC

open Mapleaf

section pid
variable {K : Type} [Field K] [LinearOrder K] [IsStrictOrderedRing K]

/-- Limiting is the projection onto `[-m, m]`. -/
theorem cap_spec (m x : K) (hm : 0 ≤ m) : PID.cap (some m) x = max (-m) (min m x) := by
  unfold PID.cap
  dsimp only
  split
  · rename_i h
    rcases le_total 0 x with hx | hx
    · rw [abs_of_nonneg hx] at h ⊢
      have hx0 : x ≠ 0 := by rintro rfl; linarith
      rw [min_eq_left h.le, max_eq_right (by linarith)]
      field_simp
    · rw [abs_of_nonpos hx] at h ⊢
      have hx0 : x ≠ 0 := by rintro rfl; simp at h; linarith
      rw [min_eq_right (by linarith), max_eq_left (by linarith)]
      field_simp
  · rename_i h
    rw [not_lt, abs_le] at h
    rw [min_eq_right h.2, max_eq_right h.1]

theorem cap_le (m x : K) (hm : 0 ≤ m) : |PID.cap (some m) x| ≤ m := by
  rw [cap_spec m x hm, abs_le]
  exact ⟨le_max_left _ _, max_le (by linarith) (min_le_left _ _)⟩

/-- **C33.** One update: the output is the PID formula, the integral is the trapezoidal integral limited to the
configured magnitude, and the new error is remembered. -/
theorem step_spec (c : PID K) (e dt : K) (hdt : dt ≠ 0) (hlim : ∀ m, c.limit = some m → 0 ≤ m) :
    ∃ u c', c.step e dt = .ok (u, c') ∧ u = c.P * e + c.I * c'.integral + c.D * ((e - c.lastError) / dt) ∧
      c'.lastError = e ∧ c'.P = c.P ∧ c'.I = c.I ∧ c'.D = c.D ∧ c'.limit = c.limit ∧
      (c.limit = none → c'.integral = c.integral + dt * ((e + c.lastError) / 2)) ∧
      (∀ m, c.limit = some m → c'.integral = max (-m) (min m (c.integral + dt * ((e + c.lastError) / 2)))) := by
  unfold PID.step
  rw [if_neg hdt]
  have e1 : (e + c.lastError) * dt / 2 = dt * ((e + c.lastError) / 2) := by ring
  refine ⟨_, _, rfl, rfl, rfl, rfl, rfl, rfl, rfl, ?_, ?_⟩
  · intro h; dsimp only; rw [h, e1]; rfl
  · intro m h; dsimp only; rw [h, cap_spec m _ (hlim m h), e1]

/-- A zero time step raises and a non-zero one never does. -/
theorem step_zero (c : PID K) (e : K) : c.step e 0 = .error .zeroDivision := by
  unfold PID.step; rw [if_pos rfl]

/-- The integral respects the configured limit. -/
def Bounded (c : PID K) : Prop := ∀ m, c.limit = some m → 0 ≤ m ∧ |c.integral| ≤ m

theorem make_bounded (P I D e : K) (m : Option K) : Bounded (PID.make P I D e m) := by
  intro l hl
  unfold PID.make at hl ⊢
  dsimp only at hl ⊢
  cases m with
  | none => cases hl
  | some x =>
    injection hl with hl
    subst hl
    simp

/-- A gain change keeps the bound if the (new) limit is not below the present integral, in particular if the same limit is
passed again. -/
def KeepsLimit (c : PID K) : PidOp K → Prop
  | .gains _ _ _ m => m.map abs = c.limit
  | _ => True

theorem apply_bounded (c : PID K) (o : PidOp K) (hb : Bounded c) (hk : KeepsLimit c o) (u : Option K) (c' : PID K)
    (h : o.apply c = .ok (u, c')) : Bounded c' ∧ c'.limit = c.limit := by
  cases o with
  | step e dt =>
    by_cases hdt : dt = 0
    · subst hdt; simp only [PidOp.apply, step_zero] at h; cases h
    · obtain ⟨v, d, h1, _, _, _, _, _, h7, h8, h9⟩ := step_spec c e dt hdt (fun m hm => (hb m hm).1)
      simp only [PidOp.apply, h1] at h
      injection h with h
      injection h with _ h
      subst h
      refine ⟨?_, h7⟩
      intro m hm
      rw [h7] at hm
      have hm0 := (hb m hm).1
      refine ⟨hm0, ?_⟩
      rw [h9 m hm, ← cap_spec m _ hm0]
      exact cap_le m _ hm0
  | gains P I D m =>
    unfold PidOp.apply at h
    injection h with h
    injection h with _ h
    subst h
    have hl : (c.updateCoefficients P I D m).limit = c.limit := hk
    refine ⟨?_, hl⟩
    intro l hl'
    rw [hl] at hl'
    exact hb l hl'
  | reset =>
    unfold PidOp.apply at h
    injection h with h
    injection h with _ h
    subst h
    refine ⟨?_, rfl⟩
    intro m hm
    refine ⟨(hb m hm).1, ?_⟩
    show |c.lastError * 0| ≤ m
    simpa using (hb m hm).1

/-- All gain changes of a history pass the limit `m` again. -/
def PassesLimit (m : K) (o : PidOp K) : Prop := ∀ P I D l, o = .gains P I D l → l.map abs = some |m|

/-- **C33.** After every history of updates, resets and gain changes (that pass the limit again) the integral is at most
the configured limit, so the integral contribution to an output is at most `|I|` times the limit. -/
theorem integral_bounded (c : PID K) (m : K) (hb : Bounded c) (hm : c.limit = some |m|) (ops : List (PidOp K))
    (hops : ∀ o ∈ ops, PassesLimit m o) (us : List (Option K)) (c' : PID K) (h : runPid c ops = .ok (us, c')) :
    |c'.integral| ≤ |m| ∧ |c'.I * c'.integral| ≤ |c'.I| * |m| := by
  have main : Bounded c' ∧ c'.limit = some |m| := by
    induction ops generalizing c us with
    | nil => unfold runPid at h; injection h with h; injection h with _ h; subst h; exact ⟨hb, hm⟩
    | cons o os ih =>
      unfold runPid at h
      cases h1 : o.apply c with
      | error e => rw [h1] at h; cases h
      | ok r =>
        obtain ⟨u, c1⟩ := r
        rw [h1] at h
        dsimp only at h
        cases h2 : runPid c1 os with
        | error e => rw [h2] at h; cases h
        | ok r2 =>
          obtain ⟨us', c2⟩ := r2
          rw [h2] at h
          injection h with h
          injection h with _ h
          subst h
          have hk : KeepsLimit c o := by
            cases o with
            | gains P I D l => show l.map abs = c.limit; rw [hm]; exact hops _ (by simp) P I D l rfl
            | step _ _ => trivial
            | reset => trivial
          obtain ⟨hb1, hl1⟩ := apply_bounded c o hb hk u c1 h1
          exact ih c1 hb1 (hl1.trans hm) (fun o ho => hops o (List.mem_cons_of_mem _ ho)) us' h2
  have h1 := (main.1 _ main.2).2
  refine ⟨h1, ?_⟩
  rw [abs_mul]
  exact mul_le_mul_of_nonneg_left h1 (abs_nonneg _)

/-- The trapezoidal integral of a sampled error history. -/
def trapezoid (e0 : K) : List (K × K) → K
  | [] => 0
  | (e, dt) :: hs => dt * ((e + e0) / 2) + trapezoid e hs

def lastErr (e0 : K) : List (K × K) → K
  | [] => e0
  | (e, _) :: hs => lastErr e hs

/-- **C33.** Without a limit the integral is the trapezoidal integral of the whole history, and each output is the PID
formula of present error, accumulated integral and last slope. -/
theorem unlimited_history (c : PID K) (hc : c.limit = none) (hs : List (K × K)) (hdt : ∀ h ∈ hs, h.2 ≠ 0) (e dt : K) (hd : dt ≠ 0) :
    ∃ us c', runPid c (hs.map (fun h => .step h.1 h.2) ++ [.step e dt]) =
        .ok (us ++ [some (c.P * e + c.I * (c.integral + trapezoid c.lastError (hs ++ [(e, dt)])) +
          c.D * ((e - lastErr c.lastError hs) / dt))], c') ∧
      us.length = hs.length ∧ c'.integral = c.integral + trapezoid c.lastError (hs ++ [(e, dt)]) := by
  induction hs generalizing c with
  | nil =>
    obtain ⟨u, c', h1, h2, _, _, _, _, _, h8, _⟩ := step_spec c e dt hd (fun m hm => by rw [hc] at hm; cases hm)
    refine ⟨[], c', ?_, rfl, ?_⟩
    · simp only [List.map_nil, List.nil_append, runPid, PidOp.apply, h1, trapezoid, lastErr]
      rw [h2, h8 hc, add_zero]
    · simp only [List.nil_append, trapezoid, add_zero]; exact h8 hc
  | cons h hs ih =>
    obtain ⟨e1, d1⟩ := h
    obtain ⟨u, c1, h1, _, h3, h4, h5, h6, h7, h8, _⟩ :=
      step_spec c e1 d1 (hdt (e1, d1) (by simp)) (fun m hm => by rw [hc] at hm; cases hm)
    obtain ⟨us, c', g1, g2, g3⟩ := ih c1 (h7.trans hc) (fun h hh => hdt h (List.mem_cons_of_mem _ hh))
    refine ⟨some u :: us, c', ?_, by simp [g2], ?_⟩
    · simp only [List.map_cons, List.cons_append, runPid, PidOp.apply, h1]
      rw [g1]
      simp only [trapezoid, lastErr, h3, h4, h5, h6, h8 hc, add_assoc c.integral]
    · rw [g3, h3, h8 hc]
      simp only [List.cons_append, trapezoid]
      ring

theorem trapezoid_const (e : K) (dts : List K) : trapezoid e (dts.map (fun d => (e, d))) = e * dts.sum := by
  induction dts with
  | nil => simp [trapezoid]
  | cons d ds ih => simp only [List.map_cons, trapezoid, List.sum_cons, ih]; ring

theorem lastErr_const (e : K) (dts : List K) : lastErr e (dts.map (fun d => (e, d))) = e := by
  induction dts with
  | nil => rfl
  | cons d ds ih => exact ih

/-- **C33.** A constant error (equal to the initial error): every output is `P e + I e T`, with `T` the elapsed time. -/
theorem constant_error (P I D e : K) (dts : List K) (hdts : ∀ d ∈ dts, d ≠ 0) (dt : K) (hd : dt ≠ 0) :
    ∃ us c', runPid (PID.make P I D e none) ((dts ++ [dt]).map (fun d => .step e d)) =
        .ok (us ++ [some (P * e + I * (e * (dts ++ [dt]).sum))], c') ∧ us.length = dts.length := by
  obtain ⟨us, c', h1, h2, _⟩ := unlimited_history (PID.make P I D e none) rfl (dts.map (fun d => (e, d)))
    (by intro h hh; obtain ⟨d, hd', rfl⟩ := List.mem_map.1 hh; exact hdts d hd') e dt hd
  refine ⟨us, c', ?_, by simpa using h2⟩
  have e1 : dts.map (fun d => (e, d)) ++ [(e, dt)] = (dts ++ [dt]).map (fun d => (e, d)) := by simp
  have e2 : lastErr e (dts.map (fun d => (e, d))) = e := lastErr_const e dts
  have e3 : (PID.make P I D e none).lastError = e := rfl
  rw [e1, e3, e2, trapezoid_const, List.map_map] at h1
  simp only [List.map_append, List.map_cons, List.map_nil]
  rw [show (List.map (fun d => PidOp.step e d) dts) = List.map ((fun h : K × K => PidOp.step h.1 h.2) ∘ fun d => (e, d)) dts from rfl, h1]
  simp [PID.make]

/-- **C33 violated.** Taking gains from a gain table drops the limit. -/
theorem gainTable_drops_limit (c : PID K) (g : K × K × K) : (c.updateFromGainTable g).limit = none := rfl

/-- **C33 violated.** Limit 1, error 10 for one second: the integral is limited to 1. After gains are read from the gain
table the next update lets the integral grow to 11. -/
theorem gainTable_limit_violated :
    ∃ u c u' c', (PID.make (1 : ℚ) 1 0 10 (some 1)).step 10 1 = .ok (u, c) ∧ c.integral = 1 ∧
      (c.updateFromGainTable (1, 1, 0)).step 10 1 = .ok (u', c') ∧ c'.integral = 11 := by
  exact ⟨11, ⟨1, 1, 0, 10, 1, some 1⟩, 21, ⟨1, 1, 0, 10, 11, none⟩, by decide +kernel, rfl, by decide +kernel, rfl⟩

/-- **C22 violated.** PID step-size control with the default gains (-0.01, -0.001, 0): after a step with tiny error the
factor can exceed 1 although the error is above the target. -/
theorem pid_grows_above_target_violated :
    ∃ f1 c1 f2 c2, pidFactor (PID.make (-1/100 : ℚ) (-1/1000) 0 0 (some 1)) 1 0 30 = .ok (f1, c1) ∧
      pidFactor c1 1 (101/100) (1/100) = .ok (f2, c2) ∧ (101/100 : ℚ) > 1 ∧ f2 > 1 := by
  have h1 : (pidFactor (PID.make (-1/100 : ℚ) (-1/1000) 0 0 (some 1)) 1 0 30) = .ok (1011/1000, ⟨-1/100, -1/1000, 0, -1, -1, some 1⟩) := by
    decide +kernel
  have h2 : ∃ x : ℚ × PID ℚ, pidFactor (⟨-1/100, -1/1000, 0, -1, -1, some 1⟩ : PID ℚ) 1 (101/100) (1/100) = .ok x ∧ x.1 > 1 := by
    refine ⟨(1 + (-1/100 * (1/100) + -1/1000 * (-1) + 0), ⟨-1/100, -1/1000, 0, 1/100, -1, some 1⟩), by decide +kernel, by norm_num⟩
  obtain ⟨⟨f2, c2⟩, h2, h3⟩ := h2
  exact ⟨_, _, f2, c2, h1, h2, by norm_num, h3⟩

/-- **C22** Proportional step-size control: the factor depends on the ratio of error to target only, and with a negative
gain the step grows exactly when the error is below the target. -/
theorem pid_proportional (P lastError integral target err dt : K) (limit : Option K) (ht : 0 < target) (hdt : dt ≠ 0) :
    ∃ f c', pidFactor ⟨P, 0, 0, lastError, integral, limit⟩ target err dt = .ok (f, c') ∧
      f = 1 + P * min 1 (err / target - 1) ∧ (P < 0 → (1 < f ↔ err < target)) := by
  have hr : (err - target) / target = err / target - 1 := by rw [sub_div, div_self ht.ne']
  refine ⟨_, _, by simp only [pidFactor, PID.step, if_neg ht.ne', if_neg hdt]; rfl, ?_, ?_⟩
  · simp only [hr]; ring
  · intro hP
    simp only [hr, zero_mul, add_zero]
    have h1 : err / target - 1 < 0 ↔ err < target := by
      rw [sub_neg, div_lt_one ht]
    rw [← h1]
    constructor
    · intro h
      have h2 : 0 < P * min 1 (err / target - 1) := by linarith
      have h3 := neg_of_mul_pos_right h2 hP.le
      rcases min_lt_iff.1 h3 with h | h
      · linarith
      · exact h
    · intro h
      have h3 : min 1 (err / target - 1) < 0 := min_lt_iff.2 (Or.inr h)
      have := mul_pos_of_neg_of_neg hP h3
      linarith

/-- Vector controllers act element by element. -/
theorem vecStep_spec (cs : List (PID K)) (es : List K) (dt : K) (rs : List (K × PID K)) :
    vecStep cs es dt = .ok rs ↔ List.Forall₂ (fun ce r => PID.step ce.1 ce.2 dt = .ok r) (cs.zip es) rs ∧ cs.length = es.length := by
  induction cs generalizing es rs with
  | nil =>
    cases es with
    | nil =>
      simp only [vecStep, List.zip_nil_left, List.length_nil, and_true]
      constructor
      · intro h; injection h with h; subst h; exact List.Forall₂.nil
      · intro h; cases h; rfl
    | cons _ _ => simp [vecStep]
  | cons c cs ih =>
    cases es with
    | nil => simp [vecStep]
    | cons e es =>
      simp only [vecStep, List.zip_cons_cons, List.length_cons, Nat.add_right_cancel_iff]
      cases h1 : c.step e dt with
      | error err =>
        constructor
        · intro h; cases h
        · rintro ⟨h, _⟩; cases h with | cons hh _ => dsimp only at hh; rw [h1] at hh; cases hh
      | ok r =>
        cases h2 : vecStep cs es dt with
        | error err =>
          constructor
          · intro h; cases h
          · rintro ⟨h, hl⟩
            cases h with
            | cons hh ht => have := (ih es _).2 ⟨ht, hl⟩; rw [h2] at this; cases this
        | ok rs' =>
          constructor
          · intro h
            injection h with h
            subst h
            have := (ih es rs').1 h2
            exact ⟨List.Forall₂.cons h1 this.1, this.2⟩
          · rintro ⟨h, hl⟩
            cases h with
            | cons hh ht =>
              dsimp only at hh
              rw [h1] at hh
              injection hh with hh
              have := (ih es _).2 ⟨ht, hl⟩
              rw [h2] at this
              injection this with this
              rw [hh, this]

end pid

/-! ## C34 -/

theorem getPosition_ok (τ t t0 p x : ℝ) (hτ : τ ≠ 0) (ht : t0 ≤ t) :
    getPosition τ t t0 p x = .ok (p + (x - p) * (1 - Real.exp (-(t - t0) / τ))) := by
  unfold getPosition
  dsimp only
  rw [if_neg (by have : (0 : ℝ) < 1 / 10 ^ 17 := by positivity
                 linarith), if_neg hτ, if_neg (by linarith)]

/-- **C34.** The deflection follows the first-order law: it starts at the last deflection and its rate is the distance to
the target divided by the response time. -/
theorem deflection_law (τ t0 p x : ℝ) (hτ : τ ≠ 0) :
    ∃ y : ℝ → ℝ, (∀ t ≥ t0, getPosition τ t t0 p x = .ok (y t)) ∧ y t0 = p ∧
      ∀ t, HasDerivAt y ((x - y t) / τ) t := by
  refine ⟨fun t => p + (x - p) * (1 - Real.exp (-(t - t0) / τ)), fun t ht => getPosition_ok τ t t0 p x hτ ht, by simp, ?_⟩
  intro t
  have h1 : HasDerivAt (fun t => -(t - t0) / τ) (-1 / τ) t := (((hasDerivAt_id t).sub_const t0).neg).div_const τ
  have h2 := ((h1.exp.const_sub 1).const_mul (x - p)).const_add p
  refine h2.congr_deriv ?_
  field_simp
  ring

/-- **C34.** Queries before the last command raise (beyond 1e-17). -/
theorem past_refused (τ t t0 p x : ℝ) (ht : t - t0 < -(1 / 10 ^ 17)) : getPosition τ t t0 p x = .error .valueError := by
  unfold getPosition; dsimp only; rw [if_pos ht]

theorem exp_fraction (τ d : ℝ) (hτ : 0 < τ) (hd : 0 ≤ d) : 0 ≤ 1 - Real.exp (-d / τ) ∧ 1 - Real.exp (-d / τ) < 1 := by
  constructor
  · have : Real.exp (-d / τ) ≤ 1 := Real.exp_le_one_iff.2 (div_nonpos_of_nonpos_of_nonneg (by linarith) hτ.le)
    linarith
  · have := Real.exp_pos (-d / τ); linarith

/-- **C34.** Between commands the deflection moves monotonically towards the target and never passes it. -/
theorem deflection_monotone (a : Actuator) (hτ : 0 < a.τ) (t1 t2 : ℝ) (h1 : a.lastTime ≤ t1) (h2 : t1 ≤ t2) :
    ∃ d1 d2, a.deflection t1 = .ok d1 ∧ a.deflection t2 = .ok d2 ∧
      ((a.last ≤ a.target → a.last ≤ d1 ∧ d1 ≤ d2 ∧ d2 ≤ a.target) ∧ (a.target ≤ a.last → a.target ≤ d2 ∧ d2 ≤ d1 ∧ d1 ≤ a.last)) := by
  have e1 := getPosition_ok a.τ t1 a.lastTime a.last a.target hτ.ne' h1
  have e2 := getPosition_ok a.τ t2 a.lastTime a.last a.target hτ.ne' (h1.trans h2)
  refine ⟨_, _, e1, e2, ?_⟩
  obtain ⟨g1, g2⟩ := exp_fraction a.τ (t1 - a.lastTime) hτ (by linarith)
  obtain ⟨g3, g4⟩ := exp_fraction a.τ (t2 - a.lastTime) hτ (by linarith)
  have g5 : 1 - Real.exp (-(t1 - a.lastTime) / a.τ) ≤ 1 - Real.exp (-(t2 - a.lastTime) / a.τ) := by
    have : Real.exp (-(t2 - a.lastTime) / a.τ) ≤ Real.exp (-(t1 - a.lastTime) / a.τ) := by
      apply Real.exp_le_exp.2
      apply div_le_div_of_nonneg_right _ hτ.le
      linarith
    linarith
  set f1 := 1 - Real.exp (-(t1 - a.lastTime) / a.τ)
  set f2 := 1 - Real.exp (-(t2 - a.lastTime) / a.τ)
  constructor
  · intro h
    have hp : 0 ≤ a.target - a.last := by linarith
    refine ⟨by have := mul_nonneg hp g1; linarith, by have := mul_le_mul_of_nonneg_left g5 hp; linarith, ?_⟩
    have := mul_le_mul_of_nonneg_left g4.le hp; linarith
  · intro h
    have hp : 0 ≤ a.last - a.target := by linarith
    have e : ∀ f, (a.target - a.last) * f = -((a.last - a.target) * f) := fun f => by ring
    rw [e, e]
    refine ⟨by have := mul_le_mul_of_nonneg_left g4.le hp; linarith, by have := mul_le_mul_of_nonneg_left g5 hp; linarith, ?_⟩
    have := mul_nonneg hp g1; linarith

/-- **C34.** Commanding the present (admissible) target again at any time, or in between, does not change later
deflections: the result does not depend on how often the actuator is touched. -/
theorem recommand_transparent (a : Actuator) (hτ : 0 < a.τ) (t1 t2 : ℝ) (h1 : a.lastTime ≤ t1) (h2 : t1 ≤ t2)
    (hx : limitTarget a.maxD a.minD a.target = a.target) :
    ∃ a', a.setTarget a.target t1 = .ok a' ∧ a'.deflection t2 = a.deflection t2 := by
  have e1 : a.deflection t1 = _ := getPosition_ok a.τ t1 a.lastTime a.last a.target hτ.ne' h1
  refine ⟨_, by unfold Actuator.setTarget; rw [e1], ?_⟩
  unfold Actuator.deflection
  dsimp only
  rw [hx, getPosition_ok _ _ _ _ _ hτ.ne' h2, getPosition_ok _ _ _ _ _ hτ.ne' (h1.trans h2)]
  have : Real.exp (-(t2 - a.lastTime) / a.τ) = Real.exp (-(t1 - a.lastTime) / a.τ) * Real.exp (-(t2 - t1) / a.τ) := by
    rw [← Real.exp_add]; congr 1; field_simp; ring
  rw [this]
  congr 1
  ring

/-- Within the mechanical limits. -/
def Within (maxD minD : Option ℝ) (x : ℝ) : Prop := (∀ m, maxD = some m → x ≤ m) ∧ (∀ m, minD = some m → m ≤ x)

theorem limitTarget_within (maxD minD : Option ℝ) (x : ℝ) (h : ∀ M m, maxD = some M → minD = some m → m ≤ M) :
    Within maxD minD (limitTarget maxD minD x) ∧ (Within maxD minD x → limitTarget maxD minD x = x) := by
  unfold limitTarget Within
  cases maxD with
  | none => cases minD with
    | none => simp
    | some m => simp
  | some M => cases minD with
    | none => simp
    | some m =>
      have := h M m rfl rfl
      simp only [Option.some.injEq, forall_eq']
      refine ⟨⟨max_le (min_le_right _ _) this, le_max_right _ _⟩, ?_⟩
      rintro ⟨h1, h2⟩
      rw [min_eq_left h1, max_eq_left h2]

theorem within_between (maxD minD : Option ℝ) (a b x : ℝ) (ha : Within maxD minD a) (hb : Within maxD minD b)
    (h : (a ≤ x ∧ x ≤ b) ∨ (b ≤ x ∧ x ≤ a)) : Within maxD minD x := by
  refine ⟨fun m hm => ?_, fun m hm => ?_⟩
  · have := ha.1 m hm; have := hb.1 m hm; rcases h with h | h <;> linarith [h.2]
  · have := ha.2 m hm; have := hb.2 m hm; rcases h with h | h <;> linarith [h.1]

theorem deflection_within (a : Actuator) (hτ : 0 < a.τ) (ha : Within a.maxD a.minD a.last) (ht : Within a.maxD a.minD a.target)
    (t : ℝ) (h : a.lastTime ≤ t) : ∃ d, a.deflection t = .ok d ∧ Within a.maxD a.minD d := by
  obtain ⟨d, _, h1, _, h3, h4⟩ := deflection_monotone a hτ t t h (le_refl _)
  refine ⟨d, h1, within_between _ _ a.last a.target d ha ht ?_⟩
  rcases le_total a.last a.target with h' | h'
  · have := h3 h'
    rename_i d2 hd2
    rw [h1] at hd2; injection hd2 with hd2; subst hd2
    exact .inl ⟨this.1, this.2.2⟩
  · have := h4 h'
    rename_i d2 hd2
    rw [h1] at hd2; injection hd2 with hd2; subst hd2
    exact .inr ⟨this.1, this.2.2⟩

/-- **C34.** For every sequence of commands at non-decreasing times, an actuator that starts within its limits (and whose
first target 0 is within its limits) accepts all of them, and stays within its limits at all later times. -/
theorem deflection_limits (a : Actuator) (hτ : 0 < a.τ) (hlim : ∀ M m, a.maxD = some M → a.minD = some m → m ≤ M)
    (ha : Within a.maxD a.minD a.last) (ht : Within a.maxD a.minD a.target) (cs : List (ℝ × ℝ))
    (hs : List.IsChain (· ≤ ·) (a.lastTime :: cs.map Prod.snd)) :
    ∃ a', a.commands cs = .ok a' ∧ ∀ t ≥ a'.lastTime, ∃ d, a'.deflection t = .ok d ∧ Within a.maxD a.minD d := by
  induction cs generalizing a with
  | nil => exact ⟨a, rfl, fun t h => deflection_within a hτ ha ht t h⟩
  | cons c cs ih =>
    obtain ⟨x, t⟩ := c
    simp only [List.map_cons, List.isChain_cons_cons] at hs
    obtain ⟨d, hd, hw⟩ := deflection_within a hτ ha ht t hs.1
    have h1 : a.setTarget x t = .ok { a with last := d, lastTime := t, target := limitTarget a.maxD a.minD x } := by
      unfold Actuator.setTarget; rw [hd]
    unfold Actuator.commands
    rw [h1]
    exact ih _ hτ hlim hw (limitTarget_within _ _ x hlim).1 hs.2

/-- **C34.** The deflection after a command approaches the limited target: after time `T` the distance is `exp(-T/τ)` of
what it was. -/
theorem deflection_converges (a : Actuator) (hτ : 0 < a.τ) (t : ℝ) (h : a.lastTime ≤ t) :
    ∃ d, a.deflection t = .ok d ∧ a.target - d = (a.target - a.last) * Real.exp (-(t - a.lastTime) / a.τ) := by
  refine ⟨_, getPosition_ok a.τ t a.lastTime a.last a.target hτ.ne' h, ?_⟩
  ring

/-- **C34 violated.** The first target is 0 even if 0 is outside the limits: an actuator limited to [1, 2] and starting at 1
moves below 1 without any command. -/
theorem initial_target_violated :
    ∃ d, (Actuator.make 1 1 0 (some 2) (some 1)).deflection 1 = .ok d ∧ d < 1 := by
  refine ⟨_, getPosition_ok 1 1 0 1 0 one_ne_zero zero_le_one, ?_⟩
  have : Real.exp (-(1 - 0) / 1) < 1 := by rw [Real.exp_lt_one_iff]; norm_num
  linarith

/-- **C34 violated.** The initial time is ignored: an actuator created at time 10 with deflection 1 does not have
deflection 1 at time 10. -/
theorem initial_time_violated :
    ∃ d, (Actuator.make 1 1 10 none none).deflection 10 = .ok d ∧ d ≠ 1 := by
  refine ⟨_, getPosition_ok 1 10 0 1 0 one_ne_zero (by norm_num), ?_⟩
  have : Real.exp (-(10 - 0) / 1) < 1 := by rw [Real.exp_lt_one_iff]; norm_num
  intro h
  linarith

/-! ## C35 -/

section loop
variable {K : Type} [Field K] [LinearOrder K] [IsStrictOrderedRing K]

theorem pyRound_close [FloorRing K] (x : K) : |x - pyRound x| ≤ 1 / 2 := by
  have h1 := Int.floor_le x
  have h2 := Int.lt_floor_add_one x
  unfold pyRound
  dsimp only
  split_ifs with h3 h4 h5
  · rw [abs_of_nonneg (by linarith)]; linarith
  · push_cast; rw [abs_of_nonpos (by linarith)]; linarith
  · rw [abs_of_nonneg (by linarith)]; linarith
  · push_cast; rw [abs_of_nonpos (by linarith)]; linarith

/-- **C35.** With a positive update rate the step size in use divides the control period into a whole number `N ≥ 1` of
steps. `N` is the whole number nearest to the ratio of the configured values (or 1), and a step size that divides the
period already is kept. -/
theorem step_divides_period [FloorRing K] (rate h0 : K) (hr : 0 < rate) (hh : 0 < h0) :
    ∃ (h : K) (N : ℕ), checkTimeStepping rate h0 = .ok (1 / rate, h) ∧ 1 ≤ N ∧ h * N = 1 / rate ∧ 0 < h ∧
      ((1 / 2 : K) ≤ 1 / rate / h0 → |1 / rate / h0 - N| ≤ 1 / 2) ∧
      ((∃ M : ℕ, h0 * M = 1 / rate) → h = h0) := by
  have hp : (0 : K) < 1 / rate := by positivity
  have hratio : 0 < 1 / rate / h0 := by positivity
  unfold checkTimeStepping
  rw [if_pos hr]
  dsimp only
  rw [if_neg hh.ne']
  have hclose := pyRound_close (1 / rate / h0)
  set q := pyRound (1 / rate / h0) with hq
  by_cases hne : 1 / rate / h0 = (q : K)
  · rw [if_neg (by simpa using hne)]
    have hqpos : 0 < q := by
      have : (0 : K) < (q : K) := by rw [← hne]; exact hratio
      exact_mod_cast this
    refine ⟨h0, q.toNat, rfl, by omega, ?_, hh, ?_, fun _ => rfl⟩
    · have : ((q.toNat : ℕ) : K) = (q : K) := by
        have : ((q.toNat : ℤ) : K) = (q : K) := by rw [Int.toNat_of_nonneg hqpos.le]
        exact_mod_cast this
      rw [this, ← hne]; field_simp
    · intro _
      have : ((q.toNat : ℕ) : K) = (q : K) := by
        have : ((q.toNat : ℤ) : K) = (q : K) := by rw [Int.toNat_of_nonneg hqpos.le]
        exact_mod_cast this
      rw [this]; exact hclose
  · rw [if_pos hne]
    have hm : (1 : ℤ) ≤ max 1 q := le_max_left _ _
    have hc : (((max 1 q).toNat : ℕ) : K) = ((max 1 q : ℤ) : K) := by
      have : (((max 1 q).toNat : ℤ) : K) = ((max 1 q : ℤ) : K) := by rw [Int.toNat_of_nonneg (by omega)]
      exact_mod_cast this
    have hcpos : (0 : K) < ((max 1 q : ℤ) : K) := by
      have : (1 : K) ≤ ((max 1 q : ℤ) : K) := by exact_mod_cast hm
      linarith
    refine ⟨_, (max 1 q).toNat, rfl, by omega, ?_, by positivity, ?_, ?_⟩
    · rw [hc]; field_simp
    · intro hge
      rw [hc]
      rcases le_total 1 q with h1 | h1
      · rw [max_eq_right h1]; exact hclose
      · rw [max_eq_left h1]
        push_cast
        have hq0 : (q : K) ≤ 1 := by exact_mod_cast h1
        rw [abs_le] at hclose ⊢
        refine ⟨by linarith, ?_⟩
        linarith [hclose.2]
    · rintro ⟨M, hM⟩
      exfalso
      apply hne
      have e1 : 1 / rate / h0 = (M : K) := by rw [← hM]; field_simp
      rw [hq, e1]
      have : pyRound ((M : ℕ) : K) = (M : ℤ) := by
        unfold pyRound
        dsimp only
        rw [Int.floor_natCast]
        rw [if_pos (by push_cast; rw [sub_self]; norm_num)]
      rw [this]; push_cast; rfl

/-- Times `t0 + h, t0 + 2h, …` -/
def stepTimes (t0 h : K) (i : ℕ) : ℕ → List K
  | 0 => []
  | n + 1 => (t0 + h * ((i + 1 : ℕ) : K)) :: stepTimes t0 h (i + 1) n

theorem schedule_from (t0 h : K) (N : ℕ) (hN : 1 ≤ N) (hh : (1 / 10 ^ 10 : K) < h) (n : ℕ) :
    ∀ (i r : ℕ), r < N → N ∣ i - r → r ≤ i →
      schedule (h * N) (t0 + h * ((i - r : ℕ) : K)) (stepTimes t0 h i n) =
        (List.range' (i + 1) n).map (fun k => decide (N ∣ k)) := by
  induction n with
  | zero => intro i r _ _ _; rfl
  | succ n ih =>
    intro i r hr hd hri
    have h10 : (0 : K) < 1 / 10 ^ 10 := by positivity
    have hh0 : 0 < h := h10.trans hh
    have hsub : t0 + h * ((i + 1 : ℕ) : K) - (t0 + h * ((i - r : ℕ) : K)) = h * ((r + 1 : ℕ) : K) := by
      rw [Nat.cast_sub hri]; push_cast; ring
    rw [stepTimes, schedule, List.range'_succ, List.map_cons]
    unfold runIfRequired
    rw [hsub]
    by_cases hcase : r + 1 = N
    · have hdiv : N ∣ i + 1 := by
        have : i + 1 = (i - r) + N := by omega
        rw [this]; exact Nat.dvd_add hd (dvd_refl _)
      rw [if_pos (by rw [hcase]; linarith)]
      simp only [hdiv, decide_true]
      congr 1
      have := ih (i + 1) 0 (by omega) (by simpa using hdiv) (by omega)
      simpa using this
    · have hndiv : ¬ N ∣ i + 1 := by
        intro hdvd
        have h1 : N ∣ (i + 1) - (i - r) := Nat.dvd_sub hdvd hd
        have h2 : (i + 1) - (i - r) = r + 1 := by omega
        rw [h2] at h1
        have := Nat.le_of_dvd (by omega) h1
        omega
      have hlt : h * ((r + 1 : ℕ) : K) + 1 / 10 ^ 10 < h * N := by
        have h1 : ((r + 1 : ℕ) : K) + 1 ≤ (N : K) := by
          have : r + 1 + 1 ≤ N := by omega
          exact_mod_cast this
        have := mul_le_mul_of_nonneg_left h1 hh0.le
        rw [mul_add, mul_one] at this
        linarith
      rw [if_neg (not_le.2 hlt)]
      simp only [hndiv, decide_false]
      congr 1
      have := ih (i + 1) (r + 1) (by omega) (by
        have : i + 1 - (r + 1) = i - r := by omega
        rw [this]; exact hd) (by omega)
      have e : i + 1 - (r + 1) = i - r := by omega
      rw [e] at this
      exact this

/-- **C35.** With a step size dividing the period into `N` steps (and larger than the tolerance 1e-10), stepping from the
start time: the loop runs at step `k` exactly when `N` divides `k`, for any number of steps. -/
theorem loop_every_N (t0 h : K) (N : ℕ) (hN : 1 ≤ N) (hh : (1 / 10 ^ 10 : K) < h) (n : ℕ) :
    schedule (h * N) t0 (stepTimes t0 h 0 n) = (List.range' 1 n).map (fun k => decide (N ∣ k)) := by
  have := schedule_from t0 h N hN hh n 0 0 (by omega) (by simp) (le_refl _)
  simpa using this

/-- **C35.** Whatever the times, two consecutive runs are at least a period apart (up to the tolerance). -/
theorem loop_not_faster (period last : K) (ts : List K) :
    List.IsChain (fun a b => b - a + 1 / 10 ^ 10 ≥ period) (last :: runTimes period last ts) := by
  induction ts generalizing last with
  | nil => exact List.isChain_singleton _
  | cons t ts ih =>
    rw [runTimes]
    by_cases h : t - last + 1 / 10 ^ 10 ≥ period
    · have : (runIfRequired period last t) = (true, t) := by unfold runIfRequired; rw [if_pos h]
      rw [this]
      simp only [if_true]
      exact List.IsChain.cons_cons h (ih t)
    · have : (runIfRequired period last t) = (false, last) := by unfold runIfRequired; rw [if_neg h]
      rw [this]
      simp only [Bool.false_eq_true, if_false]
      exact ih last

/-- **C35.** The time the moment controller is told has passed is the time between runs, so the controller's integral sees
every interval exactly once. -/
theorem loopDts_sum (period last : K) (ts : List K) :
    (loopDts period last ts).sum = ((last :: runTimes period last ts).getLast (by simp)) - last := by
  induction ts generalizing last with
  | nil => simp [loopDts, runTimes]
  | cons t ts ih =>
    rw [loopDts]
    simp only [runTimes]
    by_cases h : (runIfRequired period last t).1 = true
    · simp only [h, if_true]
      have e : (last :: t :: runTimes period t ts).getLast (by simp) = (t :: runTimes period t ts).getLast (by simp) :=
        List.getLast_cons (by simp)
      rw [List.sum_cons, ih t, e]
      ring
    · simp only [h, if_false]
      exact ih last

/-- A zero update rate runs the loop at every call with non-decreasing times. -/
theorem loop_always (last : K) (ts : List K) (hs : List.IsChain (· ≤ ·) (last :: ts)) :
    schedule 0 last ts = ts.map (fun _ => true) := by
  induction ts generalizing last with
  | nil => rfl
  | cons t ts ih =>
    rw [List.isChain_cons_cons] at hs
    have : runIfRequired 0 last t = (true, t) := by
      unfold runIfRequired
      rw [if_pos]
      have : (0 : K) < 1 / 10 ^ 10 := by positivity
      have := hs.1
      simp only [ge_iff_le]; linarith
    rw [schedule, this, List.map_cons]
    congr 1
    exact ih t hs.2

/-- **C35 violated.** A control period that does not exceed the tolerance 1e-10 makes the loop run at every call, even
without any time passing, and the PID update divides by zero. -/
theorem loop_no_time_violated (last period : K) (h : period ≤ 1 / 10 ^ 10) (c : PID K) (e : K) :
    (runIfRequired period last last).1 = true ∧ c.step e (last - last) = .error .zeroDivision := by
  constructor
  · unfold runIfRequired; rw [if_pos]; simpa using h
  · rw [sub_self]; exact step_zero c e

end loop

/-! ### Examples -/

example : Bounded (PID.make (1 : ℚ) 1 0 0 (some 5)) := make_bounded _ _ _ _ _
example : (runPid (PID.make (1 : ℚ) 1 0 2 none) [.step 2 1, .step 2 3]) = .ok ([some 4, some 10], ⟨1, 1, 0, 2, 8, none⟩) := by
  decide +kernel
example : Within (some 2) (some (-2)) (1 : ℝ) := ⟨by intro m h; injection h with h; subst h; norm_num, by intro m h; injection h with h; subst h; norm_num⟩
/-- 10 Hz control, step 0.03: 3 steps of 1/30. -/
example : checkTimeStepping (10 : ℚ) (3/100) = .ok (1/10, 1/30) := by
  have : ⌊((1 / 10 / (3/100) : ℚ))⌋ = 3 := by rw [Int.floor_eq_iff]; norm_num
  have h2 : pyRound ((1 / 10 / (3/100) : ℚ)) = 3 := by
    unfold pyRound; dsimp only; rw [this, if_pos (by norm_num)]
  unfold checkTimeStepping
  rw [if_pos (by norm_num)]
  dsimp only
  rw [if_neg (by norm_num), h2, if_pos (by norm_num)]
  norm_num
example : schedule (3/10 : ℚ) 0 (stepTimes 0 (1/10) 0 7) = [false, false, true, false, false, true, false] := by
  have := loop_every_N (0 : ℚ) (1/10) 3 (by norm_num) (by norm_num) 7
  norm_num at this ⊢
  rw [this]; rfl

end Mapleaf.GNC
