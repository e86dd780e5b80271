import Verif.Motion.BodyFlyModel
import Verif.Motion.LooseStepProps
import Verif.Motion.TurnLogProps
import Verif.Motion.AdaptLimitProps

/-! # C105: the adaptive steps of rigid bodies are loose steps -/

namespace Mapleaf.Motion.Turn
open Set Mapleaf.Motion.Lim Mapleaf.Motion.RK Mapleaf.Motion.Body Mapleaf
open NormedSpace (exp)

attribute [local instance] vNorm vSpace

/-- the first `n` stages of a method -/
def upTo (q : Coef) (n : ℕ) : Coef := ⟨n, q.A, q.b, q.c⟩

/-- What is known of the turns of the stages: each is by `h` times a rotation vector of less than a full turn, whose rotation results from the rotations of
the stages before. -/
def Turned (q : Coef) (_ : ℝ) (x : St) (h : ℝ) (X : ℕ → St) (k : ℕ → Ch) : Prop :=
  ∀ i, 1 ≤ i → i < q.s → ∃ w : V3 ℝ, ‖w‖ < 2 * Real.pi ∧ X i = advE x (h • ((∑ j ∈ Finset.range i, q.A i j • k j).1, w)) ∧
    ∀ W : V3 ℝ, ∀ σ, 0 ≤ σ → (∀ j < i, ‖(k j).2 - W‖ ≤ σ) → ‖exp (half w) - exp (half ((∑ j ∈ Finset.range i, q.A i j) • W))‖ ≤ (∑ j ∈ Finset.range i, |q.A i j|) * σ

theorem sum_getD (ws : List ℝ) : ws.sum = ∑ j ∈ Finset.range ws.length, ws.getD j 0 := by
  induction ws with
  | nil => simp
  | cons w ws ih => rw [List.sum_cons, List.length_cons, Finset.sum_range_succ', ih, add_comm]; simp

theorem sum_abs_getD (ws : List ℝ) : (ws.map (|·|)).sum = ∑ j ∈ Finset.range ws.length, |ws.getD j 0| := by
  induction ws with
  | nil => simp
  | cons w ws ih => rw [List.map_cons, List.sum_cons, List.length_cons, Finset.sum_range_succ', ih, add_comm]; simp

theorem getD_encD (ks : List RBDeriv) (j : ℕ) : (ks.map encD).getD j 0 = encD (ks.getD j 0) := by
  rw [List.getD_eq_getElem?_getD, List.getD_eq_getElem?_getD, List.getElem?_map]
  cases ks[j]? <;> rfl

/-- how far a turn moves a state -/
theorem adv_drift {x : St} (hx : UnitO x) {h C Ω : ℝ} (h0 : 0 ≤ h) (hC : 0 ≤ C) {v : V3 ℝ × V3 ℝ × V3 ℝ} {w : V3 ℝ} (hv : ‖v‖ ≤ C) (hw : ‖w‖ ≤ Ω) :
    ‖advE x (h • (v, w)) - x‖ ≤ h * (C + Ω) := by
  have hΩ : 0 ≤ Ω := (norm_nonneg _).trans hw
  rw [Prod.norm_def]
  apply max_le
  · show ‖x.1 + h • v - x.1‖ ≤ _
    rw [add_sub_cancel_left, norm_smul, Real.norm_eq_abs, abs_of_nonneg h0]
    exact mul_le_mul_of_nonneg_left (by linarith) h0
  · show ‖exp (half (h • w)) * x.2 - x.2‖ ≤ _
    have e : exp (half (h • w)) * x.2 - x.2 = (exp (half (h • w)) - exp (half 0)) * x.2 := by
      have : half 0 = 0 := by rw [← halfL_apply, map_zero]
      rw [this, NormedSpace.exp_zero, sub_mul, one_mul]
    rw [e, norm_mul, show ‖x.2‖ = 1 from hx, mul_one]
    refine (exp_half_lip _ _).trans ?_
    rw [sub_zero, norm_smul, Real.norm_eq_abs, abs_of_nonneg h0]
    exact mul_le_mul_of_nonneg_left (by linarith) h0

/-- The first `n` stages of an attempt, if no full turn occurs in them. -/
theorem stages_loose (rows : Tableau ℝ) (b : List ℝ) (hex : Explicit 0 rows) {R : ℝ} (hR : 0 ≤ R) (hA : ∀ i j, |(coefOf rows b).A i j| ≤ R) (g : ℝ → RBState → RBDeriv) (t : ℝ) (y : RBState)
    (hy : Quat.Unit y.ori) (h : ℝ) (h0 : 0 ≤ h) (k0 : RBDeriv) (ks : List RBDeriv)
    (hks : ks = k0 :: rows.map (fun r => g (t + h * r.headD 0) (stg y h r.tail ks))) (n : ℕ) (hn : n ≤ rows.length + 1)
    (hne : ∀ i, i + 1 < n → rots (rows.getD i []).tail ks ≠ ⟨-1, 0, 0, 0⟩) :
    ∃ X, Loose UnitO (upTo (coefOf rows b) n) (lift g) (n * R + 2 * Real.pi) t (enc y) h X (fun i => encD (ks.getD i 0)) ∧
      Turned (upTo (coefOf rows b) n) t (enc y) h X (fun i => encD (ks.getD i 0)) := by
  have hlen : ks.length = rows.length + 1 := by rw [hks]; simp
  have hpi := Real.pi_pos
  have row : ∀ i < rows.length, (rows.getD i []).tail.length = i + 1 ∧ (∀ j, (coefOf rows b).A (i + 1) j = (rows.getD i []).tail.getD j 0) ∧
      (coefOf rows b).c (i + 1) = (rows.getD i []).headD 0 ∧ ks.getD (i + 1) 0 = g (t + h * (rows.getD i []).headD 0) (stg y h (rows.getD i []).tail ks) := by
    intro i hi
    refine ⟨?_, fun j => by simp [coefOf], by simp [coefOf], ?_⟩
    · rw [List.length_tail, explicit_row rows 0 i hex hi]; omega
    · conv_lhs => rw [hks]
      rw [List.getD_cons_succ, List.getD_eq_getElem?_getD, List.getElem?_map, List.getElem?_eq_getElem hi, List.getD_eq_getElem?_getD,
        List.getElem?_eq_getElem hi]
      rfl
  have key : ∀ i, 1 ≤ i → i < n → ∃ w : V3 ℝ, ‖w‖ < 2 * Real.pi ∧
      enc (stg y h (([0] :: rows).getD i []).tail ks) = advE (enc y) (h • ((∑ j ∈ Finset.range i, (coefOf rows b).A i j • encD (ks.getD j 0)).1, w)) ∧
      ∀ W : V3 ℝ, ∀ σ, 0 ≤ σ → (∀ j < i, ‖(encD (ks.getD j 0)).2 - W‖ ≤ σ) →
        ‖exp (half w) - exp (half ((∑ j ∈ Finset.range i, (coefOf rows b).A i j) • W))‖ ≤ (∑ j ∈ Finset.range i, |(coefOf rows b).A i j|) * σ := by
    intro i hi1 hin
    obtain ⟨i, rfl⟩ : ∃ m, i = m + 1 := ⟨i - 1, by omega⟩
    obtain ⟨r1, r2, r3, r4⟩ := row i (by omega)
    obtain ⟨w, w1, w2, w3⟩ := stage_turn (rows.getD i []).tail ks (hne i hin)
    have es : encD (wsum (rows.getD i []).tail ks) = ∑ j ∈ Finset.range (i + 1), (coefOf rows b).A (i + 1) j • encD (ks.getD j 0) := by
      rw [encD_wsum, wsum_getD _ _ (by rw [List.length_map]; omega), r1]
      refine Finset.sum_congr rfl fun j _ => ?_
      rw [r2, getD_encD]
    refine ⟨w, w1, ?_, fun W σ hσ hk => ?_⟩
    · rw [List.getD_cons_succ, w3, es]
    · have h1 := rots_near W σ (rows.getD i []).tail ks (by omega) (fun j hj => hk j (by omega))
      rw [w2, sum_getD, sum_abs_getD, r1] at h1
      simpa only [r2] using h1
  refine ⟨fun i => enc (stg y h (([0] :: rows).getD i []).tail ks), ⟨fun i hi1 hin => ?_, fun i hi1 hin => ?_, fun i hi1 hin T hT hk => ?_⟩, fun i hi1 hin => ?_⟩
  · obtain ⟨i, rfl⟩ : ∃ m, i = m + 1 := ⟨i - 1, by omega⟩
    obtain ⟨r1, r2, r3, r4⟩ := row i (by have : i + 1 < n := hin; omega)
    show encD (ks.getD (i + 1) 0) = encD (g (t + h * (coefOf rows b).c (i + 1)) (stg y h (([0] :: rows).getD (i + 1) []).tail ks))
    rw [r4, r3, List.getD_cons_succ]
  · obtain ⟨w, _, w2, _⟩ := key i hi1 hin
    rw [w2]
    unfold UnitO advE
    rw [norm_mul, norm_exp_half, one_mul]
    exact (unitO_enc y).2 hy
  · obtain ⟨w, w1, w2, _⟩ := key i hi1 hin
    rw [w2]
    have hs := sum_le_card (u := fun j => encD (ks.getD j 0)) (w := (coefOf rows b).A i) (s := n) (i := i) hin.le hR hT (hA i) hk
    have hs' : ‖(∑ j ∈ Finset.range i, (coefOf rows b).A i j • encD (ks.getD j 0)).1‖ ≤ n * R * T := (norm_fst_le _).trans hs
    have hnR : 0 ≤ (n : ℝ) * R := by positivity
    refine (adv_drift ((unitO_enc y).2 hy) h0 (by positivity) hs' w1.le).trans (mul_le_mul_of_nonneg_left ?_ h0)
    have : 0 ≤ 2 * Real.pi * T := by positivity
    nlinarith
  · exact key i hi1 hin

/-- What an accepted attempt is. -/
theorem attempt_loose (tab : Tableau ℝ) (hs : Shape 2 tab) {R : ℝ} (hR : 0 ≤ R) (hA : ∀ i j, |(coefA tab).A i j| ≤ R) (cache : Option RBDeriv)
    (f : ℝ → RBState → Except PyErr RBDeriv) (g : ℝ → RBState → RBDeriv) (hf : ∀ t s, Quat.Unit s.ori → f t s = .ok (g t s)) (t : ℝ) (y : RBState)
    (hy : Quat.Unit y.ori) (h : ℝ) (h0 : 0 ≤ h) (fsal : Bool) (a : Body.Attempt RBState RBDeriv) (ha : Body.attempt bodyArith tab cache f t y h = .ok a) :
    Quat.Unit a.newValue.ori ∧ LooseStep advE UnitO (coefA tab) (lift g) ((coefA tab).s * R + 2 * Real.pi) fsal (Turned (coefA tab)) t (enc y) (cache.map encD) h
      (enc a.newValue) ((if fsal then some a.last else cache).map encD) := by
  obtain ⟨ks, b, bc, h1, h2, h3, h4⟩ := six_dof_attempt tab hs cache f g hf t y hy h
  have hne : ∀ r ∈ tab.dropLast.dropLast, rots r.tail ks ≠ ⟨-1, 0, 0, 0⟩ := by
    intro r hr hbad
    have := h3 ⟨r, hr, hbad⟩
    rw [this] at ha
    cases ha
  obtain ⟨last, h5, h6⟩ := h4 hne
  rw [h6] at ha
  injection ha with ha
  subst ha
  have hex : Explicit 0 tab.dropLast.dropLast := by rw [dropLast_dropLast]; exact hs.explicit
  have hlen : ks.length = tab.dropLast.dropLast.length + 1 := by rw [h2]; simp
  have hb : tab.dropLast.getLast? = some b := by
    have : tab.dropLast = tab.dropLast.dropLast ++ [b] := by
      conv_lhs => rw [h1]
      rw [show tab.dropLast.dropLast ++ [b, bc] = (tab.dropLast.dropLast ++ [b]) ++ [bc] by simp, List.dropLast_concat]
    rw [this, List.getLast?_concat]
  have hcoef : coefA tab = coefOf tab.dropLast.dropLast b := by unfold coefA; rw [hb]; rfl
  have hbl : b.length = tab.dropLast.dropLast.length + 1 := by
    have h2' : tab.dropLast.dropLast.length = tab.length - 2 := by simp; omega
    rw [h2']
    apply hs.result
    have e : tab.drop (tab.length - 2) = [b, bc] := by
      have e1 : ∀ (l : Tableau ℝ) (n : ℕ), l.length = n → tab = l ++ [b, bc] → tab.drop n = [b, bc] := by
        rintro l n rfl rfl
        exact List.drop_left
      exact e1 _ _ h2' h1
    rw [e]
    simp
  obtain ⟨X, l1, l2⟩ := stages_loose tab.dropLast.dropLast b hex hR (by rw [← hcoef]; exact hA) g t y hy h h0 _ ks h2 (tab.dropLast.dropLast.length + 1) le_rfl
    (fun i hi => hne _ (by
      rw [List.getD_eq_getElem?_getD, List.getElem?_eq_getElem (by omega)]
      exact List.getElem_mem _))
  refine ⟨advance_unit _ _ hy, X, _, ?_, by rw [hcoef]; exact l1, by rw [hcoef]; exact l2, ?_, ?_⟩
  · rw [h2]
    cases cache <;> simp [lift]
  · dsimp only
    rw [enc_advance, encD_smul, encD_wsum, wsum_getD _ _ (by rw [List.length_map]; omega), hcoef, hbl]
    congr 2
    refine Finset.sum_congr rfl fun j _ => ?_
    rw [getD_encD]
    rfl
  · cases fsal with
    | false => simp
    | true =>
      simp only [if_true, Option.map_some, Option.some.injEq]
      have : (coefA tab).s - 1 = ks.length - 1 := by rw [hcoef, hlen]; rfl
      rw [this, List.getD_eq_getElem?_getD, ← List.getLast?_eq_getElem?, h5]
      rfl

/-! ## Flights -/

/-- What the loop returns is the attempt with the step size it returns, which is at least the minimum. -/
theorem try_result {α : Type} (s : Settings ℝ) (err : α → ℝ) (try_ : ℝ → Except PyErr α) (fuel : ℕ) (dt e : ℝ) (prev : Option α)
    (hp : ∀ a, prev = some a → try_ dt = .ok a ∧ s.minTimeStep ≤ dt) (h : ℝ) (a : α) (hr : tryLoop s err try_ fuel dt e prev = .ok (h, a)) :
    try_ h = .ok a ∧ s.minTimeStep ≤ h := by
  induction fuel generalizing dt e prev with
  | zero =>
    rw [tryLoop.eq_def] at hr
    dsimp only at hr
    split at hr
    · cases hr
    · cases prev with
      | none => cases hr
      | some a => cases hr; exact hp a rfl
  | succ fuel ih =>
    rw [tryLoop.eq_def] at hr
    dsimp only at hr
    split at hr
    · generalize hd : max s.minTimeStep (dt / 3) = d at hr
      have hmin : s.minTimeStep ≤ d := hd ▸ le_max_left _ _
      cases ht : try_ d with
      | error e => rw [ht] at hr; cases hr
      | ok a' =>
        rw [ht] at hr
        dsimp only at hr
        split at hr
        · cases hr; exact ⟨ht, hmin⟩
        · exact ih _ _ _ (fun a'' ha' => by cases ha'; exact ⟨ht, hmin⟩) hr
    · cases prev with
      | none => cases hr
      | some a => cases hr; exact hp a rfl

/-- **C105.** Whatever step sizes are requested and whatever attempts are discarded, a flight that completes makes loose steps. -/
theorem fly_flown (s : Settings ℝ) (hmin : 0 < s.minTimeStep) (tab : Tableau ℝ) (hs : Shape 2 tab) {R : ℝ} (hR : 0 ≤ R) (hA : ∀ i j, |(coefA tab).A i j| ≤ R) (fsal : Bool)
    (f : ℝ → RBState → Except PyErr RBDeriv) (g : ℝ → RBState → RBDeriv) (hf : ∀ t s, Quat.Unit s.ori → f t s = .ok (g t s)) (fuel : ℕ) (dts : List ℝ)
    (b b' : Flyer RBState RBDeriv) (hu : Quat.Unit b.state.ori) (hs' : List ℝ) (h : flyAdaptive bodyArith s tab fsal f fuel b dts = .ok (hs', b')) :
    b'.time = b.time + hs'.sum ∧ Quat.Unit b'.state.ori ∧ hs'.length = dts.length ∧ (∀ x ∈ hs', s.minTimeStep ≤ x) ∧
    Flown (LooseStep advE UnitO (coefA tab) (lift g) ((coefA tab).s * R + 2 * Real.pi) fsal (Turned (coefA tab))) b.time (enc b.state) (b.cache.map encD) hs'
      (enc b'.state) (b'.cache.map encD) := by
  induction dts generalizing b hs' with
  | nil =>
    cases h
    exact ⟨by simp, hu, rfl, by simp, .nil _ _ _⟩
  | cons dt dts ih =>
    unfold flyAdaptive flyStep at h
    cases hr : tryLoop s Body.Attempt.error (fun h => Body.attempt bodyArith tab b.cache f b.time b.state h) fuel (dt * 3) 10000000 none with
    | error e => rw [hr] at h; cases h
    | ok p =>
      obtain ⟨k, a⟩ := p
      rw [hr] at h
      dsimp only at h
      generalize hb1 : (⟨b.time + k, a.newValue, if fsal = true then some a.last else b.cache⟩ : Flyer RBState RBDeriv) = b₁ at h
      cases hn : flyAdaptive bodyArith s tab fsal f fuel b₁ dts with
      | error e => rw [hn] at h; cases h
      | ok p =>
        obtain ⟨hs₁, b₂⟩ := p
        rw [hn] at h
        dsimp only at h
        cases h
        obtain ⟨l1, l2⟩ := try_result s _ _ fuel _ _ none (fun a ha => by cases ha) k a hr
        obtain ⟨a1, a2⟩ := attempt_loose tab hs hR hA b.cache f g hf b.time b.state hu k (hmin.le.trans l2) fsal a l1
        subst hb1
        obtain ⟨i1, i2, i3, i4, i5⟩ := ih ⟨b.time + k, a.newValue, if fsal = true then some a.last else b.cache⟩ a1 hs₁ hn
        refine ⟨by rw [i1, List.sum_cons]; dsimp only; ring, i2, by simp [i3], fun x hx => ?_, .cons a2 i5⟩
        rcases List.mem_cons.1 hx with rfl | hx
        · exact l2
        · exact i4 x hx

end Mapleaf.Motion.Turn
