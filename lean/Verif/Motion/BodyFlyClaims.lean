import Verif.Motion.BodySlowProps
import Verif.Motion.AdaptLimitClaims

/-! # C105: flights of rigid bodies with the adaptive integrators -/

namespace Mapleaf.Motion.Turn
open Set Mapleaf.Motion.Lim Mapleaf.Motion.RK Mapleaf.Motion.Body Mapleaf
open NormedSpace (exp)

attribute [local instance] vNorm vSpace

/-! ## The coefficients -/

/-- what the proofs need of coefficients within `ε` of those of the method, with `n` stages -/
structure Close (q : Coef) (n : ℕ) (ε : ℝ) (fsal : Bool) : Prop where
  s : q.s = n
  bounded : q.Bounded 18
  c0 : q.c 0 = 0
  row : ∀ i < n, |∑ j ∈ Finset.range i, q.A i j - q.c i| ≤ n * ε
  o1 : |∑ i ∈ Finset.range q.s, q.b i - 1| ≤ n * ε
  o2 : |∑ i ∈ Finset.range q.s, q.b i * q.c i - 1 / 2| ≤ n * ε
  fsal : fsal = true → 2 ≤ q.s ∧ q.c (q.s - 1) = 1

theorem abs_sum_card {u : ℕ → ℝ} {n s : ℕ} {ε : ℝ} (hε : 0 ≤ ε) (hn : n ≤ s) (hu : ∀ i < n, |u i| ≤ ε) : |∑ i ∈ Finset.range n, u i| ≤ s * ε := by
  refine (Finset.abs_sum_le_sum_abs _ _).trans ((Finset.sum_le_sum fun i hi => hu i (Finset.mem_range.1 hi)).trans ?_)
  rw [Finset.sum_const, Finset.card_range, nsmul_eq_mul]
  exact mul_le_mul_of_nonneg_right (by exact_mod_cast hn) hε

theorem near_close (m : String) (hm : m ∈ ["RK12Adaptive", "RK23Adaptive", "RK45Adaptive", "RK78Adaptive"]) (fsal : Bool) {ε : ℝ} (hε : ε ∈ Icc (0 : ℝ) 1) {tab : Tableau ℝ}
    (hn : NearTab m fsal ε tab) : Close (coefA tab) (coefI (ideal m)).s ε fsal := by
  obtain ⟨p, hmp, hp2⟩ : ∃ p, (m, p) ∈ adaptiveOrders ∧ 2 ≤ p := by
    simp only [List.mem_cons, List.not_mem_nil, or_false] at hm
    rcases hm with rfl | rfl | rfl | rfl
    · exact ⟨2, by simp [adaptiveOrders], by norm_num⟩
    · exact ⟨3, by simp [adaptiveOrders], by norm_num⟩
    · exact ⟨4, by simp [adaptiveOrders], by norm_num⟩
    · exact ⟨4, by simp [adaptiveOrders], by norm_num⟩
  obtain ⟨hb, hr, ho, hc0, hp1, _⟩ := ideal_fit (m, p) hmp
  dsimp only at hb hr ho hc0 hp1
  have hb' := hb.near hε.2 hn.A hn.b hn.c
  norm_num at hb'
  refine ⟨hn.s, hb', by rw [hn.c]; exact hc0, fun i hi => ?_, ?_, ?_, fun h => ⟨(hn.fsal h).two, (hn.fsal h).last⟩⟩
  · rw [hn.c, ← hr i hi, ← Finset.sum_sub_distrib]
    exact abs_sum_card hε.1 hi.le fun j _ => hn.A i j
  · have h1 := ho.o1 hp1
    unfold Coef.dot at h1
    simp only [mul_one] at h1
    rw [hn.s, ← h1, ← Finset.sum_sub_distrib]
    exact abs_sum_card hε.1 le_rfl fun i _ => hn.b i
  · have h1 := ho.o2 hp2
    unfold Coef.dot at h1
    rw [hn.s, ← h1, hn.c, ← Finset.sum_sub_distrib]
    refine abs_sum_card hε.1 le_rfl fun i _ => ?_
    rw [← sub_mul, abs_mul, abs_of_nonneg (hb.c i).1]
    calc _ ≤ ε * 1 := mul_le_mul (hn.b i) (hb.c i).2 (hb.c i).1 hε.1
      _ = ε := mul_one _

/-! ## Flights that complete -/

section flights
variable {g : ℝ → RBState → RBDeriv} {y : ℝ → RBState} {a e L ρ Γ : ℝ}

/-- **C105.** Any spin: a flight that completes, with accepted steps of at most `h`, ends within `C (h + ε)` of the motion. What is missing: a flight with a
fast spin may raise (C81), and the order of the methods is not reached. -/
theorem body_adaptive_rough_partial (m : String) (hm : m ∈ ["RK12Adaptive", "RK23Adaptive", "RK45Adaptive", "RK78Adaptive"]) (fsal : Bool) (f : ℝ → RBState → Except PyErr RBDeriv)
    (hf : ∀ t s, Quat.Unit s.ori → f t s = .ok (g t s)) (M : TrueMotion g y a e) (hL : 0 ≤ L) (hρ : 0 < ρ) (hΓ : 0 ≤ Γ) (lip : LipNear g y a e L ρ)
    (along : ∀ s ∈ Icc a e, ∀ t ∈ Icc a e, apartD (g s (y s)) (g t (y t)) ≤ Γ * |s - t|) (hae : a ≤ e) :
    ∃ C h₀ ε₀ : ℝ, 0 ≤ C ∧ 0 < h₀ ∧ 0 < ε₀ ∧ ∀ ε ∈ Icc 0 ε₀, ∀ tab, NearTab m fsal ε tab → ∀ s : Settings ℝ, 0 < s.minTimeStep → ∀ fuel dts hs b',
      flyAdaptive bodyArith s tab fsal f fuel ⟨a, y a, none⟩ dts = .ok (hs, b') → ∀ h ∈ Ioc 0 h₀, (∀ x ∈ hs, x ≤ h) → b'.time ≤ e →
        b'.time = a + hs.sum ∧ hs.length = dts.length ∧ Quat.Unit b'.state.ori ∧ apart b'.state (y b'.time) ≤ C * (h + ε) := by
  obtain ⟨ρ', B, Γ', C, -⟩ := course_of M hL hρ hΓ lip along
  obtain ⟨η, S⟩ := body_chart
  have hpi := Real.pi_pos
  obtain ⟨Z, h₀, ε₀, hZ, hh₀, hε₀, key⟩ := loose_first_order (R := 18) (N := (coefI (ideal m)).s * 18 + 2 * Real.pi) S C (coefI (ideal m)).s (by norm_num) (by positivity) fsal
  generalize hs0 : (coefI (ideal m)).s = s₀ at key
  refine ⟨Z * (s₀ + 1), h₀, min (ε₀ / (s₀ + 1)) 1, by positivity, hh₀, by positivity, fun ε hε tab hn s hmin fuel dts hs b' hrun h hh hle hend => ?_⟩
  have hε1 : ε ≤ 1 := hε.2.trans (min_le_right _ _)
  have hε2 : (s₀ + 1) * ε ≤ ε₀ := by
    have := hε.2.trans (min_le_left _ _)
    rw [le_div_iff₀ (by positivity)] at this
    linarith
  have hε0 := hε.1
  have cl := near_close m hm fsal ⟨hε0, hε1⟩ hn
  rw [hs0] at cl
  obtain ⟨r1, r2, r3, r4, r5⟩ := fly_flown s hmin tab hn.shape (R := 18) (by norm_num) cl.bounded.A fsal f g hf fuel dts ⟨a, y a, none⟩ b' (M.unit a ⟨le_rfl, hae⟩) hs hrun
  dsimp only [Option.map_none] at r1 r5
  rw [cl.s] at r5
  rw [r1] at hend
  have := key (s₀ * ε) ⟨by positivity, by linarith⟩ (coefA tab) cl.s cl.bounded cl.o1 cl.fsal _ h hh hs (fun x hx => ⟨hmin.trans_le (r4 x hx), hle x hx⟩) hend _ _ r5
  refine ⟨r1, r3, r2, ?_⟩
  rw [r1]
  refine this.2.trans ?_
  rw [mul_assoc]
  refine mul_le_mul_of_nonneg_left ?_ hZ
  have : 0 ≤ s₀ * h + ε := by have := hh.1.le; positivity
  linarith

end flights

/-! ## The loop -/

/-- If every size between the minimum and the request can be tried, the loop returns. -/
theorem try_returns {α : Type} (s : Settings ℝ) (hmin : 0 < s.minTimeStep) (err : α → ℝ) (try_ : ℝ → Except PyErr α) (D : ℝ)
    (hD : s.minTimeStep ≤ D) (hok : ∀ h, s.minTimeStep ≤ h → h ≤ D → ∃ a, try_ h = .ok a) (k : ℕ) :
    ∀ (dt e : ℝ) (prev : Option α), (20 * s.targetError < e ∨ ∃ a, prev = some a) → (∀ a, prev = some a → dt ≤ D) → dt / 3 ≤ D → dt / 3 ≤ s.minTimeStep * 3 ^ k →
      ∃ h a, h ≤ D ∧ ∀ fuel > k, tryLoop s err try_ fuel dt e prev = .ok (h, a) := by
  induction k with
  | zero =>
    intro dt e prev hp hdt h1 h2
    rw [pow_zero, mul_one] at h2
    by_cases he : e > 20 * s.targetError
    · obtain ⟨a, ha⟩ := hok s.minTimeStep le_rfl hD
      refine ⟨s.minTimeStep, a, hD, fun fuel hf => ?_⟩
      obtain ⟨f, rfl⟩ : ∃ f, fuel = f + 1 := ⟨fuel - 1, by omega⟩
      rw [tryLoop.eq_def]
      dsimp only
      rw [if_pos he]
      try dsimp only
      rw [max_eq_left h2, ha]
      dsimp only
      rw [if_pos (isclose_refl _)]
    · obtain ⟨a, rfl⟩ := hp.resolve_left he
      refine ⟨dt, a, hdt a rfl, fun fuel _ => ?_⟩
      rw [tryLoop.eq_def]
      dsimp only
      rw [if_neg he]
  | succ k ih =>
    intro dt e prev hp hdt h1 h2
    by_cases he : e > 20 * s.targetError
    · obtain ⟨a, ha⟩ := hok (max s.minTimeStep (dt / 3)) (le_max_left _ _) (max_le hD h1)
      by_cases hc : isclose (max s.minTimeStep (dt / 3)) s.minTimeStep = true
      · refine ⟨_, a, max_le hD h1, fun fuel hf => ?_⟩
        obtain ⟨f, rfl⟩ : ∃ f, fuel = f + 1 := ⟨fuel - 1, by omega⟩
        rw [tryLoop.eq_def]
        dsimp only
        rw [if_pos he]
        try dsimp only
        rw [ha]
        dsimp only
        rw [if_pos hc]
      · have hpow : (1 : ℝ) ≤ 3 ^ k := one_le_pow₀ (by norm_num)
        obtain ⟨h, a', l1, l2⟩ := ih (max s.minTimeStep (dt / 3)) (err a) (some a) (.inr ⟨a, rfl⟩) (fun _ _ => max_le hD h1)
          (by have := max_le hD h1; linarith) (by
            have : max s.minTimeStep (dt / 3) ≤ s.minTimeStep * 3 ^ (k + 1) := max_le (le_mul_of_one_le_right hmin.le (one_le_pow₀ (by norm_num))) h2
            rw [pow_succ] at this
            linarith)
        refine ⟨h, a', l1, fun fuel hf => ?_⟩
        obtain ⟨f, rfl⟩ : ∃ f, fuel = f + 1 := ⟨fuel - 1, by omega⟩
        rw [tryLoop.eq_def]
        dsimp only
        rw [if_pos he]
        try dsimp only
        rw [ha]
        dsimp only
        rw [if_neg hc]
        exact l2 f (by omega)
    · obtain ⟨a, rfl⟩ := hp.resolve_left he
      refine ⟨dt, a, hdt a rfl, fun fuel _ => ?_⟩
      rw [tryLoop.eq_def]
      dsimp only
      rw [if_neg he]

theorem step_returns {S D : Type} (A : Arith S D) (s : Settings ℝ) (hmin : 0 < s.minTimeStep) (htar : s.targetError < 500000) (tab : Tableau ℝ) (fsal : Bool)
    (f : ℝ → S → Except PyErr D) (b : Flyer S D) (dt : ℝ) (hok : ∀ h, s.minTimeStep ≤ h → h ≤ max s.minTimeStep dt → ∃ a, Body.attempt A tab b.cache f b.time b.state h = .ok a) :
    ∃ h b' n, h ≤ max s.minTimeStep dt ∧ ∀ fuel > n, flyStep A s tab fsal f fuel b dt = .ok (h, b') := by
  obtain ⟨k, hk⟩ := pow_unbounded_of_one_lt (dt / s.minTimeStep) (by norm_num : (1 : ℝ) < 3)
  rw [div_lt_iff₀ hmin] at hk
  obtain ⟨h, a, l1, l2⟩ := try_returns s hmin Body.Attempt.error (fun h => Body.attempt A tab b.cache f b.time b.state h) (max s.minTimeStep dt) (le_max_left _ _) hok k
    (dt * 3) 10000000 none (.inl (by linarith)) (fun a ha => by cases ha) (by have := le_max_right s.minTimeStep dt; linarith) (by linarith)
  refine ⟨h, ⟨b.time + h, a.newValue, if fsal then some a.last else b.cache⟩, k, l1, fun fuel hf => ?_⟩
  unfold flyStep
  rw [l2 fuel hf]

/-! ## No full turns -/

section slow
variable {g : ℝ → RBState → RBDeriv} {y : ℝ → RBState} {a e L ρ Γ B : ℝ}

/-- Near the motion of a body that turns slowly, an attempt does not raise. -/
theorem attempt_runs {N σ₀ : ℝ} (C : Course advE UnitO (lift g) (fun t => enc (y t)) a e L ρ B Γ) (tab : Tableau ℝ) (hs : Shape 2 tab) {R : ℝ} (hR : 0 ≤ R)
    (hq : (coefA tab).Bounded R) (hN : (coefA tab).s * R + 2 * Real.pi ≤ N) (cache : Option RBDeriv) (f : ℝ → RBState → Except PyErr RBDeriv) (hf : ∀ t s, Quat.Unit s.ori → f t s = .ok (g t s))
    {t h d : ℝ} (ht : t ∈ Icc a e) (h0 : 0 ≤ h) (hte : t + h ≤ e) (x : RBState) (hx : Quat.Unit x.ori) (hd : ‖enc x - enc (y t)‖ ≤ d)
    (hk0 : ‖encD (cache.getD (g t x)) - encD (g t (y t))‖ ≤ min σ₀ (L * ρ + 1)) (htube : d + h * away N B L ρ ≤ ρ) (hσ : L * d + (L * away N B L ρ + Γ) * h ≤ σ₀)
    (far : ∀ i < (coefA tab).s, ∀ r : Quat ℝ, ‖Quat.toH r - exp (half ((∑ j ∈ Finset.range i, (coefA tab).A i j) • (g t (y t)).angVel))‖ ≤
      (∑ j ∈ Finset.range i, |(coefA tab).A i j|) * σ₀ → r ≠ ⟨-1, 0, 0, 0⟩) :
    ∃ at_, Body.attempt bodyArith tab cache f t x h = .ok at_ := by
  obtain ⟨ks, b, bc, h1, h2, _, h4⟩ := six_dof_attempt tab hs cache f g hf t x hx h
  have hex : Explicit 0 tab.dropLast.dropLast := by rw [dropLast_dropLast]; exact hs.explicit
  have hlen : ks.length = tab.dropLast.dropLast.length + 1 := by rw [h2]; simp
  have hb : tab.dropLast.getLast? = some b := by
    have : tab.dropLast = tab.dropLast.dropLast ++ [b] := by
      conv_lhs => rw [h1]
      rw [show tab.dropLast.dropLast ++ [b, bc] = (tab.dropLast.dropLast ++ [b]) ++ [bc] by simp, List.dropLast_concat]
    rw [this, List.getLast?_concat]
  have hcoef : coefA tab = coefOf tab.dropLast.dropLast b := by unfold coefA; rw [hb]; rfl
  have hbl : b.length = tab.dropLast.dropLast.length + 1 := by
    have h2' : tab.dropLast.dropLast.length = tab.length - 2 := by simp; omega
    rw [h2']
    apply hs.result
    have e : tab.drop (tab.length - 2) = [b, bc] := by
      have e1 : ∀ (l : Tableau ℝ) (n : ℕ), l.length = n → tab = l ++ [b, bc] → tab.drop n = [b, bc] := by
        rintro l n rfl rfl
        exact List.drop_left
      exact e1 _ _ h2' h1
    rw [e]
    simp
  have hsn : (coefA tab).s = tab.dropLast.dropLast.length + 1 := by rw [hcoef]; rfl
  generalize tab.dropLast.dropLast = rows at *
  have hpi := Real.pi_pos
  have no : ∀ i < rows.length, rots (rows.getD i []).tail ks ≠ ⟨-1, 0, 0, 0⟩ := by
    intro i
    induction i using Nat.strong_induction_on with
    | _ i ih =>
      intro hi
      obtain ⟨X, l1, _⟩ := stages_loose rows b hex hR (by rw [← hcoef]; exact hq.A) g t x hx h h0 _ ks h2 (i + 1) (by omega) (fun j hj => ih j (by omega) (by omega))
      have hNi : ((i + 1 : ℕ) : ℝ) * R + 2 * Real.pi ≤ N := by
        refine le_trans ?_ hN
        have : ((i + 1 : ℕ) : ℝ) ≤ (coefA tab).s := by exact_mod_cast (by omega : i + 1 ≤ (coefA tab).s)
        have := mul_le_mul_of_nonneg_right this hR
        linarith
      have l1' : Loose UnitO (upTo (coefOf rows b) (i + 1)) (lift g) N t (enc x) h X (fun i => encD (ks.getD i 0)) :=
        ⟨l1.stage, l1.good, fun j hj1 hj T hT hk => (l1.drift j hj1 hj T hT hk).trans (mul_le_mul_of_nonneg_left (mul_le_mul_of_nonneg_right hNi (by linarith)) h0)⟩
      have hk0' : ‖encD (ks.getD 0 0) - lift g t (enc (y t))‖ ≤ min σ₀ (L * ρ + 1) := by
        rw [h2]
        exact hk0
      have st := loose_stages C (upTo (coefOf rows b) (i + 1)) (by rw [← hcoef]; exact hq.c) (le_trans (by positivity) hNi) ht h0 hte hd l1' (hk0'.trans (min_le_right _ _)) htube
      have hkj : ∀ j < i + 1, ‖encD (ks.getD j 0) - lift g t (enc (y t))‖ ≤ σ₀ := by
        intro j hj
        rcases Nat.eq_zero_or_pos j with rfl | hj1
        · exact hk0'.trans (min_le_left _ _)
        · exact ((st j hj).2 hj1).2.2.trans hσ
      have r1 : (rows.getD i []).tail.length = i + 1 := by rw [List.length_tail, explicit_row rows 0 i hex hi]; omega
      have r2 : ∀ j, (coefA tab).A (i + 1) j = (rows.getD i []).tail.getD j 0 := fun j => by rw [hcoef]; simp [coefOf]
      apply far (i + 1) (by omega)
      have n1 := rots_near (g t (y t)).angVel σ₀ (rows.getD i []).tail ks (by omega) (fun j hj => (norm_snd_le (encD (ks.getD j 0) - lift g t (enc (y t)))).trans (hkj j (by omega)))
      rw [sum_getD, sum_abs_getD, r1] at n1
      simpa only [r2] using n1
  obtain ⟨last, _, h6⟩ := h4 (fun r hr => by
    obtain ⟨i, hi, rfl⟩ := List.mem_iff_getElem.1 hr
    have := no i hi
    rwa [List.getD_eq_getElem?_getD, List.getElem?_eq_getElem hi] at this)
  exact ⟨_, h6⟩

theorem Flown.snoc {E D : Type} {R : ℝ → E → Option D → ℝ → E → Option D → Prop} {t : ℝ} {x : E} {c : Option D} {hs : List ℝ} {z : E} {c' : Option D} (hf : Flown R t x c hs z c')
    {h : ℝ} {z' : E} {c'' : Option D} (hr : R (t + hs.sum) z c' h z' c'') : Flown R t x c (hs ++ [h]) z' c'' := by
  induction hf with
  | nil t x c =>
    rw [List.sum_nil, add_zero] at hr
    exact .cons hr (.nil _ _ _)
  | cons h1 _ ih =>
    rw [List.sum_cons, ← add_assoc] at hr
    exact .cons h1 (ih hr)

/-- a step of the flight is a loose step -/
theorem flyStep_loose (s : Settings ℝ) (hmin : 0 < s.minTimeStep) (tab : Tableau ℝ) (hs : Shape 2 tab) {R : ℝ} (hR : 0 ≤ R) (hA : ∀ i j, |(coefA tab).A i j| ≤ R) (fsal : Bool)
    (f : ℝ → RBState → Except PyErr RBDeriv) (hf : ∀ t s, Quat.Unit s.ori → f t s = .ok (g t s)) (fuel : ℕ) (dt : ℝ)
    (b b' : Flyer RBState RBDeriv) (hu : Quat.Unit b.state.ori) (h : ℝ) (hr : flyStep bodyArith s tab fsal f fuel b dt = .ok (h, b')) :
    b'.time = b.time + h ∧ Quat.Unit b'.state.ori ∧ s.minTimeStep ≤ h ∧
    LooseStep advE UnitO (coefA tab) (lift g) ((coefA tab).s * R + 2 * Real.pi) fsal (Turned (coefA tab)) b.time (enc b.state) (b.cache.map encD) h
      (enc b'.state) (b'.cache.map encD) := by
  unfold flyStep at hr
  cases hl : tryLoop s Body.Attempt.error (fun h => Body.attempt bodyArith tab b.cache f b.time b.state h) fuel (dt * 3) 10000000 none with
  | error e => rw [hl] at hr; cases hr
  | ok p =>
    obtain ⟨k, a⟩ := p
    rw [hl] at hr
    dsimp only at hr
    cases hr
    obtain ⟨l1, l2⟩ := try_result s _ _ fuel _ _ none (fun a ha => by cases ha) h a hl
    obtain ⟨a1, a2⟩ := attempt_loose tab hs hR hA b.cache f g hf b.time b.state hu h (hmin.le.trans l2) fsal a l1
    exact ⟨rfl, a1, l2, a2⟩

/-- **C105.** A body that turns less than once per second along its motion, with a smooth course: for every adaptive method, every positive smallest step, every target
error below 500000 and all requested steps of at most `h ≤ h₀`, the flight is flown without error, and ends within `C (h² + ε)` of the motion; so does every flight with
accepted steps of at most `h` that completes. `ε` is the distance of the coefficients from the exact ones, `1e-16` in the code (`code_near`).
What is missing: orders above 2 are not reached, and the error does not vanish with the step, because the code replaces zeros by `1e-16`. -/
theorem body_adaptive_converges_partial (m : String) (hm : m ∈ ["RK12Adaptive", "RK23Adaptive", "RK45Adaptive", "RK78Adaptive"]) (fsal : Bool) (f : ℝ → RBState → Except PyErr RBDeriv)
    (hf : ∀ t s, Quat.Unit s.ori → f t s = .ok (g t s)) (M : TrueMotion g y a e) (hL : 0 ≤ L) (hρ : 0 < ρ) (hΓ : 0 ≤ Γ) (lip : LipNear g y a e L ρ) (γ' : ℝ → Ch)
    (hγ : ∀ t ∈ Icc a e, HasDerivWithinAt (fun t => encD (g t (y t))) (γ' t) (Icc a e) t) (hb : ∀ t ∈ Icc a e, ‖γ' t‖ ≤ Γ)
    (hl : ∀ s ∈ Icc a e, ∀ t ∈ Icc a e, ‖γ' s - γ' t‖ ≤ Γ * |s - t|) (hae : a ≤ e) {Ω : ℝ} (hΩ : Ω < 2 * Real.pi) (slow : ∀ t ∈ Icc a e, (g t (y t)).angVel.length ≤ Ω) :
    ∃ C h₀ ε₀ : ℝ, 0 ≤ C ∧ 0 < h₀ ∧ 0 < ε₀ ∧ ∀ ε ∈ Icc 0 ε₀, ∀ tab, NearTab m fsal ε tab → ∀ s : Settings ℝ, 0 < s.minTimeStep → ∀ h ∈ Ioc 0 h₀, ∀ dts,
      (s.targetError < 500000 → (∀ dt ∈ dts, max s.minTimeStep dt ≤ h) → a + (dts.map (max s.minTimeStep)).sum ≤ e →
        ∃ hs b' n, (∀ fuel > n, flyAdaptive bodyArith s tab fsal f fuel ⟨a, y a, none⟩ dts = .ok (hs, b')) ∧
          List.Forall₂ (fun k dt => s.minTimeStep ≤ k ∧ k ≤ max s.minTimeStep dt) hs dts ∧ b'.time = a + hs.sum ∧ Quat.Unit b'.state.ori ∧
          apart b'.state (y b'.time) ≤ C * (h ^ 2 + ε)) ∧
      ∀ fuel hs b', flyAdaptive bodyArith s tab fsal f fuel ⟨a, y a, none⟩ dts = .ok (hs, b') → (∀ x ∈ hs, x ≤ h) → b'.time ≤ e →
        b'.time = a + hs.sum ∧ hs.length = dts.length ∧ Quat.Unit b'.state.ori ∧ apart b'.state (y b'.time) ≤ C * (h ^ 2 + ε) := by
  obtain ⟨ρ', B, Γ', C, C2⟩ := course2_of M hL hρ hΓ lip γ' hγ hb hl
  obtain ⟨η, S⟩ := body_chart
  have hpi := Real.pi_pos
  have hΩ0 : 0 ≤ Ω := (norm_nonneg ((g a (y a)).angVel)).trans (slow a ⟨le_rfl, hae⟩)
  generalize hs0 : (coefI (ideal m)).s = s₀
  obtain ⟨σ₀, M', ε₁, hσ₀, hM', hε₁, near, far⟩ := turned_near (g := lift g) (y := fun t => enc (y t)) (R := 18) s₀ (by norm_num) C.bound hΩ0 hΩ slow
  obtain ⟨Z, h₀, ε₀, r, hZ, hh₀, hε₀, hr, c1, c2, c3, c4, c5, c6, c7, c8, key⟩ :=
    loose_second_order (R := 18) (N := s₀ * 18 + 2 * Real.pi) S C C2 s₀ (by norm_num) (by positivity) fsal hσ₀ hM'
  refine ⟨Z, h₀, min ε₀ (min ε₁ 1), hZ, hh₀, by positivity, fun ε hε tab hn s hmin h hh dts => ?_⟩
  have hεa : ε ∈ Icc 0 ε₀ := ⟨hε.1, hε.2.trans (min_le_left _ _)⟩
  have hεb : ε ∈ Icc 0 ε₁ := ⟨hε.1, hε.2.trans ((min_le_right _ _).trans (min_le_left _ _))⟩
  have hεc : ε ∈ Icc (0 : ℝ) 1 := ⟨hε.1, hε.2.trans ((min_le_right _ _).trans (min_le_right _ _))⟩
  have cl := near_close m hm fsal hεc hn
  rw [hs0] at cl
  have hua := M.unit a ⟨le_rfl, hae⟩
  have fin : ∀ fuel hs b', flyAdaptive bodyArith s tab fsal f fuel ⟨a, y a, none⟩ dts = .ok (hs, b') → (∀ x ∈ hs, x ≤ h) → b'.time ≤ e →
        b'.time = a + hs.sum ∧ hs.length = dts.length ∧ Quat.Unit b'.state.ori ∧ apart b'.state (y b'.time) ≤ Z * (h ^ 2 + ε) := by
    intro fuel hs b' hrun hle hend
    obtain ⟨r1, r2, r3, r4, r5⟩ := fly_flown s hmin tab hn.shape (R := 18) (by norm_num) cl.bounded.A fsal f g hf fuel dts ⟨a, y a, none⟩ b' hua hs hrun
    dsimp only [Option.map_none] at r1 r5
    rw [cl.s] at r5
    rw [r1] at hend
    have := key ε hεa (coefA tab) cl.s cl.bounded cl.c0 cl.o1 cl.o2 cl.fsal _ (near ε hεb (coefA tab) cl.s cl.bounded cl.row) h hh hs
      (fun x hx => ⟨hmin.trans_le (r4 x hx), hle x hx⟩) hend _ _ r5
    refine ⟨r1, r3, r2, ?_⟩
    rw [r1]
    exact this.2.1
  refine ⟨fun htar hdts hsum => ?_, fin⟩
  suffices run : ∀ (dts : List ℝ) (b : Flyer RBState RBDeriv) (pre : List ℝ), (∀ dt ∈ dts, max s.minTimeStep dt ≤ h) → b.time = a + pre.sum → Quat.Unit b.state.ori →
      (∀ x ∈ pre, x ∈ Ioc 0 h) → b.time + (dts.map (max s.minTimeStep)).sum ≤ e →
      Flown (LooseStep advE UnitO (coefA tab) (lift g) (s₀ * 18 + 2 * Real.pi) fsal (Turned (coefA tab))) a (enc (y a)) none pre (enc b.state) (b.cache.map encD) →
      ∃ hs b' n, (∀ fuel > n, flyAdaptive bodyArith s tab fsal f fuel b dts = .ok (hs, b')) ∧ List.Forall₂ (fun k dt => s.minTimeStep ≤ k ∧ k ≤ max s.minTimeStep dt) hs dts by
    obtain ⟨hs, b', n, k1, k2⟩ := run dts ⟨a, y a, none⟩ [] hdts (by simp) hua (by simp) hsum (.nil _ _ _)
    have hle : ∀ x ∈ hs, x ≤ h := by
      intro x hx
      obtain ⟨i, hi, rfl⟩ := List.mem_iff_getElem.1 hx
      have hi' : i < dts.length := k2.length_eq ▸ hi
      exact (k2.get hi hi').2.trans (hdts _ (List.getElem_mem hi'))
    have hsle : hs.sum ≤ (dts.map (max s.minTimeStep)).sum := by
      clear hdts hsum run k1 hle fin
      induction k2 with
      | nil => simp
      | cons h1 _ ih => simp only [List.map_cons, List.sum_cons]; exact add_le_add h1.2 ih
    have k1' := k1 (n + 1) (by omega)
    obtain ⟨r1, _⟩ := fly_flown s hmin tab hn.shape (R := 18) (by norm_num) cl.bounded.A fsal f g hf (n + 1) dts ⟨a, y a, none⟩ b' hua hs k1'
    dsimp only at r1
    obtain ⟨q1, q2, q3, q4⟩ := fin (n + 1) hs b' k1' hle (by rw [r1]; linarith)
    exact ⟨hs, b', n, k1, k2, q1, q3, q4⟩
  intro dts
  induction dts with
  | nil => exact fun b pre _ _ _ _ _ _ => ⟨[], b, 0, fun _ _ => rfl, .nil⟩
  | cons dt dts ih =>
    intro b pre hdts hbt hbu hpre hsum hfl
    have hdt := hdts dt (by simp)
    have hrest : 0 ≤ (dts.map (max s.minTimeStep)).sum := List.sum_nonneg fun z hz => by
      obtain ⟨w, _, rfl⟩ := List.mem_map.1 hz
      exact hmin.le.trans (le_max_left _ _)
    rw [List.map_cons, List.sum_cons] at hsum
    have hpnn : 0 ≤ pre.sum := List.sum_nonneg fun z hz => (hpre z hz).1.le
    have hmd : 0 < max s.minTimeStep dt := hmin.trans_le (le_max_left _ _)
    have hte : b.time ∈ Icc a e := ⟨by linarith, by linarith⟩
    obtain ⟨p1, p2, p3, _⟩ := key ε hεa (coefA tab) cl.s cl.bounded cl.c0 cl.o1 cl.o2 cl.fsal _ (near ε hεb (coefA tab) cl.s cl.bounded cl.row) h hh pre hpre
      (by rw [← hbt]; exact hte.2) _ _ hfl
    rw [← hbt] at p2 p3
    have hW := away_nonneg C (N := s₀ * 18 + 2 * Real.pi) (by positivity)
    have hL' := C.hL
    have hΓ' := C.hΓ
    have hK' := S.hK
    generalize hWd : away (s₀ * 18 + 2 * Real.pi) B L ρ' = W at *
    have hJ : devJ L W Γ' 1 M' = L * W + Γ' + 1 + L * (1 * M') + L * Γ' := rfl
    have hJ0 : 0 ≤ devJ L W Γ' 1 M' := by rw [hJ]; positivity
    generalize hJd : devJ L W Γ' 1 M' = J at *
    have hd : Z * (h ^ 2 + ε) ≤ r := by
      refine le_trans (mul_le_mul_of_nonneg_left ?_ hZ) c3
      exact add_le_add (pow_le_pow_left₀ hh.1.le hh.2 2) hεa.2
    have hkept : kept2 L Γ' 1 M' J ε h ≤ h₀ * J := by
      have hh0 := hh.1.le
      have hε0 := hε.1
      have e1 : kept2 L Γ' 1 M' J ε h = h * (h * (L * (1 * (M' * J))) + L * (1 * M') * ε + L * Γ' * h) := by unfold kept2; ring
      rw [e1]
      have f1 : h * (L * (1 * (M' * J))) ≤ 1 := (mul_le_mul_of_nonneg_right hh.2 (by positivity)).trans c7
      have f2 : L * (1 * M') * ε ≤ L * (1 * M') * 1 := mul_le_mul_of_nonneg_left hεc.2 (by positivity)
      have f3 : L * Γ' * h ≤ L * Γ' * 1 := mul_le_mul_of_nonneg_left (hh.2.trans c4) (by positivity)
      have f4 : 0 ≤ L * W := by positivity
      exact mul_le_mul hh.2 (by linarith) (by positivity) hh₀.le
    have hkept0 : 0 ≤ kept2 L Γ' 1 M' J ε h := by
      have hh0 := hh.1.le
      have hε0 := hε.1
      unfold kept2
      positivity
    have st := start_near C (M := 3 * L) (κ := kept2 L Γ' 1 M' J ε h) (by linarith) hkept0 hte ((unitO_enc _).2 hbu) p2 (by linarith) p3
    have hLr : 3 * L * (Z * (h ^ 2 + ε)) ≤ 3 * L * r := mul_le_mul_of_nonneg_left hd (by positivity)
    have hX0 : 0 ≤ Z * (h ^ 2 + ε) := (norm_nonneg _).trans p2
    have m1 := min_le_left σ₀ 1
    have m2 := min_le_right σ₀ 1
    have hstart : ‖encD (b.cache.getD (g b.time b.state)) - encD (g b.time (y b.time))‖ ≤ min σ₀ (L * ρ' + 1) := by
      have e1 : encD (b.cache.getD (g b.time b.state)) = (b.cache.map encD).getD (lift g b.time (enc b.state)) := by cases b.cache <;> rfl
      rw [e1]
      refine st.trans (le_min (by linarith) ?_)
      have : 0 ≤ L * ρ' := mul_nonneg hL' C.hρ.le
      linarith
    obtain ⟨k, b₁, n, s1, s2⟩ := step_returns bodyArith s hmin htar tab fsal f b dt (fun x hx1 hx2 => by
      have hx0 := hmin.le.trans hx1
      have hxh : x ≤ h₀ := hx2.trans (hdt.trans hh.2)
      refine attempt_runs (N := s₀ * 18 + 2 * Real.pi) (σ₀ := σ₀) C tab hn.shape (R := 18) (by norm_num) cl.bounded (by rw [cl.s]) b.cache f hf hte hx0 (by linarith) b.state hbu p2 hstart ?_ ?_ ?_
      · rw [hWd]
        have := (mul_le_mul_of_nonneg_right hxh hW).trans c5
        linarith
      · rw [hWd]
        have f1 : (L * W + Γ') * x ≤ J * h₀ := by
          refine mul_le_mul ?_ hxh hx0 hJ0
          have : 0 ≤ L * (1 * M') + L * Γ' := by positivity
          linarith
        have f2 : 0 ≤ L * (Z * (h ^ 2 + ε)) := by positivity
        linarith
      · rw [cl.s]
        exact far ε hεb (coefA tab) cl.bounded cl.row b.time hte)
    obtain ⟨t1, t2, t3, t4⟩ := flyStep_loose s hmin tab hn.shape (R := 18) (by norm_num) cl.bounded.A fsal f hf (n + 1) dt b b₁ hbu k (s2 (n + 1) (by omega))
    rw [cl.s, hbt] at t4
    obtain ⟨hs, b', n', i1, i2⟩ := ih b₁ (pre ++ [k]) (fun z hz => hdts z (by simp [hz])) (by rw [t1, hbt]; simp [add_assoc]) t2
      (fun x hx => by
        rcases List.mem_append.1 hx with hx | hx
        · exact hpre x hx
        · rw [List.mem_singleton.1 hx]; exact ⟨hmin.trans_le t3, s1.trans hdt⟩)
      (by rw [t1]; linarith) (hfl.snoc t4)
    refine ⟨k :: hs, b', max n n', fun fuel hfu => ?_, .cons ⟨t3, s1⟩ i2⟩
    unfold flyAdaptive
    rw [s2 fuel (lt_of_le_of_lt (le_max_left _ _) hfu)]
    dsimp only
    rw [i1 fuel (lt_of_le_of_lt (le_max_right _ _) hfu)]

end slow

end Mapleaf.Motion.Turn
