import Verif.Motion.TurnCalcProps
import Verif.Motion.LimitClaims
import Verif.Motion.BodyFlightProps
import Mathlib.Analysis.Normed.Algebra.QuaternionExponential

/-! # C94: the steps of rigid bodies in the code as steps on a normed space -/

namespace Mapleaf.Motion.Turn
open Set Mapleaf.Motion.Lim Mapleaf.Motion.RK Mapleaf.Motion.Body Mapleaf
open NormedSpace (exp)

attribute [local instance] vNorm vSpace

/-! ## Stages as lists -/

section lists
variable {E D : Type} [NormedAddCommGroup E] [NormedAddCommGroup D] [NormedSpace ℝ D]

theorem wsum_getD (ws : List ℝ) (ks : List D) (h : ws.length ≤ ks.length) :
    wsum ws ks = ∑ j ∈ Finset.range ws.length, ws.getD j 0 • ks.getD j 0 := by
  have e1 : ks = (List.range ks.length).map (fun j => ks.getD j 0) := by
    apply List.ext_getElem
    · simp
    · intro i h1 h2
      simp [List.getD_eq_getElem?_getD, List.getElem?_eq_getElem h1]
  conv_lhs => rw [e1]
  exact wsum_range ws _ _ _ le_rfl h

/-- The stages of the code are those of the method. -/
theorem stages_list (rows : Tableau ℝ) (b : List ℝ) (hex : Explicit 0 rows) (adv : E → D → E) (h0 : ∀ x, adv x 0 = x) (g : ℝ → E → D) (t : ℝ) (x : E)
    (h : ℝ) (ks : List D) (hk : ks = g t x :: rows.map (fun r => g (t + h * r.headD 0) (adv x (h • wsum r.tail ks)))) :
    ks = (List.range (rows.length + 1)).map (stageG (coefOf rows b) adv g t x h) := by
  have hlen : ks.length = rows.length + 1 := by rw [hk]; simp
  have key : ∀ i < rows.length + 1, ks.getD i 0 = stageG (coefOf rows b) adv g t x h i := by
    intro i
    induction i using Nat.strong_induction_on with
    | _ i ih =>
      intro hi
      rw [stage_change]
      cases i with
      | zero =>
        rw [hk]
        simp [coefOf, changeG, h0]
      | succ i =>
        have hi' : i < rows.length := by omega
        have hget : rows[i] = rows.getD i [] := by rw [List.getD_eq_getElem?_getD, List.getElem?_eq_getElem hi']; rfl
        have hl : rows[i].tail.length = i + 1 := by
          rw [List.length_tail, hget, explicit_row rows 0 i hex hi']
          omega
        have e1 : ks.getD (i + 1) 0 = g (t + h * rows[i].headD 0) (adv x (h • wsum rows[i].tail ks)) := by
          conv_lhs => rw [hk]
          rw [List.getD_cons_succ, List.getD_eq_getElem?_getD, List.getElem?_map, List.getElem?_eq_getElem hi']
          rfl
        have e2 : h • wsum rows[i].tail ks = changeG (coefOf rows b) adv g t x h (i + 1) := by
          rw [wsum_getD _ _ (by omega), hl]
          unfold changeG
          congr 1
          refine Finset.sum_congr rfl fun j hj => ?_
          have hj' := Finset.mem_range.1 hj
          rw [ih j (by omega) (by omega), hget]
          simp only [coefOf, List.getD_cons_succ]
        rw [e1, e2, hget]
        simp only [coefOf, List.getD_cons_succ]
  apply List.ext_getElem
  · simpa using hlen
  · intro i h1 h2
    have := key i (by omega)
    rw [List.getD_eq_getElem?_getD, List.getElem?_eq_getElem h1] at this
    simpa using this

theorem wsum_incrG (rows : Tableau ℝ) (b : List ℝ) (hb : b.length = rows.length + 1) (adv : E → D → E) (g : ℝ → E → D) (t : ℝ) (x : E) (h : ℝ) :
    wsum b ((List.range (rows.length + 1)).map (stageG (coefOf rows b) adv g t x h)) = incrG (coefOf rows b) adv g t x h := by
  rw [wsum_range b _ (rows.length + 1) (rows.length + 1) (by omega) le_rfl]
  rfl

end lists

/-! ## States and derivatives of rigid bodies -/

/-- position, velocity, angular velocity; and orientation -/
abbrev St := (V3 ℝ × V3 ℝ × V3 ℝ) × Quaternion ℝ

/-- rates of position, velocity, angular velocity; and rotation vector -/
abbrev Ch := (V3 ℝ × V3 ℝ × V3 ℝ) × V3 ℝ

def enc (s : RBState) : St := ((s.pos, s.vel, s.angVel), Quat.toH s.ori)
def dec (x : St) : RBState := ⟨x.1.1, x.1.2.1, ⟨x.2.re, x.2.imI, x.2.imJ, x.2.imK⟩, x.1.2.2⟩
def encD (d : RBDeriv) : Ch := ((d.vel, d.acc, d.angAcc), d.angVel)

@[simp] theorem dec_enc (s : RBState) : dec (enc s) = s := rfl
@[simp] theorem enc_dec (x : St) : enc (dec x) = x := rfl

theorem encD_add (a b : RBDeriv) : encD (a + b) = encD a + encD b := rfl
theorem encD_smul (k : ℝ) (a : RBDeriv) : encD (k • a) = k • encD a := rfl
theorem encD_zero : encD 0 = 0 := rfl

theorem encD_wsum (ws : List ℝ) (ks : List RBDeriv) : encD (wsum ws ks) = wsum ws (ks.map encD) := by
  induction ws generalizing ks with
  | nil => simp [wsum, encD_zero]
  | cons w ws ih =>
    cases ks with
    | nil => simp [wsum, encD_zero]
    | cons k ks => rw [wsum_cons, List.map_cons, wsum_cons, encD_add, encD_smul, ih]

/-- half of a vector as an imaginary quaternion -/
noncomputable def half (w : V3 ℝ) : Quaternion ℝ := (1 / 2 : ℝ) • Quat.pureH w

theorem pureH_add (a b : V3 ℝ) : Quat.pureH (a + b) = Quat.pureH a + Quat.pureH b := by ext <;> simp
theorem pureH_smul (k : ℝ) (a : V3 ℝ) : Quat.pureH (k • a) = k • Quat.pureH a := by ext <;> simp [mul_comm]

theorem norm_pureH (w : V3 ℝ) : ‖Quat.pureH w‖ = ‖w‖ := by
  show _ = w.length
  have h1 := Quaternion.normSq_eq_norm_mul_self (Quat.pureH w)
  rw [Quaternion.normSq_def'] at h1
  unfold V3.length
  rw [← Real.sqrt_mul_self (norm_nonneg (Quat.pureH w)), ← h1]
  congr 1
  simp [Quat.pureH]
  ring

theorem half_add (a b : V3 ℝ) : half (a + b) = half a + half b := by rw [half, half, half, pureH_add, smul_add]
theorem half_smul (k : ℝ) (a : V3 ℝ) : half (k • a) = k • half a := by rw [half, half, pureH_smul, smul_comm]

/-- `half` as a continuous linear map -/
noncomputable def halfL : V3 ℝ →L[ℝ] Quaternion ℝ :=
  LinearMap.mkContinuous ⟨⟨half, half_add⟩, half_smul⟩ (1 / 2) (fun w => by
    show ‖half w‖ ≤ _
    rw [half, norm_smul, norm_pureH]
    norm_num)

@[simp] theorem halfL_apply (w : V3 ℝ) : halfL w = half w := rfl

theorem norm_half (w : V3 ℝ) : ‖half w‖ = ‖w‖ / 2 := by
  rw [half, norm_smul, norm_pureH]
  norm_num
  ring

theorem half_sub (a b : V3 ℝ) : half (a - b) = half a - half b := halfL.map_sub a b
theorem half_re (w : V3 ℝ) : (half w).re = 0 := by simp [half]

/-- The quaternion of a rotation vector is the exponential of its half. -/
theorem turn_exp (w : V3 ℝ) : Quat.toH (Quat.ofRotationVector w) = exp (half w) := by
  rw [Quaternion.exp_of_re_eq_zero _ (half_re w), norm_half]
  by_cases hw : w = 0
  · subst hw
    rw [turn_zero]
    have h0 : half 0 = 0 := by rw [← halfL_apply, map_zero]
    rw [h0, norm_zero]
    ext <;> simp <;> rfl
  · have h1 := turn_axis hw 1
    rw [one_smul, one_mul] at h1
    have hl : 0 < w.length := lt_of_le_of_ne (V3.length_nonneg w) (fun h => hw ((V3.length_zero_iff w).1 h.symm))
    rw [h1, show ‖w‖ = w.length from rfl]
    unfold Quat.axisAngle V3.normalize
    rw [if_pos hl]
    ext
    · simp [half]
    all_goals
      simp [half]
      field_simp

theorem norm_exp_half (w : V3 ℝ) : ‖exp (half w)‖ = 1 := by rw [Quaternion.norm_exp, half_re]; simp

/-- a state changed by `u` -/
noncomputable def advE (x : St) (u : Ch) : St := (x.1 + u.1, exp (half u.2) * x.2)

theorem enc_advance (s : RBState) (d : RBDeriv) : enc (advance s d) = advE (enc s) (encD d) := by
  unfold advE
  rw [show (encD d).2 = d.angVel from rfl, ← turn_exp, show (enc s).2 = Quat.toH s.ori from rfl, ← Quat.toH_mul]
  rfl

/-- the states with unit orientations -/
def UnitO (x : St) : Prop := ‖x.2‖ = 1

theorem unitO_enc (s : RBState) : UnitO (enc s) ↔ Quat.Unit s.ori := by
  unfold UnitO Quat.Unit
  rw [show (enc s).2 = Quat.toH s.ori from rfl, Quat.nsq_eq_normSq, Quaternion.normSq_eq_norm_mul_self]
  constructor
  · intro h; rw [h]; norm_num
  · intro h; nlinarith [norm_nonneg (Quat.toH s.ori)]

/-- Changes of states of rigid bodies move neighbours together. -/
theorem body_chart : ∃ η : ℝ, Chart advE UnitO η 1 := by
  obtain ⟨η, hη, key⟩ := exp_lip (Quaternion ℝ)
  refine ⟨min 1 η, ?_, ?_, ?_, lt_min one_pos hη, min_le_left _ _, zero_le_one⟩
  · intro x
    unfold advE
    have : half 0 = 0 := by rw [← halfL_apply, map_zero]
    ext1
    · simp
    · simp only [Prod.snd_zero, this, NormedSpace.exp_zero, one_mul]
  · intro x u hx
    unfold UnitO advE at *
    rw [norm_mul, norm_exp_half, hx, one_mul]
  · intro x z u v hx hz hu hv
    have hu2 : ‖half u.2‖ ≤ η := by
      rw [norm_half]
      have : ‖u.2‖ ≤ η := (norm_snd_le u).trans (hu.trans (min_le_right _ _))
      linarith [norm_nonneg u.2]
    have hv2 : ‖half v.2‖ ≤ η := by
      rw [norm_half]
      have : ‖v.2‖ ≤ η := (norm_snd_le v).trans (hv.trans (min_le_right _ _))
      linarith [norm_nonneg v.2]
    have e1 := key _ _ hu2 hv2
    rw [← half_sub, norm_half] at e1
    have p0 : 0 ≤ ‖u‖ * ‖x - z‖ := by positivity
    have hgoal : ‖x - z‖ + ‖u - v‖ ≤ (1 + 1 * ‖u‖) * ‖x - z‖ + 1 * ‖u - v‖ := by linarith
    refine le_trans ?_ hgoal
    rw [Prod.norm_def]
    apply max_le
    · have : (advE x u - advE z v).1 = (x - z).1 + (u - v).1 := by
        show x.1 + u.1 - (z.1 + v.1) = x.1 - z.1 + (u.1 - v.1)
        abel
      rw [this]
      exact (norm_add_le _ _).trans (add_le_add (norm_fst_le _) (norm_fst_le _))
    · have : (advE x u - advE z v).2 = exp (half u.2) * (x - z).2 + (exp (half u.2) - exp (half v.2)) * z.2 := by
        show exp (half u.2) * x.2 - exp (half v.2) * z.2 = exp (half u.2) * (x.2 - z.2) + (exp (half u.2) - exp (half v.2)) * z.2
        rw [mul_sub, sub_mul]
        abel
      rw [this]
      refine (norm_add_le _ _).trans ?_
      rw [norm_mul, norm_mul, norm_exp_half, one_mul, show ‖z.2‖ = 1 from hz, mul_one]
      refine add_le_add (norm_snd_le _) (e1.trans ?_)
      have : ‖u.2 - v.2‖ ≤ ‖u - v‖ := norm_snd_le (u - v)
      linarith

/-! ## Steps of the code -/

/-- a right-hand side on the normed space -/
noncomputable def lift (g : ℝ → RBState → RBDeriv) (t : ℝ) (x : St) : Ch := encD (g t (dec x))

theorem advE_zero (x : St) : advE x 0 = x := by
  obtain ⟨η, h⟩ := body_chart
  exact h.zero x

theorem tableau_step (m : String) (tab : Tableau ℚ) (hm : classicalTableau m = .ok (some tab)) (f : ℝ → RBState → Except PyErr RBDeriv)
    (g : ℝ → RBState → RBDeriv) (hf : ∀ t s, Quat.Unit s.ori → f t s = .ok (g t s)) (t : ℝ) (y : RBState) (hy : Quat.Unit y.ori)
    (dt : ℝ) (hdt : dt ≠ 0) :
    ∃ r, Body.classicalStep bodyArith m f t y dt = .ok r ∧ Quat.Unit r.newValue.ori ∧
      enc r.newValue = stepG (coefOf (rowsOf (patch tab)) (weightsOf (patch tab))) advE (lift g) t (enc y) dt := by
  obtain ⟨r, ks, rows, b, h1, h2, h3, h4, h5, _, h7, _⟩ := six_dof_step m tab hm f g hf t y hy dt hdt
  refine ⟨r, h1, h7, ?_⟩
  have hne : patch tab ≠ [] := by intro h0; rw [h0] at h2; simp at h2
  have hrows : rowsOf (patch tab) = rows := by
    have : rowsOf (patch tab) = ((patch tab).map (fun r => r.map (fun q : ℚ => (q : ℝ)))).take ((patch tab).length - 1) := by
      rw [← List.map_take]; rfl
    have hl : (patch tab).length = rows.length + 1 := by have := congrArg List.length h2; simpa using this
    rw [this, h2, hl]
    simp
  have hb : weightsOf (patch tab) = b := by
    have e1 := congrArg List.getLast? h2
    rw [List.getLast?_map, List.getLast?_eq_some_getLast hne] at e1
    simp only [Option.map_some, List.getLast?_append, List.getLast?_singleton, Option.some_or, Option.some.injEq] at e1
    unfold weightsOf
    rw [List.getLast?_eq_some_getLast hne]
    exact e1
  rw [hrows, hb]
  obtain ⟨hc, hs⟩ := tableau_checks m tab hm
  have hex : Explicit 0 rows := by
    have := (shape_cast 1 (patch tab) hs : Shape 1 (castT (patch tab) : Tableau ℝ)).explicit
    rw [castT_length, castT_take] at this
    rw [← hrows]
    exact this
  have hlen : ks.length = rows.length + 1 := by rw [h4]; simp
  have hk : ks.map encD = lift g t (enc y) :: rows.map (fun r => lift g (t + dt * r.headD 0) (advE (enc y) (dt • wsum r.tail (ks.map encD)))) := by
    conv_lhs => rw [h4]
    rw [List.map_cons, List.map_map]
    congr 1
    apply List.map_congr_left
    intro r _
    unfold lift
    simp only [Function.comp]
    rw [← encD_wsum, ← encD_smul, ← enc_advance, dec_enc]
  rw [h5, enc_advance, encD_smul, encD_wsum, stages_list rows b hex advE advE_zero (lift g) t (enc y) dt _ hk,
    wsum_incrG rows b (by omega)]
  rfl

/-- a step with a tableau of real numbers -/
theorem real_step (tab rows : Tableau ℝ) (b : List ℝ) (hsplit : tab = rows ++ [b]) (hshape : Shape 1 tab) (f : ℝ → RBState → Except PyErr RBDeriv)
    (g : ℝ → RBState → RBDeriv) (hf : ∀ t s, Quat.Unit s.ori → f t s = .ok (g t s)) (t : ℝ) (y : RBState) (hy : Quat.Unit y.ori)
    (dt : ℝ) (hdt : dt ≠ 0) :
    ∃ r, Body.rkStep bodyArith tab f t y dt = .ok r ∧ Quat.Unit r.newValue.ori ∧ enc r.newValue = stepG (coefOf rows b) advE (lift g) t (enc y) dt := by
  obtain ⟨r, ks, b', h1, h2, h3, h4, _, h6, _, _⟩ := rkStep_gen body_lawful tab hshape f g (fun s => Quat.Unit s.ori)
    (fun _ => True) (fun t s h => ⟨hf t s h, trivial⟩) t y hy hy dt hdt (fun _ _ _ _ _ => advance_unit _ _ hy)
  refine ⟨r, h1, by rw [h6]; exact advance_unit _ _ hy, ?_⟩
  have hd : tab.dropLast = rows := by rw [hsplit]; simp
  have hb : b' = b := by rw [hsplit] at h2; simpa using h2.symm
  subst hb
  rw [hd] at h4
  have hex : Explicit 0 rows := by
    have := hshape.explicit
    rw [hsplit] at this
    simpa using this
  have hlen : ks.length = rows.length + 1 := by rw [h4]; simp
  have hk : ks.map encD = lift g t (enc y) :: rows.map (fun r => lift g (t + dt * r.headD 0) (advE (enc y) (dt • wsum r.tail (ks.map encD)))) := by
    conv_lhs => rw [h4]
    rw [List.map_cons, List.map_map]
    congr 1
    apply List.map_congr_left
    intro r _
    unfold lift
    simp only [Function.comp]
    rw [← encD_wsum, ← encD_smul, ← enc_advance, dec_enc]
  rw [h6, enc_advance, encD_smul, encD_wsum, stages_list rows b' hex advE advE_zero (lift g) t (enc y) dt _ hk,
    wsum_incrG rows b' (by omega)]
  rfl

theorem euler_step (f : ℝ → RBState → Except PyErr RBDeriv)
    (g : ℝ → RBState → RBDeriv) (hf : ∀ t s, Quat.Unit s.ori → f t s = .ok (g t s)) (t : ℝ) (y : RBState) (hy : Quat.Unit y.ori) (dt : ℝ) :
    ∃ r, Body.classicalStep bodyArith "Euler" f t y dt = .ok r ∧ Quat.Unit r.newValue.ori ∧
      enc r.newValue = stepG (coefOf [] [1]) advE (lift g) t (enc y) dt := by
  refine ⟨_, six_dof_euler f t y hy dt (g t y) (hf t y hy), advance_unit _ _ hy, ?_⟩
  have h1 : incrG (coefOf [] [1]) advE (lift g) t (enc y) dt = encD (g t y) := by
    have : stageG (coefOf [] [1]) advE (lift g) t (enc y) dt 0 = encD (g t y) := by
      rw [stage_change]
      simp [changeG, coefOf, advE_zero, lift]
    simp [incrG, coefOf] at this ⊢
    exact this
  unfold stepG
  rw [h1, ← encD_smul, enc_advance]

/-- the fixed-step methods with exact weights -/
theorem body_methods (m : String) (hmp : m ∈ ["Euler", "RK2Heun", "RK4", "RK4_3/8"]) : ∃ q : Coef, q.Bounded 1 ∧
    (∀ i < q.s, |∑ j ∈ Finset.range i, q.A i j - q.c i| ≤ if m = "RK4" then (q.s : ℝ) * (1 / 10 ^ 16) else 0) ∧ ∑ i ∈ Finset.range q.s, q.b i = 1 ∧ (m ≠ "Euler" →
      ∑ i ∈ Finset.range q.s, q.b i * q.c i = 1 / 2) ∧ q.s ≤ 4 ∧
    ∀ (f : ℝ → RBState → Except PyErr RBDeriv) (g : ℝ → RBState → RBDeriv), (∀ t s, Quat.Unit s.ori → f t s = .ok (g t s)) →
      ∀ t (y : RBState), Quat.Unit y.ori → ∀ dt, dt ≠ 0 → ∃ r, Body.classicalStep bodyArith m f t y dt = .ok r ∧ Quat.Unit r.newValue.ori ∧
        enc r.newValue = stepG q advE (lift g) t (enc y) dt := by
  have table : ∀ (m : String) (p : ℕ) (tab : Tableau ℚ), classicalTableau m = .ok (some tab) → Fit tab p → 2 ≤ p →
      weightsOf (patch tab) = weightsOf tab → (m ≠ "RK4" → patch tab = tab) → (rowsOf tab).length + 1 ≤ 4 →
      ∃ q : Coef, q.Bounded 1 ∧
    (∀ i < q.s, |∑ j ∈ Finset.range i, q.A i j - q.c i| ≤ if m = "RK4" then (q.s : ℝ) * (1 / 10 ^ 16) else 0) ∧ ∑ i ∈ Finset.range q.s, q.b i = 1 ∧ (m ≠ "Euler" →
      ∑ i ∈ Finset.range q.s, q.b i * q.c i = 1 / 2) ∧ q.s ≤ 4 ∧
    ∀ (f : ℝ → RBState → Except PyErr RBDeriv) (g : ℝ → RBState → RBDeriv), (∀ t s, Quat.Unit s.ori → f t s = .ok (g t s)) →
      ∀ t (y : RBState), Quat.Unit y.ori → ∀ dt, dt ≠ 0 → ∃ r, Body.classicalStep bodyArith m f t y dt = .ok r ∧ Quat.Unit r.newValue.ori ∧
        enc r.newValue = stepG q advE (lift g) t (enc y) dt := by
    intro m p tab hm hf hp hw hx h4
    obtain ⟨n1, n2, n3⟩ := patched_near tab
    refine ⟨coefOf (rowsOf (patch tab)) (weightsOf (patch tab)), hf.bound', ?_, ?_, ?_, ?_, fun f g hfg t y hy dt hdt => tableau_step m tab hm f g hfg t y hy dt hdt⟩
    · intro i hi
      rw [n3] at hi ⊢
      have hr := hf.rows i hi
      by_cases hrk : m = "RK4"
      swap
      · rw [if_neg hrk, hx hrk, hr]; simp
      rw [if_pos hrk]
      rw [hf.nodes, ← hr, ← Finset.sum_sub_distrib]
      refine (Finset.abs_sum_le_sum_abs _ _).trans ?_
      refine (Finset.sum_le_sum fun j _ => n1 i j).trans ?_
      rw [Finset.sum_const, Finset.card_range, nsmul_eq_mul]
      exact mul_le_mul_of_nonneg_right (by exact_mod_cast hi.le) (by positivity)
    · have := hf.order.o1 (by omega)
      unfold Coef.dot at this
      simp only [mul_one] at this
      rw [n3]
      rw [show (coefOf (rowsOf (patch tab)) (weightsOf (patch tab))).b = (coefOf (rowsOf tab) (weightsOf tab)).b by simp only [coefOf, hw]]
      exact this
    · intro _
      have := hf.order.o2 hp
      rw [n3, hf.nodes, show (coefOf (rowsOf (patch tab)) (weightsOf (patch tab))).b = (coefOf (rowsOf tab) (weightsOf tab)).b by simp only [coefOf, hw]]
      unfold Coef.dot at this
      exact this
    · rw [n3]; exact h4
  simp only [List.mem_cons, List.not_mem_nil, or_false] at hmp
  rcases hmp with rfl | rfl | rfl | rfl
  · refine ⟨coefOf [] [1], fit_euler.1, ?_, ?_, fun h => absurd rfl h, by simp [coefOf], fun f g hfg t y hy dt _ => euler_step f g hfg t y hy dt⟩
    · intro i hi
      have h0 : i = 0 := by have : i < 1 := hi
                            omega
      subst h0
      simp [coefOf]
    · simp [coefOf]
  · exact table "RK2Heun" 2 tabRK2Heun (by simp [classicalTableau]) fit_heun le_rfl (patched_b _ (by decide +kernel)) (fun _ => by decide +kernel) (by simp [rowsOf, tabRK2Heun, castT])
  · exact table "RK4" 4 tabRK4 (by simp [classicalTableau]) fit_rk4 (by norm_num) (patched_b _ (by decide +kernel)) (fun h => absurd rfl h) (by simp [rowsOf, tabRK4, castT])
  · exact table "RK4_3/8" 4 tabRK438 (by simp [classicalTableau]) fit_rk438 (by norm_num) (patched_b _ (by decide +kernel)) (fun _ => by decide +kernel) (by simp [rowsOf, tabRK438, castT])

end Mapleaf.Motion.Turn
