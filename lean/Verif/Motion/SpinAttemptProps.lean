import Verif.Motion.BodyAdaptProps
import Mathlib.Analysis.Real.Pi.Bounds

/-! # Adaptive steps of steadily spinning bodies -/

namespace Mapleaf.Motion.Body
open Mapleaf Mapleaf.Motion
open Mapleaf.Motion.RK (Tableau wsum Explicit NonZero Shape wsum_cons wsum_append_right castT castL patch shapeB rowsConsistent
  adaptiveTableau checkTableau shape_cast checkTableau_cast castT_def castT_dropLast castT_getLast castT_take castT_length isStages_unique IsStages
  adaptive_runs castL_tail sum_castL adaptiveWorking adaptiveMethods)
open Mapleaf.Motion.Stepper (ballistic)

/-- **C92 violated (changing axis).** Rotations about different axes are done one after the other, for a whole unit of time, before
the time step is applied. Half a turn about `x` and half a turn about `y` make half a turn about `-z`, so the stage is turned about
`-z`, by `π dt`, however small the time step; it should be turned about the mean axis `(1, 1, 0)`. -/
theorem adaptive_stage_axes_violated (y : RBState) (hy : Quat.Unit y.ori) (dt a₁ a₂ : ℝ) (h1 : a₁ ≠ 0) (h2 : a₂ ≠ 0) (k₁ k₂ : RBDeriv)
    (e1 : k₁.angVel = ⟨Real.pi / a₁, 0, 0⟩) (e2 : k₂.angVel = ⟨0, Real.pi / a₂, 0⟩) :
    ∃ s, stageState bodyArith y dt [a₁, a₂] [k₁, k₂] = .ok s ∧ s.ori = (Quat.axisAngle ⟨0, 0, -1⟩ (Real.pi * dt)).mul y.ori ∧
      (advance y (dt • wsum [a₁, a₂] [k₁, k₂])).ori = (Quat.ofRotationVector ⟨dt * Real.pi, dt * Real.pi, 0⟩).mul y.ori := by
  have hpi := Real.pi_pos
  have ax : ∀ (u : V3 ℝ), u.length = 1 → Quat.ofRotationVector (Real.pi • u) = ⟨0, u.x, u.y, u.z⟩ := by
    intro u hu
    have hne : u ≠ 0 := by intro h; rw [h, (V3.length_zero_iff 0).2 rfl] at hu; norm_num at hu
    have hn : u.normalize = u := (V3.normalize_unique _ _ hne (by rw [hu, one_smul])).symm
    rw [turn_axis hne, hu, mul_one]
    unfold Quat.axisAngle
    rw [hn, Real.cos_pi_div_two, Real.sin_pi_div_two]
    simp
  have lx : (⟨1, 0, 0⟩ : V3 ℝ).length = 1 := by simp [V3.length]
  have ly : (⟨0, 1, 0⟩ : V3 ℝ).length = 1 := by simp [V3.length]
  have hr : rots [a₁, a₂] [k₁, k₂] = ⟨0, 0, 0, -1⟩ := by
    have v1 : a₁ • k₁.angVel = Real.pi • (⟨1, 0, 0⟩ : V3 ℝ) := by rw [e1]; apply V3.ext' <;> simp; field_simp
    have v2 : a₂ • k₂.angVel = Real.pi • (⟨0, 1, 0⟩ : V3 ℝ) := by rw [e2]; apply V3.ext' <;> simp; field_simp
    rw [rots, rots, v1, v2, ax _ lx, ax _ ly]
    apply Quat.ext4 <;> simp [rots, Quat.mul]
  have hne : rots [a₁, a₂] [k₁, k₂] ≠ ⟨-1, 0, 0, 0⟩ := by rw [hr]; intro h; have := congrArg Quat.q0 h; norm_num at this
  refine ⟨_, ((adaptive_stage y hy dt [a₁, a₂] [k₁, k₂] (by simp) (by simp)).2 hne).1, ?_, ?_⟩
  · show (partTurn (rots [a₁, a₂] [k₁, k₂]) dt).mul y.ori = _
    rw [hr]
    unfold partTurn
    dsimp only
    rw [Real.arccos_zero]
    congr 2
    ring
  · unfold advance
    rw [RBDeriv.smul_angVel]
    have : (wsum [a₁, a₂] [k₁, k₂]).angVel = ⟨Real.pi, Real.pi, 0⟩ := by
      rw [wsum_cons, wsum_cons]
      simp only [RBDeriv.add_angVel, RBDeriv.smul_angVel, e1, e2]
      simp [wsum]
      apply V3.ext' <;> simp <;> field_simp
    rw [this]
    dsimp only
    congr 2
    apply V3.ext' <;> simp [mul_comm]

theorem conj_mulQ {q : Quat ℝ} (h : Quat.Unit q) (p : Quat ℝ) : (p.mul q).mul q.conj = p := by
  unfold Quat.Unit Quat.nsq at h
  apply Quat.ext4 <;> simp [Quat.mul, Quat.conj]
  · linear_combination p.q0 * h
  · linear_combination p.q1 * h
  · linear_combination p.q2 * h
  · linear_combination p.q3 * h

theorem conj_turn (v : V3 ℝ) : (Quat.ofRotationVector v).conj = Quat.ofRotationVector (-v) := by
  by_cases hv : v = 0
  · subst hv
    rw [neg_zero, turn_zero]
    apply Quat.ext4 <;> simp [Quat.conj]
  · have := turn_axis hv (-1)
    rw [neg_one_smul] at this
    rw [this, turn_self hv]
    unfold Quat.axisAngle
    rw [show -1 * v.length / 2 = -(v.length / 2) by ring, Real.cos_neg, Real.sin_neg]
    apply Quat.ext4 <;> simp [Quat.conj]

/-- the angle between two turns of one orientation about the same axis -/
theorem turns_apart {q : Quat ℝ} (h : Quat.Unit q) (W : V3 ℝ) (x x' : ℝ) (hx : |x - x'| * W.length ≤ 2 * Real.pi) :
    2 * Real.arccos ((((Quat.ofRotationVector (x • W)).mul q).mul ((Quat.ofRotationVector (x' • W)).mul q).conj).q0) =
      |x - x'| * W.length := by
  have e : ((Quat.ofRotationVector (x • W)).mul q).mul ((Quat.ofRotationVector (x' • W)).mul q).conj =
      Quat.ofRotationVector ((x - x') • W) := by
    have hc : ((Quat.ofRotationVector (x' • W)).mul q).conj = q.conj.mul (Quat.ofRotationVector (x' • W)).conj := by
      apply Quat.ext4 <;> simp [Quat.mul, Quat.conj] <;> ring
    rw [hc, mul_assocQ, conj_mulQ h, conj_turn, ← neg_smul, turn_add, sub_eq_add_neg]
  rw [e, turn_re, V3.length_smul, Real.arccos_cos (by have := mul_nonneg (abs_nonneg (x - x')) (V3.length_nonneg W); linarith) (by linarith)]
  ring

theorem spin_attempt_tableau (tab : Tableau ℚ) (hs : shapeB 2 (patch tab) = true) (f : ℝ → RBState → Except PyErr RBDeriv) (a w W : V3 ℝ)
    (hf : Steady f a w) (cache : Option RBDeriv) (t dt : ℝ) (y : RBState) (hy : Spinning w W y) (hcache : ∀ k ∈ cache, k = ⟨y.vel, a, W, 0⟩)
    (hrows : ∀ r ∈ (castT ((patch tab).take ((patch tab).length - 2)) : Tableau ℝ), |r.tail.sum| * W.length < 2 * Real.pi)
    (β β' : ℚ) (hβ : ((patch tab).dropLast.getLast?.getD []).sum = β) (hβ' : ((patch tab).getLast?.getD []).sum = β')
    (hΔ : |(β : ℝ) * dt - β' * dt| * W.length ≤ 2 * Real.pi) :
    ∃ A A3, attempt bodyArith (castT (patch tab)) cache f t y dt = .ok A ∧
      RK.attempt (fun d : V3 ℝ × V3 ℝ => d.1.length + d.2.length) (castT (patch tab)) none (ballistic a) t (y.pos, y.vel) dt = .ok A3 ∧
      A.newValue = ⟨A3.newValue.1, A3.newValue.2, (Quat.ofRotationVector (((β : ℝ) * dt) • W)).mul y.ori, w⟩ ∧
      A.error = 100 * (|(β : ℝ) * dt - β' * dt| * W.length) + A3.error ∧ A.last.angVel = W := by
  have hshape : Shape 2 (castT (patch tab) : Tableau ℝ) := shape_cast 2 (patch tab) hs
  obtain ⟨b, bc, hb, hbc, l1, l2, n1, n2⟩ := result_rows _ hshape
  have hrowsEq : (castT (patch tab) : Tableau ℝ).dropLast.dropLast = castT ((patch tab).take ((patch tab).length - 2)) := by
    rw [RK.dropLast_dropLast, castT_length, castT_take]
  have hex : Explicit 0 (castT ((patch tab).take ((patch tab).length - 2)) : Tableau ℝ) := by
    have := hshape.explicit
    rwa [castT_length, castT_take] at this
  have hk0 : cache.getD ⟨y.vel, a, W, 0⟩ = ⟨y.vel, a, W, 0⟩ := by
    cases cache with
    | none => rfl
    | some k => exact hcache k rfl
  have hfirst : ∃ ev, firstK cache f t y = .ok (⟨y.vel, a, W, 0⟩, ev) := by
    cases cache with
    | none =>
      refine ⟨[(t, y)], ?_⟩
      unfold firstK
      dsimp only
      rw [hf t y hy.1 hy.2.1, hy.2.2]
    | some k => exact ⟨[], by rw [hcache k rfl]; rfl⟩
  obtain ⟨ev, hfirst⟩ := hfirst
  obtain ⟨ks, g1, g2, g3⟩ := stagesA_gen (A := bodyArith) f (fun _ s => (⟨s.vel, a, s.ori.rotF w, 0⟩ : RBDeriv)) (Spinning w W)
    (fun k => k.acc = a ∧ k.angVel = W ∧ k.angAcc = 0) id (fun t s h => ⟨hf t s h.1 h.2.1, rfl, h.2.2, rfl⟩) t y dt
    (fun ws ks => advance y (dt • wsum ws ks)) (fun ws ks ks' h => by rw [wsum_append_right ws ks ks' h])
    (castT ((patch tab).take ((patch tab).length - 2)))
    (fun r hr ks hks h0 hl => by
      obtain ⟨q1, q2⟩ := adaptive_stage_partial y hy.1 dt W r.tail ks h0 hl (fun k hk => (hks k hk).2.1) (hrows r hr)
      obtain ⟨_, q3⟩ := wsum_spin W r.tail ks (fun k hk => (hks k hk).2) hl
      exact ⟨by rw [List.map_id]; exact q1, spinning_advance hy (dt * r.tail.sum) _ (by rw [RBDeriv.smul_angVel, q2, smul_smul])
        (by rw [RBDeriv.smul_angAcc, q3, smul_zero])⟩)
    0 [⟨y.vel, a, W, 0⟩] ev (by simp) rfl hex
  simp only [List.map_cons, List.map_nil, List.map_id, id] at g1
  have hlen : ks.length = (castT (patch tab) : Tableau ℝ).length - 2 + 1 := by
    rw [g2]; simp [castT]
  have hne : ks ≠ [] := by rintro rfl; simp at hlen
  obtain ⟨A3, ks3, r1, r2, r3, r4, _⟩ := adaptive_runs (K := ℝ) (fun d : V3 ℝ × V3 ℝ => d.1.length + d.2.length) tab hs none (ballistic a) t
    (y.pos, y.vel) dt
  have hpairs : IsStages (castT ((patch tab).take ((patch tab).length - 2)) : Tableau ℝ) (ballistic a) t (y.pos, y.vel) dt
      (ballistic a t (y.pos, y.vel)) (ks.map fun k => (k.vel, k.acc)) := by
    unfold IsStages
    conv_lhs => rw [g2]
    rw [List.map_append, List.map_cons, List.map_map]
    show _ = [_] ++ _
    congr 1
    apply List.map_congr_left
    intro r hr
    simp only [Function.comp, wsum_pair, ballistic, advance, Prod.snd_add, Prod.smul_snd, RBDeriv.smul_acc]
  have hsame := isStages_unique hex r2 hpairs
  have eb : b = castL ((patch tab).dropLast.getLast?.getD []) := by rw [castT_dropLast] at hb; exact castT_getLast _ _ hb
  have ebc := castT_getLast _ _ hbc
  rw [hsame, ← eb, wsum_pair] at r3
  rw [hsame, ← eb, ← ebc, wsum_pair, wsum_pair] at r4
  have sb : b.sum = (β : ℝ) := by rw [eb, sum_castL, hβ]
  have sbc : bc.sum = (β' : ℝ) := by rw [ebc, sum_castL, hβ']
  obtain ⟨u1, u2⟩ := wsum_spin W b ks (fun k hk => (g3 k hk).2) (by omega)
  obtain ⟨v1, v2⟩ := wsum_spin W bc ks (fun k hk => (g3 k hk).2) (by omega)
  have hF : advance y (dt • wsum b ks) = ⟨A3.newValue.1, A3.newValue.2, (Quat.ofRotationVector (((β : ℝ) * dt) • W)).mul y.ori, w⟩ := by
    unfold advance
    rw [r3]
    simp only [RBDeriv.smul_angVel, RBDeriv.smul_angAcc, RBDeriv.smul_vel, RBDeriv.smul_acc, u1, u2, smul_zero, add_zero, smul_smul, sb,
      hy.2.1, mul_comm dt, Prod.fst_add, Prod.snd_add, Prod.smul_fst, Prod.smul_snd]
  refine ⟨⟨advance y (dt • wsum b ks), wsum b ks, apart (advance y (dt • wsum b ks)) (advance y (dt • wsum bc ks)), ks.getLastD ⟨y.vel, a, W, 0⟩,
    ev ++ points (castT ((patch tab).take ((patch tab).length - 2))) t dt (fun ws ks => advance y (dt • wsum ws ks)) ks⟩,
    A3, ?_, r1, hF, ?_, ?_⟩
  · unfold attempt
    rw [hfirst]
    dsimp only
    rw [hrowsEq, g1]
    dsimp only
    rw [finish_body _ b bc hb hbc y hy.1 dt ks (by rintro rfl; simp at l1) (by rintro rfl; simp at l2) (by omega) (by omega) n1 n2]
  · dsimp only
    unfold apart advance
    simp only [RBDeriv.smul_angVel, RBDeriv.smul_angAcc, RBDeriv.smul_vel, RBDeriv.smul_acc, u1, u2, v1, v2, smul_zero, add_zero, smul_smul]
    rw [turns_apart hy.1 W _ _ (by rw [sb, sbc, mul_comm dt, mul_comm dt]; exact hΔ), r4, sb, sbc, sub_self, (V3.length_zero_iff 0).2 rfl]
    simp only [Prod.fst_sub, Prod.snd_sub, Prod.smul_fst, Prod.smul_snd, add_sub_add_left_eq_sub, mul_comm dt]
    ring
  · dsimp only
    have : ks.getLastD ⟨y.vel, a, W, 0⟩ ∈ ks := by
      rw [List.getLastD_eq_getLast?, List.getLast?_eq_some_getLast hne]
      exact List.getLast_mem hne
    exact (g3 _ this).2.1

/-- what is needed of the numbers of a tableau: the rows add up to at most 1, the two results to nearly 1 -/
def sumsOk (tab : Tableau ℚ) : Bool :=
  ((patch tab).take ((patch tab).length - 2)).all (fun r => decide (|r.tail.sum| ≤ 1 + 1 / 10 ^ 14)) &&
    decide (|((patch tab).dropLast.getLast?.getD []).sum - 1| ≤ 1 / 10 ^ 15) &&
    decide (|((patch tab).dropLast.getLast?.getD []).sum - ((patch tab).getLast?.getD []).sum| ≤ 1 / 10 ^ 14)

theorem cast_abs_le {q c : ℚ} (h : |q| ≤ c) : |(q : ℝ)| ≤ (c : ℝ) := by exact_mod_cast h

theorem cast_sub_abs_le {p q c : ℚ} (h : |p - q| ≤ c) : |(p : ℝ) - q| ≤ (c : ℝ) := by exact_mod_cast h

set_option maxRecDepth 100000 in
theorem adaptive_sums : ∀ mp ∈ adaptiveMethods, ∃ tab fsal, adaptiveTableau mp.1 = .ok (tab, fsal) ∧
    rowsConsistent 0 tab = true ∧ shapeB 2 (patch tab) = true ∧ sumsOk tab = true := by
  intro mp h
  simp only [adaptiveMethods, List.mem_cons, List.not_mem_nil, or_false] at h
  rcases h with rfl | rfl | rfl | rfl
  · exact ⟨RK.tabRK12, false, by simp [adaptiveTableau], by decide +kernel, by decide +kernel, by decide +kernel⟩
  · exact ⟨RK.tabRK23, true, by simp [adaptiveTableau], by decide +kernel, by decide +kernel, by decide +kernel⟩
  · exact ⟨RK.tabRK45, true, by simp [adaptiveTableau], by decide +kernel, by decide +kernel, by decide +kernel⟩
  · exact ⟨RK.tabRK78, false, by simp [adaptiveTableau], by decide +kernel, by decide +kernel, by decide +kernel⟩

/-- **C92, part that holds.** Every adaptive method, for a body that spins steadily at no more than 6.28 rad/s (one revolution per
second) and accelerates constantly, with time steps of at most `10¹³`: position and velocity are those of a mass without
orientation integrated by the same method, the body has turned by `β dt |W|` about its angular velocity, `|β - 1| ≤ 10⁻¹⁵`, and
the error estimate is that of the mass up to `10⁻¹² |W| |dt|`. Missing: faster spin, changing axes. -/
theorem adaptive_spin_partial (mp : String × ℕ × ℕ) (hmp : mp ∈ adaptiveMethods) (f : ℝ → RBState → Except PyErr RBDeriv) (a w W : V3 ℝ)
    (hf : Steady f a w) (hW : W.length ≤ 6.28) (cache : Option RBDeriv) (t dt : ℝ) (hdt : |dt| ≤ 10 ^ 13) (y : RBState) (hy : Spinning w W y)
    (hcache : ∀ k ∈ cache, k = ⟨y.vel, a, W, 0⟩) :
    ∃ tab fsal A A3 β, adaptiveWorking mp.1 = .ok (tab, fsal) ∧ attempt bodyArith tab cache f t y dt = .ok A ∧
      RK.attempt (fun d : V3 ℝ × V3 ℝ => d.1.length + d.2.length) tab none (ballistic a) t (y.pos, y.vel) dt = .ok A3 ∧
      A.newValue = ⟨A3.newValue.1, A3.newValue.2, (Quat.ofRotationVector ((β * dt) • W)).mul y.ori, w⟩ ∧ |β - 1| ≤ 1 / 10 ^ 15 ∧
      |A.error - A3.error| ≤ 1 / 10 ^ 12 * (W.length * |dt|) := by
  obtain ⟨tab, fsal, hm, hc, hs, hsum⟩ := adaptive_sums mp hmp
  unfold sumsOk at hsum
  simp only [Bool.and_eq_true, List.all_eq_true, decide_eq_true_eq] at hsum
  obtain ⟨⟨s1, s2⟩, s3⟩ := hsum
  have hpi := Real.pi_gt_d4
  have hWn := V3.length_nonneg W
  have key : |((((patch tab).dropLast.getLast?.getD []).sum : ℚ) : ℝ) * dt - ((((patch tab).getLast?.getD []).sum : ℚ) : ℝ) * dt| ≤ 1 / 10 ^ 14 * |dt| := by
    rw [← sub_mul, abs_mul]
    apply mul_le_mul_of_nonneg_right _ (abs_nonneg _)
    have := cast_sub_abs_le s3
    norm_num at this ⊢
    exact this
  have hΔ : |((((patch tab).dropLast.getLast?.getD []).sum : ℚ) : ℝ) * dt - ((((patch tab).getLast?.getD []).sum : ℚ) : ℝ) * dt| * W.length ≤
      2 * Real.pi := by
    have : |((((patch tab).dropLast.getLast?.getD []).sum : ℚ) : ℝ) * dt - ((((patch tab).getLast?.getD []).sum : ℚ) : ℝ) * dt| ≤ 1 / 10 := by
      refine key.trans ?_
      calc 1 / 10 ^ 14 * |dt| ≤ 1 / 10 ^ 14 * 10 ^ 13 := by gcongr
        _ = 1 / 10 := by norm_num
    nlinarith
  obtain ⟨A, A3, h1, h2, h3, h4, _⟩ := spin_attempt_tableau tab hs f a w W hf cache t dt y hy hcache (by
      intro r hr
      unfold castT at hr
      obtain ⟨q, hq, rfl⟩ := List.mem_map.1 hr
      have h := cast_abs_le (s1 q hq)
      rw [castL_tail, sum_castL]
      refine (mul_le_mul h hW hWn (by norm_num)).trans_lt ?_
      norm_num
      linarith)
    _ _ rfl rfl hΔ
  refine ⟨castT (patch tab), fsal, A, A3, _, ?_, h1, h2, h3, ?_, ?_⟩
  · unfold adaptiveWorking
    rw [hm]
    dsimp only
    rw [checkTableau_cast tab hc]
  · have := cast_sub_abs_le s2
    simpa using this
  · rw [h4, add_sub_cancel_right, abs_of_nonneg (by positivity)]
    calc _ ≤ 100 * (1 / 10 ^ 14 * |dt| * W.length) := by gcongr
      _ = _ := by ring

/-! ## The hypotheses can be met -/

/-- a body of unit mass and unit moments of inertia that falls at 9.8 and spins at 1 rad/s about `z` -/
noncomputable def spinner : ℝ → RBState → Except PyErr RBDeriv :=
  bodyRhs (fun _ s => s.ori.conj.rotF ⟨0, 0, -9.8⟩) (fun _ _ => 0) (fun _ _ => ⟨1, ⟨1, 1, 1⟩, ⟨0, 0, 0⟩⟩)

theorem rotF_conj {q : Quat ℝ} (h : Quat.Unit q) (v : V3 ℝ) : q.rotF (q.conj.rotF v) = v := by
  rw [← Quat.rotF_mul]
  have : q.mul q.conj = ⟨1, 0, 0, 0⟩ := by
    have := conj_mulQ h ⟨1, 0, 0, 0⟩
    rwa [one_mulQ] at this
  rw [this, rotF_unit unit_one]
  apply V3.ext' <;> simp [Quat.sandwich, Quat.mul, Quat.conj]

theorem spinner_steady : Steady spinner ⟨0, 0, -9.8⟩ ⟨0, 0, 1⟩ := by
  have := steady_body (fun _ s => s.ori.conj.rotF ⟨0, 0, -9.8⟩) (fun _ _ => 0) ⟨1, ⟨1, 1, 1⟩, ⟨0, 0, 0⟩⟩ ⟨0, 0, -9.8⟩ ⟨0, 0, 1⟩
    (by norm_num) (by norm_num) (by norm_num) (by norm_num) (fun t s hs => rotF_conj hs _) (fun _ _ => rfl) (by norm_num) (by norm_num) (by norm_num)
  simpa [spinner] using this

theorem spinner_start : Spinning ⟨0, 0, 1⟩ ⟨0, 0, 1⟩ ⟨⟨0, 0, 100⟩, ⟨3, 0, 0⟩, ⟨1, 0, 0, 0⟩, ⟨0, 0, 1⟩⟩ := by
  refine ⟨unit_one, rfl, ?_⟩
  rw [rotF_unit unit_one]
  apply V3.ext' <;> simp [Quat.sandwich, Quat.mul, Quat.conj]

example : ∃ g : ℝ → RBState → RBDeriv, ∀ t s, Quat.Unit s.ori → spinner t s = .ok (g t s) :=
  bodyRhs_defined _ _ _ (fun _ _ => ⟨one_ne_zero, one_ne_zero, one_ne_zero, one_ne_zero⟩)

example : fly bodyArith "RK4_3/8" spinner 0.01 100 0 ⟨⟨0, 0, 100⟩, ⟨3, 0, 0⟩, ⟨1, 0, 0, 0⟩, ⟨0, 0, 1⟩⟩ =
    .ok ⟨⟨3, 0, 100 - 4.9⟩, ⟨3, 0, -9.8⟩, Quat.ofRotationVector ⟨0, 0, 1⟩, ⟨0, 0, 1⟩⟩ := by
  have := spin_flight "RK4_3/8" (1 / 2) (by simp [Stepper.factors]) spinner _ _ _ spinner_steady 0.01 (by norm_num) 100 0 _ spinner_start
  rw [this, mul_oneQ]
  congr 2
  · apply V3.ext' <;> norm_num
  · apply V3.ext' <;> norm_num
  · congr 1
    apply V3.ext' <;> norm_num

example : ("RK45Adaptive", 5, 4) ∈ adaptiveMethods ∧ (⟨0, 0, 1⟩ : V3 ℝ).length ≤ 6.28 := by
  constructor
  · simp [adaptiveMethods]
  · simp [V3.length]; norm_num

/-- a stage at the end of the step at 10 rad/s is turned the wrong way, one at 4π/2 rad/s fails -/
example : 2 * Real.pi < [(1 : ℝ)].sum * (⟨0, 0, 10⟩ : V3 ℝ).length ∧ [(1 : ℝ)].sum * (⟨0, 0, 10⟩ : V3 ℝ).length < 4 * Real.pi := by
  have h : (⟨0, 0, 10⟩ : V3 ℝ).length = 10 := by
    simp [V3.length]
  rw [h]
  have h1 := Real.pi_gt_d2
  have h2 := Real.pi_lt_d2
  norm_num
  constructor <;> linarith

end Mapleaf.Motion.Body
