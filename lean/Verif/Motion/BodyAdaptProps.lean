import Verif.Motion.BodyFlightProps

/-! # Adaptive steps of rigid bodies -/

namespace Mapleaf.Motion.Body
open Mapleaf Mapleaf.Motion
open Mapleaf.Motion.RK (Tableau wsum Explicit NonZero Shape wsum_cons wsum_append_right)

/-- the rotations `exp(aᵢ ωᵢ)` applied one after the other; no time step is involved -/
noncomputable def rots : List ℝ → List RBDeriv → Quat ℝ
  | w :: ws, k :: ks => (rots ws ks).mul (Quat.ofRotationVector (w • k.angVel))
  | _, _ => ⟨1, 0, 0, 0⟩

theorem unit_one : Quat.Unit (⟨1, 0, 0, 0⟩ : Quat ℝ) := by simp [Quat.Unit, Quat.nsq]

theorem rots_unit (ws : List ℝ) (ks : List RBDeriv) : Quat.Unit (rots ws ks) := by
  induction ws generalizing ks with
  | nil => simp [rots, unit_one]
  | cons w ws ih => cases ks with
    | nil => simp [rots, unit_one]
    | cons k ks => exact (ih ks).mul (ofRotationVector_unit _)

theorem rots_append (ws : List ℝ) (ks ks' : List RBDeriv) (h : ws.length ≤ ks.length) : rots ws (ks ++ ks') = rots ws ks := by
  induction ws generalizing ks with
  | nil => simp [rots]
  | cons w ws ih => cases ks with
    | nil => simp at h
    | cons k ks => rw [List.cons_append, rots, rots, ih ks (by simpa using h)]

theorem mul_assocQ (p q s : Quat ℝ) : p.mul (q.mul s) = (p.mul q).mul s := by
  apply Quat.ext4 <;> simp [Quat.mul] <;> ring

theorem mul_oneQ (q : Quat ℝ) : q.mul (⟨1, 0, 0, 0⟩ : Quat ℝ) = q := by
  apply Quat.ext4 <;> simp [Quat.mul]

theorem changeGo_ok (acc : RBState) (hacc : Quat.Unit acc.ori) (ws : List ℝ) (ks : List RBDeriv) (h : ws.length ≤ ks.length) :
    changeGo bodyArith acc ws ks = .ok ⟨acc.pos + (wsum ws ks).vel, acc.vel + (wsum ws ks).acc, (rots ws ks).mul acc.ori,
      acc.angVel + (wsum ws ks).angAcc⟩ := by
  induction ws generalizing acc ks with
  | nil => simp [changeGo, wsum, rots, one_mulQ]
  | cons w ws ih => cases ks with
    | nil => simp at h
    | cons k ks =>
      have hd : bodyArith.dmul k w = .ok ⟨w • k.vel, w • k.acc, Quat.ofRotationVector (w • k.angVel), w • k.angAcc⟩ := deriv_mul_ok k w
      have ha : bodyArith.aug acc ⟨w • k.vel, w • k.acc, Quat.ofRotationVector (w • k.angVel), w • k.angAcc⟩ =
          .ok ⟨acc.pos + w • k.vel, acc.vel + w • k.acc, (Quat.ofRotationVector (w • k.angVel)).mul acc.ori, acc.angVel + w • k.angAcc⟩ := by
        show RBState.add acc _ = _
        unfold RBState.add
        rw [hacc.normalize]
        dsimp only
        rw [((ofRotationVector_unit _).mul hacc).normalize]
      unfold changeGo
      rw [hd]
      dsimp only
      rw [ha]
      dsimp only
      rw [ih _ ((ofRotationVector_unit _).mul hacc) ks (by simpa using h)]
      simp only [wsum_cons, RBDeriv.add_vel, RBDeriv.add_acc, RBDeriv.add_angAcc, RBDeriv.smul_vel, RBDeriv.smul_acc,
        RBDeriv.smul_angAcc, rots, mul_assocQ, add_assoc]

theorem change_ok (ws : List ℝ) (ks : List RBDeriv) (h0 : ws ≠ []) (h : ws.length ≤ ks.length) :
    change bodyArith ws ks = .ok ⟨(wsum ws ks).vel, (wsum ws ks).acc, rots ws ks, (wsum ws ks).angAcc⟩ := by
  cases ws with
  | nil => exact absurd rfl h0
  | cons w ws => cases ks with
    | nil => simp at h
    | cons k ks =>
      have hd : bodyArith.dmul k w = .ok ⟨w • k.vel, w • k.acc, Quat.ofRotationVector (w • k.angVel), w • k.angAcc⟩ := deriv_mul_ok k w
      unfold change
      dsimp only
      rw [hd]
      dsimp only
      rw [changeGo_ok _ (ofRotationVector_unit _) ws ks (by simpa using h)]
      simp only [wsum_cons, RBDeriv.add_vel, RBDeriv.add_acc, RBDeriv.add_angAcc, RBDeriv.smul_vel, RBDeriv.smul_acc,
        RBDeriv.smul_angAcc, rots]

/-! ### Part of a rotation -/

/-- the rotation about the axis of `q`, by `s` times the angle of `q`, the angle being taken between 0 and `2π` -/
noncomputable def partTurn (q : Quat ℝ) (s : ℝ) : Quat ℝ := Quat.axisAngle ⟨q.q1, q.q2, q.q3⟩ (s * (2 * Real.arccos q.q0))

theorem partTurn_one (s : ℝ) : partTurn ⟨1, 0, 0, 0⟩ s = ⟨1, 0, 0, 0⟩ := by
  unfold partTurn Quat.axisAngle
  apply Quat.ext4 <;> simp

theorem sq_one_cases {x : ℝ} (h : x ^ 2 = 1) : x = 1 ∨ x = -1 := by
  have : (x - 1) * (x + 1) = 0 := by linear_combination h
  rcases mul_eq_zero.1 this with h | h
  · left; linarith
  · right; linarith

theorem vec_zero {q : Quat ℝ} (h : Quat.Unit q) : (⟨q.q1, q.q2, q.q3⟩ : V3 ℝ) = 0 ↔ q = ⟨1, 0, 0, 0⟩ ∨ q = ⟨-1, 0, 0, 0⟩ := by
  constructor
  · intro h0
    have e1 : q.q1 = 0 := congrArg V3.x h0
    have e2 : q.q2 = 0 := congrArg V3.y h0
    have e3 : q.q3 = 0 := congrArg V3.z h0
    have := h.vec
    rw [e1, e2, e3] at this
    have hq : q.q0 ^ 2 = 1 := by linarith
    rcases sq_one_cases hq with h' | h'
    · left; apply Quat.ext4 <;> simp [*]
    · right; apply Quat.ext4 <;> simp [*]
  · rintro (rfl | rfl) <;> rfl

/-- Scaling the rotation of a unit quaternion: its angle, between 0 and `2π`, is multiplied; a full turn (`-1`), which has no axis,
is a `ZeroDivisionError`. -/
theorem scaleRotation_unit {q : Quat ℝ} (h : Quat.Unit q) (s : ℝ) :
    (q = ⟨-1, 0, 0, 0⟩ → q.scaleRotation s = .error .zeroDivision) ∧
    (q ≠ ⟨-1, 0, 0, 0⟩ → q.scaleRotation s = .ok (partTurn q s) ∧ Quat.Unit (partTurn q s)) := by
  have hang := Quat.rotationAngle_unit h
  constructor
  · rintro rfl
    have hu : Quat.Unit (⟨-1, 0, 0, 0⟩ : Quat ℝ) := h
    unfold Quat.scaleRotation
    rw [hang]
    dsimp only
    rw [if_neg (by rw [Real.arccos_neg_one]; positivity)]
    unfold Quat.rotationAxis
    rw [hang]
    dsimp only
    rw [if_pos (by rw [Real.arccos_neg_one]; positivity), hu.norm, if_pos (by norm_num)]
  · intro hne
    by_cases h1 : q = ⟨1, 0, 0, 0⟩
    · subst h1
      rw [partTurn_one]
      refine ⟨?_, unit_one⟩
      unfold Quat.scaleRotation
      rw [hang]
      dsimp only
      rw [if_pos (by rw [Real.arccos_one, mul_zero])]
    · have hv : (⟨q.q1, q.q2, q.q3⟩ : V3 ℝ) ≠ 0 := fun h0 => ((vec_zero h).1 h0).elim h1 hne
      have n1 : q.q0 ≠ 1 := by
        intro h0
        apply h1
        have := h.vec
        rw [h0] at this
        have e1 : q.q1 = 0 := by nlinarith [mul_self_nonneg q.q1, mul_self_nonneg q.q2, mul_self_nonneg q.q3]
        have e2 : q.q2 = 0 := by nlinarith [mul_self_nonneg q.q1, mul_self_nonneg q.q2, mul_self_nonneg q.q3]
        have e3 : q.q3 = 0 := by nlinarith [mul_self_nonneg q.q1, mul_self_nonneg q.q2, mul_self_nonneg q.q3]
        apply Quat.ext4 <;> simp [*]
      have n2 : q.q0 ≠ -1 := by
        intro h0
        apply hne
        have := h.vec
        rw [h0] at this
        have e1 : q.q1 = 0 := by nlinarith [mul_self_nonneg q.q1, mul_self_nonneg q.q2, mul_self_nonneg q.q3]
        have e2 : q.q2 = 0 := by nlinarith [mul_self_nonneg q.q1, mul_self_nonneg q.q2, mul_self_nonneg q.q3]
        have e3 : q.q3 = 0 := by nlinarith [mul_self_nonneg q.q1, mul_self_nonneg q.q2, mul_self_nonneg q.q3]
        apply Quat.ext4 <;> simp [*]
      obtain ⟨hax, hpos⟩ := Quat.rotationAxis_unit h n1 n2
      refine ⟨?_, Quat.axisAngle_unit _ _ hv⟩
      have hne0 : 2 * Real.arccos q.q0 ≠ 0 := by
        intro h0
        exact n1 (le_antisymm h.q0_mem.2 (Real.arccos_eq_zero.1 (by linarith)))
      unfold Quat.scaleRotation
      rw [hang]
      dsimp only
      rw [if_neg hne0, hax]
      dsimp only
      congr 1
      have hn : V3.normalize ⟨q.q1 / √(1 - q.q0 ^ 2), q.q2 / √(1 - q.q0 ^ 2), q.q3 / √(1 - q.q0 ^ 2)⟩ =
          V3.normalize ⟨q.q1, q.q2, q.q3⟩ := by
        rw [← normalize_smul_pos hv (s := 1 / √(1 - q.q0 ^ 2)) (by positivity)]
        congr 1
        apply V3.ext' <;> simp <;> ring
      unfold partTurn Quat.axisAngle
      rw [hn]

theorem turn_self {v : V3 ℝ} (hv : v ≠ 0) : Quat.ofRotationVector v = Quat.axisAngle v v.length := by
  have := turn_axis hv 1
  rwa [one_smul, one_mul] at this

/-- turns of less than `2π` are scaled rightly -/
theorem partTurn_short (v : V3 ℝ) (h : v.length < 2 * Real.pi) (s : ℝ) :
    partTurn (Quat.ofRotationVector v) s = Quat.ofRotationVector (s • v) ∧ Quat.ofRotationVector v ≠ ⟨-1, 0, 0, 0⟩ := by
  by_cases hv : v = 0
  · subst hv
    rw [smul_zero, turn_zero, partTurn_one]
    exact ⟨rfl, by intro h; have := congrArg Quat.q0 h; norm_num at this⟩
  · have hl : 0 < v.length := lt_of_le_of_ne (V3.length_nonneg v) (fun h => hv ((V3.length_zero_iff v).1 h.symm))
    have h1 := Quat.scaleRotation_spec v v.length s hv hl h
    have hne : Quat.ofRotationVector v ≠ ⟨-1, 0, 0, 0⟩ := by
      intro h0
      have h2 := (scaleRotation_unit (ofRotationVector_unit v) s).1 h0
      rw [turn_self hv, h1] at h2
      cases h2
    have h2 := ((scaleRotation_unit (ofRotationVector_unit v) s).2 hne).1
    refine ⟨?_, hne⟩
    rw [turn_axis hv]
    have h3 : (Quat.ofRotationVector v).scaleRotation s = .ok (Quat.axisAngle v (s * v.length)) := by rw [turn_self hv]; exact h1
    rw [h2] at h3
    injection h3

/-- turns between `2π` and `4π` are scaled as turns the other way round -/
theorem partTurn_long (v : V3 ℝ) (h1 : 2 * Real.pi < v.length) (h2 : v.length < 4 * Real.pi) (s : ℝ) :
    partTurn (Quat.ofRotationVector v) s = Quat.ofRotationVector (-(s * (4 * Real.pi - v.length) / v.length) • v) ∧
      Quat.ofRotationVector v ≠ ⟨-1, 0, 0, 0⟩ := by
  have hpi := Real.pi_pos
  have hl : 0 < v.length := by linarith
  have hv : v ≠ 0 := fun h => by rw [h, (V3.length_zero_iff 0).2 rfl] at hl; exact lt_irrefl _ hl
  set u : V3 ℝ := -((4 * Real.pi - v.length) / v.length) • v with hu
  have hul : u.length = 4 * Real.pi - v.length := by
    rw [hu, V3.length_smul, abs_neg, abs_of_pos (div_pos (by linarith) hl), div_mul_cancel₀ _ hl.ne']
  have huv : Quat.ofRotationVector u = Quat.ofRotationVector v := by
    rw [hu, turn_axis hv]
    have : -((4 * Real.pi - v.length) / v.length) * v.length = v.length - 4 * Real.pi := by field_simp; ring
    rw [this, turn_self hv]
    unfold Quat.axisAngle
    rw [show (v.length - 4 * Real.pi) / 2 = v.length / 2 - 2 * Real.pi by ring, Real.cos_sub_two_pi, Real.sin_sub_two_pi]
  obtain ⟨h3, h4⟩ := partTurn_short u (by rw [hul]; linarith) s
  rw [huv] at h3 h4
  refine ⟨?_, h4⟩
  rw [h3, hu, smul_smul]
  congr 2
  ring

/-- the state of a stage -/
noncomputable def stg (y : RBState) (dt : ℝ) (ws : List ℝ) (ks : List RBDeriv) : RBState :=
  ⟨y.pos + dt • (wsum ws ks).vel, y.vel + dt • (wsum ws ks).acc, (partTurn (rots ws ks) dt).mul y.ori, y.angVel + dt • (wsum ws ks).angAcc⟩

/-- **C92.** The state at a stage of an adaptive method: position, velocity and angular velocity are `y + dt ∑ⱼ aᵢⱼ kⱼ`; the
orientation is turned by the fraction `dt` of the rotation that results from doing the rotations `aᵢⱼ ωⱼ` (without the time step)
one after the other; a `ZeroDivisionError` when these add up to a full turn. -/
theorem adaptive_stage (y : RBState) (hy : Quat.Unit y.ori) (dt : ℝ) (ws : List ℝ) (ks : List RBDeriv) (h0 : ws ≠ [])
    (h : ws.length ≤ ks.length) :
    (rots ws ks = ⟨-1, 0, 0, 0⟩ → stageState bodyArith y dt ws ks = .error .zeroDivision) ∧
    (rots ws ks ≠ ⟨-1, 0, 0, 0⟩ → stageState bodyArith y dt ws ks = .ok (stg y dt ws ks) ∧ Quat.Unit (stg y dt ws ks).ori) := by
  obtain ⟨s1, s2⟩ := scaleRotation_unit (rots_unit ws ks) dt
  unfold stageState
  rw [change_ok ws ks h0 h]
  constructor
  · intro hr
    dsimp only
    have hm : bodyArith.smul ⟨(wsum ws ks).vel, (wsum ws ks).acc, rots ws ks, (wsum ws ks).angAcc⟩ dt = .error .zeroDivision := by
      show RBState.mul _ dt = _
      unfold RBState.mul
      dsimp only
      rw [s1 hr]
    rw [hm]
  · intro hr
    obtain ⟨s3, s4⟩ := s2 hr
    refine ⟨?_, s4.mul hy⟩
    dsimp only
    have hm : bodyArith.smul ⟨(wsum ws ks).vel, (wsum ws ks).acc, rots ws ks, (wsum ws ks).angAcc⟩ dt =
        .ok ⟨dt • (wsum ws ks).vel, dt • (wsum ws ks).acc, partTurn (rots ws ks) dt, dt • (wsum ws ks).angAcc⟩ := by
      show RBState.mul _ dt = _
      unfold RBState.mul
      dsimp only
      rw [s3]
    rw [hm]
    dsimp only
    show RBState.add y _ = _
    unfold RBState.add
    rw [hy.normalize]
    dsimp only
    rw [(s4.mul hy).normalize]
    rfl

theorem stg_append (y : RBState) (dt : ℝ) (ws : List ℝ) (ks ks' : List RBDeriv) (h : ws.length ≤ ks.length) :
    stg y dt ws (ks ++ ks') = stg y dt ws ks := by
  unfold stg
  rw [rots_append ws ks ks' h, wsum_append_right ws ks ks' h]

theorem stagesA_body (f : ℝ → RBState → Except PyErr RBDeriv) (g : ℝ → RBState → RBDeriv) (hf : ∀ t s, Quat.Unit s.ori → f t s = .ok (g t s))
    (t : ℝ) (y : RBState) (hy : Quat.Unit y.ori) (dt : ℝ) (rows : Tableau ℝ) (n : ℕ) (ks0 : List RBDeriv) (ev : List (ℝ × RBState))
    (hn : ks0.length = n + 1) (hex : Explicit n rows) :
    ∃ ks, ks = ks0 ++ rows.map (fun r => g (t + dt * r.headD 0) (stg y dt r.tail ks)) ∧
      ((∀ r ∈ rows, rots r.tail ks ≠ ⟨-1, 0, 0, 0⟩) →
        stagesA bodyArith f t y dt rows ks0 ev = .ok (ks, ev ++ points rows t dt (stg y dt) ks)) ∧
      ((∃ r ∈ rows, rots r.tail ks = ⟨-1, 0, 0, 0⟩) → stagesA bodyArith f t y dt rows ks0 ev = .error .zeroDivision) := by
  induction rows generalizing n ks0 ev with
  | nil => exact ⟨ks0, by simp, by simp [stagesA, points], by simp⟩
  | cons r rows ih =>
    obtain ⟨hr, hex'⟩ := hex
    cases r with
    | nil => simp at hr
    | cons c as =>
      have hlen : as.length = n + 1 := by simpa using hr
      obtain ⟨a1, a2⟩ := adaptive_stage y hy dt as ks0 (by rintro rfl; simp at hlen) (by omega)
      obtain ⟨ks, h1, h2, h3⟩ := ih (n + 1) (ks0 ++ [g (t + dt * c) (stg y dt as ks0)]) (ev ++ [(t + dt * c, stg y dt as ks0)])
        (by simp [hn]) hex'
      have hrot : rots as ks = rots as ks0 := by rw [h1, List.append_assoc, rots_append as ks0 _ (by omega)]
      have hp : stg y dt as ks = stg y dt as ks0 := by rw [h1, List.append_assoc, stg_append y dt as ks0 _ (by omega)]
      refine ⟨ks, ?_, ?_, ?_⟩
      · rw [List.map_cons]
        dsimp only [List.headD_cons, List.tail_cons]
        rw [hp]
        nth_rewrite 1 [h1]
        simp
      · intro hall
        obtain ⟨a3, a4⟩ := a2 (by have := hall (c :: as) (by simp); rwa [List.tail_cons, hrot] at this)
        rw [stagesA]
        simp only [a3, hf (t + dt * c) _ a4]
        rw [h2 (fun r hr => hall r (by simp [hr]))]
        simp [points, hp]
      · rintro ⟨r, hr, hbad⟩
        by_cases h0 : rots as ks0 = ⟨-1, 0, 0, 0⟩
        · rw [stagesA]
          simp only [a1 h0]
        · obtain ⟨a3, a4⟩ := a2 h0
          rw [stagesA]
          simp only [a3, hf (t + dt * c) _ a4]
          apply h3
          rcases List.mem_cons.1 hr with h | h
          · subst h
            rw [List.tail_cons, hrot] at hbad
            exact absurd hbad h0
          · exact ⟨r, h, hbad⟩

/-- the size of the difference of two states: `100 (angle between the orientations + |Δω|) + |Δp| + |Δv|` -/
noncomputable def apart (a b : RBState) : ℝ :=
  (2 * Real.arccos (a.ori.mul b.ori.conj).q0 + (a.angVel - b.angVel).length) * 100 + ((a.pos - b.pos).length + (a.vel - b.vel).length)

theorem finish_body (tab : Tableau ℝ) (b bc : List ℝ) (hb : tab.dropLast.getLast? = some b) (hbc : tab.getLast? = some bc)
    (y : RBState) (hy : Quat.Unit y.ori) (dt : ℝ) (ks : List RBDeriv) (h1 : b ≠ []) (h2 : bc ≠ []) (l1 : b.length ≤ ks.length)
    (l2 : bc.length ≤ ks.length) (n1 : ∀ w ∈ b, w ≠ 0) (n2 : ∀ w ∈ bc, w ≠ 0) (last : RBDeriv) (evals : List (ℝ × RBState)) :
    finish bodyArith tab y dt ks last evals = .ok ⟨advance y (dt • wsum b ks), wsum b ks,
      apart (advance y (dt • wsum b ks)) (advance y (dt • wsum bc ks)), last, evals⟩ := by
  have c1 := combine_ok body_lawful 1 one_ne_zero b ks h1 l1 n1
  have c2 := combine_ok body_lawful 1 one_ne_zero bc ks h2 l2 n2
  rw [one_smul, List.map_id] at c1 c2
  have p1 := body_lawful.plus y (wsum b ks) dt hy
  have p2 := body_lawful.plus y (wsum bc ks) dt hy
  set F := advance y (dt • wsum b ks)
  set C := advance y (dt • wsum bc ks) with hC
  have hF : Quat.Unit F.ori := advance_unit _ _ hy
  have hCu : Quat.Unit C.ori := advance_unit _ _ hy
  have hadd : bodyArith.add C.neg F = .ok ⟨F.pos - C.pos, F.vel - C.vel, F.ori.mul C.ori.conj, F.angVel - C.angVel⟩ := by
    show RBState.add _ _ = _
    unfold RBState.add RBState.neg
    dsimp only
    rw [hCu.conj.normalize]
    dsimp only
    rw [(hF.mul hCu.conj).normalize]
    dsimp only
    congr 2 <;> module
  have hmag : bodyArith.mag ⟨F.pos - C.pos, F.vel - C.vel, F.ori.mul C.ori.conj, F.angVel - C.angVel⟩ = .ok (apart F C) := by
    show RBState.abs _ = _
    unfold RBState.abs
    dsimp only
    rw [Quat.rotationAngle_unit (hF.mul hCu.conj)]
    dsimp only
    rw [abs_of_nonneg (by have := Real.arccos_nonneg (F.ori.mul C.ori.conj).q0; linarith)]
    rfl
  have c1' : combine bodyArith bodyArith.daug 1 b ks = .ok (wsum b ks) := c1
  have c2' : combine bodyArith bodyArith.daug 1 bc ks = .ok (wsum bc ks) := c2
  have p1' : plus bodyArith y (wsum b ks) dt = .ok F := p1
  have p2' : plus bodyArith y (wsum bc ks) dt = .ok C := p2
  have hneg : bodyArith.neg C = .ok C.neg := rfl
  unfold finish
  rw [hb, hbc]
  simp only [Option.getD_some, c1', c2', p1', p2', hneg, hadd, hmag]

/-- **C92.** Every attempt of an adaptive method, for every rigid body whose right-hand side is defined on unit orientations, with
or without a derivative reused from the step before. The stages satisfy the equations of the method at times `t + cᵢ dt`, at the
states `stg` (see `adaptive_stage`: right in position, velocity and angular velocity, but not in orientation). If the rotations of
a stage add up to a full turn the attempt is a `ZeroDivisionError`; if not, the result is the state reached by `dt ∑ᵢ bᵢ kᵢ` and the
error estimate is the distance to the state reached with the other row. -/
theorem six_dof_attempt (tab : Tableau ℝ) (hs : Shape 2 tab) (cache : Option RBDeriv) (f : ℝ → RBState → Except PyErr RBDeriv)
    (g : ℝ → RBState → RBDeriv) (hf : ∀ t s, Quat.Unit s.ori → f t s = .ok (g t s)) (t : ℝ) (y : RBState) (hy : Quat.Unit y.ori) (dt : ℝ) :
    ∃ ks b bc, tab = tab.dropLast.dropLast ++ [b, bc] ∧
      ks = cache.getD (g t y) :: tab.dropLast.dropLast.map (fun r => g (t + dt * r.headD 0) (stg y dt r.tail ks)) ∧
      ((∃ r ∈ tab.dropLast.dropLast, rots r.tail ks = ⟨-1, 0, 0, 0⟩) → attempt bodyArith tab cache f t y dt = .error .zeroDivision) ∧
      ((∀ r ∈ tab.dropLast.dropLast, rots r.tail ks ≠ ⟨-1, 0, 0, 0⟩) → ∃ last, ks.getLast? = some last ∧
        attempt bodyArith tab cache f t y dt = .ok ⟨advance y (dt • wsum b ks), wsum b ks,
          apart (advance y (dt • wsum b ks)) (advance y (dt • wsum bc ks)), last,
          (if cache.isSome then [] else [(t, y)]) ++ tab.dropLast.dropLast.map (fun r => (t + dt * r.headD 0, stg y dt r.tail ks))⟩) := by
  obtain ⟨b, bc, hb, hbc, l1, l2, n1, n2⟩ := result_rows tab hs
  have hfirst : firstK cache f t y = .ok (cache.getD (g t y), if cache.isSome then [] else [(t, y)]) := by
    unfold firstK
    cases cache with
    | none => dsimp only; rw [hf t y hy]; rfl
    | some k => rfl
  have hex : Explicit 0 tab.dropLast.dropLast := by
    have := hs.explicit
    rwa [← RK.dropLast_dropLast] at this
  obtain ⟨ks, h1, h2, h3⟩ := stagesA_body f g hf t y hy dt tab.dropLast.dropLast 0 [cache.getD (g t y)]
    (if cache.isSome then [] else [(t, y)]) rfl hex
  have hlen : ks.length = tab.length - 2 + 1 := by rw [h1]; simp; omega
  have hsplit : tab = tab.dropLast.dropLast ++ [b, bc] := by
    have h2' := hs.enough
    have hne : tab ≠ [] := by rintro rfl; simp at h2'
    rw [List.getLast?_eq_some_getLast hne] at hbc
    injection hbc with hbc
    have hne' : tab.dropLast ≠ [] := by intro h; rw [h] at hb; simp at hb
    rw [List.getLast?_eq_some_getLast hne'] at hb
    injection hb with hb
    conv_lhs => rw [← List.dropLast_append_getLast hne, hbc, ← List.dropLast_append_getLast hne', hb]
    simp
  refine ⟨ks, b, bc, hsplit, h1, ?_, ?_⟩
  · intro hbad
    unfold attempt
    rw [hfirst]
    dsimp only
    rw [h3 hbad]
  · intro hall
    have hne : ks ≠ [] := by rintro rfl; simp at hlen
    refine ⟨ks.getLast hne, List.getLast?_eq_some_getLast hne, ?_⟩
    unfold attempt
    rw [hfirst]
    dsimp only
    rw [h2 hall]
    dsimp only
    rw [finish_body tab b bc hb hbc y hy dt ks (by rintro rfl; simp at l1) (by rintro rfl; simp at l2) (by omega) (by omega) n1 n2,
      List.getLastD_eq_getLast?, List.getLast?_eq_some_getLast hne]
    rfl

/-! ### How far the rotations of a stage can go -/

theorem re_mul_ge {p q : Quat ℝ} (hp : Quat.Unit p) (hq : Quat.Unit q) {α β : ℝ} (hα : 0 ≤ α) (hβ : 0 ≤ β) (hab : α + β ≤ Real.pi)
    (h1 : Real.cos α ≤ p.q0) (h2 : Real.cos β ≤ q.q0) : Real.cos (α + β) ≤ (p.mul q).q0 := by
  have a1 : Real.arccos p.q0 ≤ α := by
    have := Real.arccos_le_arccos h1
    rwa [Real.arccos_cos hα (by linarith)] at this
  have a2 : Real.arccos q.q0 ≤ β := by
    have := Real.arccos_le_arccos h2
    rwa [Real.arccos_cos hβ (by linarith)] at this
  have n1 := Real.arccos_nonneg p.q0
  have n2 := Real.arccos_nonneg q.q0
  have hle : Real.cos (α + β) ≤ Real.cos (Real.arccos p.q0 + Real.arccos q.q0) :=
    Real.cos_le_cos_of_nonneg_of_le_pi (by linarith) hab (by linarith)
  refine hle.trans ?_
  rw [Real.cos_add, Real.cos_arccos hp.q0_mem.1 hp.q0_mem.2, Real.cos_arccos hq.q0_mem.1 hq.q0_mem.2, Real.sin_arccos, Real.sin_arccos]
  have e : (p.mul q).q0 = p.q0 * q.q0 - (p.q1 * q.q1 + p.q2 * q.q2 + p.q3 * q.q3) := by simp [Quat.mul]; ring
  rw [e]
  have hcs : p.q1 * q.q1 + p.q2 * q.q2 + p.q3 * q.q3 ≤ √(1 - p.q0 ^ 2) * √(1 - q.q0 ^ 2) := by
    rw [← Real.sqrt_mul (by have := hp.q0_mem; nlinarith), ← hp.vec, ← hq.vec]
    apply Real.le_sqrt_of_sq_le
    nlinarith [sq_nonneg (p.q1 * q.q2 - p.q2 * q.q1), sq_nonneg (p.q1 * q.q3 - p.q3 * q.q1), sq_nonneg (p.q2 * q.q3 - p.q3 * q.q2)]
  linarith

theorem turn_re (v : V3 ℝ) : (Quat.ofRotationVector v).q0 = Real.cos (v.length / 2) := by
  unfold Quat.ofRotationVector Quat.axisAngle
  rfl

theorem rots_angle (Ω : ℝ) (hΩ : 0 ≤ Ω) (ws : List ℝ) (ks : List RBDeriv) (hk : ∀ k ∈ ks, k.angVel.length ≤ Ω)
    (h : (ws.map (|·|)).sum * Ω ≤ 2 * Real.pi) : Real.cos ((ws.map (|·|)).sum * Ω / 2) ≤ (rots ws ks).q0 := by
  have hsum : ∀ ws : List ℝ, 0 ≤ (ws.map (|·|)).sum := fun ws => List.sum_nonneg (by simp)
  induction ws generalizing ks with
  | nil => simp [rots]
  | cons w ws ih => cases ks with
    | nil => simpa [rots] using Real.cos_le_one _
    | cons k ks =>
      simp only [List.map_cons, List.sum_cons] at h ⊢
      have e : (|w| + (ws.map (|·|)).sum) * Ω / 2 = (ws.map (|·|)).sum * Ω / 2 + |w| * Ω / 2 := by ring
      rw [e, rots]
      have p1 : 0 ≤ |w| * Ω := mul_nonneg (abs_nonneg _) hΩ
      have p2 := mul_nonneg (hsum ws) hΩ
      have hv : (w • k.angVel).length ≤ |w| * Ω := by
        rw [V3.length_smul]
        exact mul_le_mul_of_nonneg_left (hk k (by simp)) (abs_nonneg _)
      refine re_mul_ge (rots_unit _ _) (ofRotationVector_unit _) (by linarith) (by linarith) (by linarith)
        (ih ks (fun k hk' => hk k (by simp [hk'])) (by linarith)) ?_
      rw [turn_re]
      have := V3.length_nonneg (w • k.angVel)
      exact Real.cos_le_cos_of_nonneg_of_le_pi (by linarith) (by linarith) (by linarith)

/-- **C92.** A stage never fails when `∑ⱼ |aᵢⱼ|` times the largest angular rate is less than `2π`. -/
theorem no_full_turn (Ω : ℝ) (hΩ : 0 ≤ Ω) (ws : List ℝ) (ks : List RBDeriv) (hk : ∀ k ∈ ks, k.angVel.length ≤ Ω)
    (h : (ws.map (|·|)).sum * Ω < 2 * Real.pi) : rots ws ks ≠ ⟨-1, 0, 0, 0⟩ := by
  intro h0
  have h1 := rots_angle Ω hΩ ws ks hk h.le
  rw [h0] at h1
  have hs : 0 ≤ (ws.map (|·|)).sum := List.sum_nonneg (by simp)
  have h2 : Real.cos Real.pi < Real.cos ((ws.map (|·|)).sum * Ω / 2) :=
    Real.cos_lt_cos_of_nonneg_of_le_pi (by have := mul_nonneg hs hΩ; linarith) le_rfl (by linarith)
  rw [Real.cos_pi] at h2
  dsimp only at h1
  linarith

/-! ### Steady spin -/

theorem rots_steady (W : V3 ℝ) (ws : List ℝ) (ks : List RBDeriv) (hk : ∀ k ∈ ks, k.angVel = W) (hl : ws.length ≤ ks.length) :
    rots ws ks = Quat.ofRotationVector (ws.sum • W) := by
  induction ws generalizing ks with
  | nil => simp [rots, turn_zero]
  | cons w ws ih => cases ks with
    | nil => simp at hl
    | cons k ks =>
      rw [rots, ih ks (fun k h => hk k (by simp [h])) (by simpa using hl), hk k (by simp), turn_add, List.sum_cons, add_comm]

theorem wsum_angVel (W : V3 ℝ) (ws : List ℝ) (ks : List RBDeriv) (hk : ∀ k ∈ ks, k.angVel = W) (hl : ws.length ≤ ks.length) :
    (wsum ws ks).angVel = ws.sum • W := by
  induction ws generalizing ks with
  | nil => simp [wsum]
  | cons w ws ih =>
    cases ks with
    | nil => simp at hl
    | cons k ks =>
      rw [wsum_cons, RBDeriv.add_angVel, ih ks (fun k h => hk k (by simp [h])) (by simpa using hl), RBDeriv.smul_angVel, hk k (by simp),
        List.sum_cons, add_smul]

/-- **C92, part that holds.** When all stages have the same angular velocity `W`, the orientation at a stage with `c = ∑ⱼ aᵢⱼ` is
turned by `c dt W`, as it should be, as long as `|c| |W| < 2π`; so with stages at the end of the step (`c = 1`) the body may not
turn by more than one revolution per second. Missing: faster spin (`adaptive_stage_reversed_violated`,
`adaptive_stage_full_turn_violated`) and changing axes (`adaptive_stage_axes_violated`). -/
theorem adaptive_stage_partial (y : RBState) (hy : Quat.Unit y.ori) (dt : ℝ) (W : V3 ℝ) (ws : List ℝ) (ks : List RBDeriv) (h0 : ws ≠ [])
    (hl : ws.length ≤ ks.length) (hk : ∀ k ∈ ks, k.angVel = W) (hW : |ws.sum| * W.length < 2 * Real.pi) :
    stageState bodyArith y dt ws ks = .ok (advance y (dt • wsum ws ks)) ∧
      (wsum ws ks).angVel = ws.sum • W := by
  have hr := rots_steady W ws ks hk hl
  obtain ⟨p1, p2⟩ := partTurn_short (ws.sum • W) (by rw [V3.length_smul]; exact hW) dt
  rw [← hr] at p1 p2
  have hav : (wsum ws ks).angVel = ws.sum • W := wsum_angVel W ws ks hk hl
  refine ⟨?_, hav⟩
  rw [((adaptive_stage y hy dt ws ks h0 hl).2 p2).1]
  unfold stg advance
  rw [p1, RBDeriv.smul_angVel, hav]
  rfl

/-- **C92 violated (fast spin).** When `2π < c |W| < 4π` the orientation at the stage is turned the wrong way: by
`-(4π - c |W|) dt` instead of `c |W| dt`, for any time step. -/
theorem adaptive_stage_reversed_violated (y : RBState) (hy : Quat.Unit y.ori) (dt : ℝ) (W : V3 ℝ) (ws : List ℝ) (ks : List RBDeriv)
    (h0 : ws ≠ []) (hl : ws.length ≤ ks.length) (hk : ∀ k ∈ ks, k.angVel = W) (hc : 0 < ws.sum) (h1 : 2 * Real.pi < ws.sum * W.length)
    (h2 : ws.sum * W.length < 4 * Real.pi) :
    ∃ s, stageState bodyArith y dt ws ks = .ok s ∧
      s.ori = (Quat.axisAngle W (-(4 * Real.pi - ws.sum * W.length) * dt)).mul y.ori ∧
      (advance y (dt • wsum ws ks)).ori = (Quat.axisAngle W (ws.sum * W.length * dt)).mul y.ori := by
  have hpi := Real.pi_pos
  have hW : W ≠ 0 := by rintro rfl; rw [(V3.length_zero_iff 0).2 rfl] at h1; linarith
  have hr := rots_steady W ws ks hk hl
  have hlen : (ws.sum • W).length = ws.sum * W.length := by rw [V3.length_smul, abs_of_pos hc]
  obtain ⟨p1, p2⟩ := partTurn_long (ws.sum • W) (by rw [hlen]; exact h1) (by rw [hlen]; exact h2) dt
  have p2' := p2
  rw [← hr] at p2'
  have hWl : 0 < W.length := by
    by_contra h
    have : W.length ≤ 0 := not_lt.1 h
    nlinarith
  refine ⟨_, ((adaptive_stage y hy dt ws ks h0 hl).2 p2').1, ?_, ?_⟩
  · show (partTurn (rots ws ks) dt).mul y.ori = _
    rw [hr, p1, hlen, smul_smul, turn_axis hW]
    congr 2
    field_simp
  · have := (wsum_angVel W ws ks hk hl)
    unfold advance
    rw [RBDeriv.smul_angVel, this, smul_smul, turn_axis hW]
    congr 2
    ring
/-- **C92 violated (one revolution per unit).** When `c |W| = 2π` the attempt to form the stage is a `ZeroDivisionError`. -/
theorem adaptive_stage_full_turn_violated (y : RBState) (hy : Quat.Unit y.ori) (dt : ℝ) (W : V3 ℝ) (ws : List ℝ) (ks : List RBDeriv)
    (h0 : ws ≠ []) (hl : ws.length ≤ ks.length) (hk : ∀ k ∈ ks, k.angVel = W) (hc : 0 < ws.sum) (h1 : ws.sum * W.length = 2 * Real.pi) :
    stageState bodyArith y dt ws ks = .error .zeroDivision := by
  have hpi := Real.pi_pos
  have hW : W ≠ 0 := by rintro rfl; rw [(V3.length_zero_iff 0).2 rfl] at h1; linarith
  refine (adaptive_stage y hy dt ws ks h0 hl).1 ?_
  rw [rots_steady W ws ks hk hl, turn_axis hW, h1]
  unfold Quat.axisAngle
  rw [show 2 * Real.pi / 2 = Real.pi by ring, Real.cos_pi, Real.sin_pi]
  apply Quat.ext4 <;> simp

end Mapleaf.Motion.Body
