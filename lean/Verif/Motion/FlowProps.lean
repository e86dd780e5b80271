import Verif.Motion.CacheProps
import Verif.ENV.EnvProps

/-!
# C76: the flow quantities mean what they are called

In the statements, `s.vel - e.wind` is the velocity of the rocket relative to the air in the global frame. A vector `a` is
given by its components along the rocket's axes: `s.ori.rotF a` is the same vector in the global frame.
-/

namespace Mapleaf.Motion.Aero
open Mapleaf Mapleaf.Motion Mapleaf.ENV

/-- The answer to `q` is `r`, whatever has been asked before (except for angles of attack and sideslip, see C26). -/
def Answers (q : Query) (r : Except PyErr Ans) : Prop :=
  ∀ qs : List Query, (∀ p ∈ qs, p.writes = false) → (askAll empty (qs ++ [q])).getLast? = some r

theorem answers_iff (q : Query) (r : Except PyErr Ans) : Answers q r ↔ value q = r := by
  constructor
  · intro h
    have := h [] (by simp)
    rw [queries_partial [] (by simp) q] at this
    simpa using this
  · intro h qs hqs
    rw [queries_partial qs hqs q, h.symm]
    simp

/-- the velocity of the air in the rocket's frame -/
theorem airVel_ok {s : RBState} (e : EnvCond) (h : s.ori ≠ Quat.zeroQ) :
    ∃ a, airVel s e = .ok a ∧ s.ori.rotF a = e.wind - s.vel := by
  refine ⟨(-1 : ℝ) • s.ori.conj.rotF (s.vel - e.wind), ?_, ?_⟩
  · unfold airVel
    rw [Quat.rotate_eq_rotF _ _ (conj_ne h)]
    rfl
  · rw [rotF_smul]
    have h2 := rotF_conj (conj_ne h) (s.vel - e.wind)
    rw [show s.ori.conj.conj = s.ori by apply Quat.ext4 <;> simp [Quat.conj]] at h2
    rw [h2]
    apply V3.ext' <;> simp

theorem airVel_zero {s : RBState} (e : EnvCond) (h : s.ori = Quat.zeroQ) : airVel s e = .error .zeroDivision := by
  unfold airVel
  have : s.ori.conj = Quat.zeroQ := by rw [h]; apply Quat.ext4 <;> simp [Quat.conj, Quat.zeroQ]
  rw [this, (Quat.rotate_spec _ _).1.2 rfl]
  rfl

theorem rotF_inj {q : Quat ℝ} (h : q ≠ Quat.zeroQ) {a b : V3 ℝ} (he : q.rotF a = q.rotF b) : a = b := by
  rw [← rotF_conj h a, he, rotF_conj h]

/-- **C76.** The velocity of the air relative to the rocket, along the rocket's axes. -/
theorem airVel_iff (s : RBState) (e : EnvCond) (a : V3 ℝ) :
    Answers (.airVel s e) (.ok (.vec a)) ↔ s.ori ≠ Quat.zeroQ ∧ s.ori.rotF a = e.wind - s.vel := by
  rw [answers_iff]
  show (airVel s e).map Ans.vec = .ok (.vec a) ↔ _
  by_cases h : s.ori = Quat.zeroQ
  · rw [airVel_zero e h]
    simp [h, Except.map]
  · obtain ⟨a', h1, h2⟩ := airVel_ok e h
    rw [h1]
    constructor
    · intro h3
      cases h3
      exact ⟨h, h2⟩
    · rintro ⟨_, h3⟩
      rw [rotF_inj h (h3.trans h2.symm)]
      rfl

theorem length_of {s : RBState} {e : EnvCond} (h : s.ori ≠ Quat.zeroQ) {a : V3 ℝ} (ha : s.ori.rotF a = e.wind - s.vel) :
    a.length = (s.vel - e.wind).length := by
  rw [← rotF_length h a, ha]
  simp only [V3.length, V3.sub_x, V3.sub_y, V3.sub_z]
  congr 1
  ring

/-- **C76.** The Mach number is the speed relative to the air over the speed of sound at the temperature of the air (`γ` 1.4,
gas constant 287). It is asked for at positive temperatures only. -/
theorem mach_iff (s : RBState) (e : EnvCond) (x : Option ℝ) (M : ℝ) :
    Answers (.mach s e x) (.ok (.num M)) ↔
      0 < e.temp ∧ 0 ≤ M ∧ M ^ 2 * (1.4 * 287 * e.temp) = V3.dot (s.vel - e.wind) (s.vel - e.wind) := by
  rw [answers_iff]
  show (machOf s e).map Ans.num = _ ↔ _
  unfold machOf
  rcases lt_trichotomy e.temp 0 with h | h | h
  · rw [if_pos (by nlinarith)]
    simp [Except.map, not_lt.2 h.le]
  · rw [h, mul_zero, if_neg (lt_irrefl _), Real.sqrt_zero, if_pos rfl]
    simp [Except.map]
  · have hc : 0 < 1.4 * 287 * e.temp := by positivity
    have hs := Real.sqrt_pos.2 hc
    rw [if_neg (not_lt.2 hc.le), if_neg hs.ne', ← V3.length_sq]
    have hsq := Real.mul_self_sqrt hc.le
    set c := Real.sqrt (1.4 * 287 * e.temp)
    rw [← hsq]
    have hl := V3.length_nonneg (s.vel - e.wind)
    simp only [Except.map, Except.ok.injEq, Ans.num.injEq, h, true_and]
    constructor
    · rintro rfl
      refine ⟨div_nonneg hl hs.le, ?_⟩
      field_simp
    · rintro ⟨hM, h2⟩
      have : (M * c) ^ 2 = (s.vel - e.wind).length ^ 2 := by linear_combination h2
      rw [← (pow_left_inj₀ (mul_nonneg hM hs.le) hl two_ne_zero).1 this]
      field_simp

/-- Otherwise it is an error: a negative number under the root, or a division by zero. -/
theorem mach_error (s : RBState) (e : EnvCond) (x : Option ℝ) :
    (e.temp < 0 → Answers (.mach s e x) (.error .valueError)) ∧
    (e.temp = 0 → Answers (.mach s e x) (.error .zeroDivision)) := by
  constructor
  · intro h
    rw [answers_iff]
    show (machOf s e).map Ans.num = _
    unfold machOf
    rw [if_pos (by nlinarith)]; rfl
  · intro h
    rw [answers_iff]
    show (machOf s e).map Ans.num = _
    unfold machOf
    rw [h, mul_zero, if_neg (lt_irrefl _), Real.sqrt_zero, if_pos rfl]; rfl

/-- **C76.** The Reynolds number: density times speed times length over viscosity. -/
theorem reynolds_iff {s : RBState} (e : EnvCond) (len R : ℝ) (h : s.ori ≠ Quat.zeroQ) :
    (Answers (.reynolds s e len) (.ok (.num R)) ↔
      e.viscosity ≠ 0 ∧ R * e.viscosity = e.density * (s.vel - e.wind).length * len) ∧
    (e.viscosity = 0 → Answers (.reynolds s e len) (.error .zeroDivision)) := by
  obtain ⟨a, h1, h2⟩ := airVel_ok e h
  have hl := length_of h h2
  have hv : value (.reynolds s e len) = (reynoldsOf e len a).map .num := by
    show (airVel s e).bind _ = _
    rw [h1]; rfl
  rw [answers_iff, answers_iff, hv]
  unfold reynoldsOf
  by_cases hm : e.viscosity = 0
  · simp [hm, Except.map]
  · rw [if_neg hm, hl]
    simp only [Except.map, Except.ok.injEq, Ans.num.injEq, ne_eq, hm, not_false_iff, true_and, false_imp_iff, and_true]
    constructor
    · rintro rfl
      field_simp
    · intro h
      field_simp
      linear_combination -h

/-- **C76.** The dynamic pressure: half the density times the square of the speed relative to the air. -/
theorem dynP_iff {s : RBState} (e : EnvCond) (q : ℝ) (h : s.ori ≠ Quat.zeroQ) :
    Answers (.dynP s e) (.ok (.num q)) ↔ q = 1 / 2 * e.density * V3.dot (s.vel - e.wind) (s.vel - e.wind) := by
  obtain ⟨a, h1, h2⟩ := airVel_ok e h
  have hv : value (.dynP s e) = .ok (.num (a.length * a.length * e.density / 2)) := by
    show (airVel s e).map _ = _
    rw [h1]; rfl
  rw [answers_iff, hv, length_of h h2, V3.length_sq]
  simp only [Except.ok.injEq, Ans.num.injEq]
  constructor
  · rintro rfl; ring
  · rintro rfl; ring

/-! ## Angles -/

theorem angle_back {w : V3 ℝ} (hw : w ≠ 0) : w.angle ⟨0, 0, -1⟩ =
    .ok (if 1 - -w.z / w.length < 0.00000001 then 0 else Real.arccos (-w.z / w.length)) := by
  have h1 : (⟨0, 0, -1⟩ : V3 ℝ).length = 1 := by simp [V3.length]
  have hl : w.length ≠ 0 := fun h => hw ((V3.length_zero_iff w).1 h)
  unfold V3.angle
  rw [h1, mul_one, if_neg hl]
  have hd : V3.dot w ⟨0, 0, -1⟩ = -w.z := by simp [V3.dot]
  rw [hd]
  have hle : -w.z / w.length ≤ 1 := by
    have hp : 0 < w.length := lt_of_le_of_ne (V3.length_nonneg w) (Ne.symm hl)
    rw [div_le_one hp]
    have := V3.length_sq w
    simp only [V3.dot] at this
    nlinarith [sq_nonneg w.x, sq_nonneg w.y]
  have : |(-w.z / w.length) - 1| = 1 - -w.z / w.length := by
    rw [abs_sub_comm, abs_of_nonneg (by linarith)]
  dsimp only
  rw [this]
  split <;> simp

/-- **C76.** The total angle of attack: the angle between the rocket's axis and its velocity relative to the air, as a number
of radians from 0 to `π`; 0 at rest, and 0 when the cosine of the angle is within `10⁻⁸` of 1. -/
theorem totalAOA_iff {s : RBState} (e : EnvCond) (x : Option ℝ) (θ : ℝ) (h : s.ori ≠ Quat.zeroQ) :
    Answers (.totalAOA s e x) (.ok (.num θ)) ↔
      ∀ L c, L = (s.vel - e.wind).length → c * L = V3.dot (s.ori.rotF ⟨0, 0, 1⟩) (s.vel - e.wind) →
        ((L = 0 ∨ 1 - c < 0.00000001) → θ = 0) ∧
        (L ≠ 0 → 0.00000001 ≤ 1 - c → 0 ≤ θ ∧ θ ≤ Real.pi ∧ Real.cos θ = c) := by
  obtain ⟨a, h1, h2⟩ := airVel_ok e h
  have hl := length_of h h2
  have hv : value (.totalAOA s e x) = (totalAOAOf a).map .num := by
    show (airVel s e).bind _ = _
    rw [h1]; rfl
  have hd : V3.dot (s.ori.rotF ⟨0, 0, 1⟩) (s.vel - e.wind) = -a.z := by
    have h3 : s.vel - e.wind = (-1 : ℝ) • s.ori.rotF a := by rw [h2]; apply V3.ext' <;> simp
    rw [h3, ← rotF_smul, rotF_dot h]
    simp [V3.dot]
  rw [answers_iff, hv, hd, ← hl]
  unfold totalAOAOf
  by_cases ha : a.length = 0
  · rw [if_pos ha]
    simp only [Except.map, Except.ok.injEq, Ans.num.injEq]
    constructor
    · rintro rfl L c rfl _
      exact ⟨fun _ => rfl, fun h => absurd ha h⟩
    · intro hall
      have hz : a.z = 0 := by rw [(V3.length_zero_iff a).1 ha]; rfl
      exact ((hall a.length 0 rfl (by rw [hz]; simp)).1 (.inl ha)).symm
  · have ha0 : a ≠ 0 := fun h => ha ((V3.length_zero_iff a).2 h)
    rw [if_neg ha, angle_back ha0]
    simp only [Except.map, Except.ok.injEq, Ans.num.injEq]
    have hp : 0 < a.length := lt_of_le_of_ne (V3.length_nonneg a) (Ne.symm ha)
    have hsq := V3.length_sq a
    simp only [V3.dot] at hsq
    have hge : -1 ≤ -a.z / a.length := by
      rw [le_div_iff₀ hp]; nlinarith [sq_nonneg a.x, sq_nonneg a.y]
    constructor
    · rintro rfl L c rfl hc
      have hc' : c = -a.z / a.length := by rw [← hc]; field_simp
      subst hc'
      constructor
      · rintro (h0 | hlt)
        · exact absurd h0 ha
        · rw [if_pos hlt]
      · intro _ hge'
        rw [if_neg (not_lt.2 hge')]
        exact ⟨Real.arccos_nonneg _, Real.arccos_le_pi _, Real.cos_arccos hge (by norm_num at hge'; linarith)⟩
    · intro hall
      obtain ⟨hA, hB⟩ := hall a.length (-a.z / a.length) rfl (by field_simp)
      split
      · rename_i hlt
        exact (hA (.inr hlt)).symm
      · rename_i hlt
        obtain ⟨h0, hpi, hcos⟩ := hB ha (not_lt.1 hlt)
        rw [← hcos, Real.arccos_cos h0 hpi]

theorem signed_angle {u z r θ : ℝ} (hr : r = Real.sqrt (u ^ 2 + z ^ 2)) (hr0 : r ≠ 0) (hc : 0.00000001 ≤ 1 - -z / r) :
    (if u > 0 then Real.arccos (-z / r) else -Real.arccos (-z / r)) = θ ↔
      -Real.pi ≤ θ ∧ θ < Real.pi ∧ r * Real.cos θ = -z ∧ r * Real.sin θ = u := by
  have hp : 0 < r := lt_of_le_of_ne (hr ▸ Real.sqrt_nonneg _) (Ne.symm hr0)
  have hsq : r ^ 2 = u ^ 2 + z ^ 2 := by rw [hr, Real.sq_sqrt (by positivity)]
  have hge : -1 ≤ -z / r := by rw [le_div_iff₀ hp]; nlinarith [sq_nonneg u]
  have hle : -z / r ≤ 1 := by norm_num at hc; linarith
  have hcos := Real.cos_arccos hge hle
  have hsin : r * Real.sin (Real.arccos (-z / r)) = |u| := by
    rw [Real.sin_arccos]
    rw [show 1 - (-z / r) ^ 2 = (u / r) ^ 2 by field_simp; linear_combination hsq]
    rw [Real.sqrt_sq_eq_abs, abs_div, abs_of_pos hp]
    field_simp
  have h0 := Real.arccos_nonneg (-z / r)
  have h1 := Real.arccos_le_pi (-z / r)
  constructor
  · rintro rfl
    split
    · rename_i hu
      refine ⟨by linarith [Real.pi_pos], ?_, ?_, ?_⟩
      · refine lt_of_le_of_ne h1 (fun h => ?_)
        rw [h, Real.sin_pi, mul_zero] at hsin
        exact hu.ne' (abs_eq_zero.1 hsin.symm)
      · rw [hcos]; field_simp
      · rw [hsin, abs_of_pos hu]
    · rename_i hu
      refine ⟨by linarith, by linarith [Real.pi_pos], ?_, ?_⟩
      · rw [Real.cos_neg, hcos]; field_simp
      · rw [Real.sin_neg, mul_neg, hsin, abs_of_nonpos (not_lt.1 hu), neg_neg]
  · rintro ⟨h2, h3, h4, h5⟩
    have hcz : -z / r = Real.cos θ := by rw [← h4]; field_simp
    rw [hcz]
    split
    · rename_i hu
      have : 0 < θ := by
        by_contra hneg
        have := Real.sin_nonpos_of_nonpos_of_neg_pi_le (not_lt.1 hneg) h2
        nlinarith
      exact Real.arccos_cos this.le h3.le
    · rename_i hu
      have : θ ≤ 0 := by
        by_contra hpos
        have := Real.sin_pos_of_pos_of_lt_pi (not_le.1 hpos) h3
        nlinarith
      rw [← Real.cos_neg, Real.arccos_cos (by linarith) (by linarith), neg_neg]

/-- **C76.** Angle of attack. `a` is the velocity of the air in the rocket's frame. The angle is that of the part of `a` in the
plane of the rocket's x and z axes against the negative z axis, positive towards the positive x axis, from `-π` to `π`; it is 0
at rest, and when its cosine is within `10⁻⁸` of 1. It is an error when the air moves exactly along the y axis. -/
theorem aoa_iff {s : RBState} (e : EnvCond) {a : V3 ℝ} (h : s.ori ≠ Quat.zeroQ) (ha : s.ori.rotF a = e.wind - s.vel) (θ : ℝ) :
    (a = 0 → (Answers (.aoa s e) (.ok (.num θ)) ↔ θ = 0)) ∧
    (a ≠ 0 → a.x = 0 → a.z = 0 → Answers (.aoa s e) (.error .zeroDivision)) ∧
    ∀ r, r = Real.sqrt (a.x ^ 2 + a.z ^ 2) → r ≠ 0 →
      (1 - -a.z / r < 0.00000001 → (Answers (.aoa s e) (.ok (.num θ)) ↔ θ = 0)) ∧
      (0.00000001 ≤ 1 - -a.z / r → (Answers (.aoa s e) (.ok (.num θ)) ↔
        -Real.pi ≤ θ ∧ θ < Real.pi ∧ r * Real.cos θ = -a.z ∧ r * Real.sin θ = a.x)) := by
  obtain ⟨a', h1, h2⟩ := airVel_ok e h
  cases rotF_inj h (ha.trans h2.symm)
  have hv : value (.aoa s e) = if a.length = 0 then .ok (.num 0) else (aoaOf ⟨a.x, 0, a.z⟩).map .num := by
    show (airVel s e).bind _ = _
    rw [h1]; rfl
  simp only [answers_iff, hv]
  refine ⟨?_, ?_, ?_⟩
  · intro h0
    rw [if_pos ((V3.length_zero_iff a).2 h0)]
    simp [eq_comm]
  · intro h0 hx hz
    rw [if_neg (fun hc => h0 ((V3.length_zero_iff a).1 hc)), hx, hz]
    unfold aoaOf
    have : (⟨0, 0, 0⟩ : V3 ℝ).angle ⟨0, 0, -1⟩ = .error .zeroDivision := (V3.angle_spec _ _).1.2 (.inl rfl)
    rw [this]
    simp [Except.map]
  · intro r hr hr0
    have hne : (⟨a.x, 0, a.z⟩ : V3 ℝ) ≠ 0 := by
      intro h0
      have hx : a.x = 0 := congrArg V3.x h0
      have hz : a.z = 0 := congrArg V3.z h0
      exact hr0 (by rw [hr, hx, hz]; simp)
    have ha0 : a.length ≠ 0 := by
      intro h0
      apply hne
      rw [(V3.length_zero_iff a).1 h0]; rfl
    have hlen : (⟨a.x, 0, a.z⟩ : V3 ℝ).length = r := by
      rw [hr]; unfold V3.length; congr 1; simp only; ring
    rw [if_neg ha0]
    unfold aoaOf
    rw [angle_back hne, hlen]
    dsimp only
    constructor
    · intro hlt
      rw [if_pos hlt]
      split <;> simp [Except.map, eq_comm]
    · intro hge
      rw [if_neg (not_lt.2 hge), ← signed_angle hr hr0 hge]
      split <;> simp [Except.map]

/-- **C76.** Angle of sideslip, likewise in the plane of the y and z axes, positive towards the negative y axis. -/
theorem aoss_iff {s : RBState} (e : EnvCond) {a : V3 ℝ} (h : s.ori ≠ Quat.zeroQ) (ha : s.ori.rotF a = e.wind - s.vel) (θ : ℝ) :
    (a = 0 → (Answers (.aoss s e) (.ok (.num θ)) ↔ θ = 0)) ∧
    (a ≠ 0 → a.y = 0 → a.z = 0 → Answers (.aoss s e) (.error .zeroDivision)) ∧
    ∀ r, r = Real.sqrt (a.y ^ 2 + a.z ^ 2) → r ≠ 0 →
      (1 - -a.z / r < 0.00000001 → (Answers (.aoss s e) (.ok (.num θ)) ↔ θ = 0)) ∧
      (0.00000001 ≤ 1 - -a.z / r → (Answers (.aoss s e) (.ok (.num θ)) ↔
        -Real.pi ≤ θ ∧ θ < Real.pi ∧ r * Real.cos θ = -a.z ∧ r * Real.sin θ = -a.y)) := by
  obtain ⟨a', h1, h2⟩ := airVel_ok e h
  cases rotF_inj h (ha.trans h2.symm)
  have hv : value (.aoss s e) = if a.length = 0 then .ok (.num 0) else (aossOf ⟨0, a.y, a.z⟩).map .num := by
    show (airVel s e).bind _ = _
    rw [h1]; rfl
  simp only [answers_iff, hv]
  refine ⟨?_, ?_, ?_⟩
  · intro h0
    rw [if_pos ((V3.length_zero_iff a).2 h0)]
    simp [eq_comm]
  · intro h0 hx hz
    rw [if_neg (fun hc => h0 ((V3.length_zero_iff a).1 hc)), hx, hz]
    unfold aossOf
    have : (⟨0, 0, 0⟩ : V3 ℝ).angle ⟨0, 0, -1⟩ = .error .zeroDivision := (V3.angle_spec _ _).1.2 (.inl rfl)
    rw [this]
    simp [Except.map]
  · intro r hr hr0
    have hne : (⟨0, a.y, a.z⟩ : V3 ℝ) ≠ 0 := by
      intro h0
      have hx : a.y = 0 := congrArg V3.y h0
      have hz : a.z = 0 := congrArg V3.z h0
      exact hr0 (by rw [hr, hx, hz]; simp)
    have ha0 : a.length ≠ 0 := by
      intro h0
      apply hne
      rw [(V3.length_zero_iff a).1 h0]; rfl
    have hlen : (⟨0, a.y, a.z⟩ : V3 ℝ).length = r := by
      rw [hr]; unfold V3.length; congr 1; simp only; ring
    rw [if_neg ha0]
    unfold aossOf
    rw [angle_back hne, hlen]
    dsimp only
    constructor
    · intro hlt
      rw [if_pos hlt]
      split <;> simp [Except.map, eq_comm]
    · intro hge
      have hr' : r = Real.sqrt ((-a.y) ^ 2 + a.z ^ 2) := by rw [hr, neg_sq]
      rw [if_neg (not_lt.2 hge), ← signed_angle hr' hr0 hge]
      by_cases hy : a.y < 0
      · rw [if_pos hy, if_pos (by linarith)]; simp [Except.map]
      · rw [if_neg hy, if_neg (by linarith)]; simp [Except.map]

/-! ## Normal direction and roll angle -/

/-- **C76.** The direction of the normal force: the unit vector across the rocket's axis in which the air moves; the x axis when
it does not move across. -/
theorem normal_iff {s : RBState} (e : EnvCond) {a : V3 ℝ} (h : s.ori ≠ Quat.zeroQ) (ha : s.ori.rotF a = e.wind - s.vel)
    (n : V3 ℝ) :
    Answers (.normal s e) (.ok (.vec n)) ↔
      n.z = 0 ∧ n.length = 1 ∧
      ((a.x = 0 ∧ a.y = 0 ∧ n = ⟨1, 0, 0⟩) ∨ ∃ k, 0 < k ∧ a.x = k * n.x ∧ a.y = k * n.y) := by
  obtain ⟨a', h1, h2⟩ := airVel_ok e h
  cases rotF_inj h (ha.trans h2.symm)
  have hv : value (.normal s e) = .ok (.vec (normalOf a)) := by
    show (airVel s e).map _ = _
    rw [h1]; rfl
  rw [answers_iff, hv]
  simp only [Except.ok.injEq, Ans.vec.injEq]
  unfold normalOf
  split
  · rename_i h0
    constructor
    · rintro rfl
      exact ⟨rfl, by simp [V3.length], .inl ⟨h0.1, h0.2, rfl⟩⟩
    · rintro ⟨hz, hl, ⟨_, _, rfl⟩ | ⟨k, hk, hx, hy⟩⟩
      · rfl
      · exfalso
        have hnx : n.x = 0 := by
          have := hx; rw [h0.1] at this; exact (mul_eq_zero.1 this.symm).resolve_left hk.ne'
        have hny : n.y = 0 := by
          have := hy; rw [h0.2] at this; exact (mul_eq_zero.1 this.symm).resolve_left hk.ne'
        have : n.length = 0 := (V3.length_zero_iff n).2 (V3.ext' hnx hny hz)
        rw [this] at hl; exact zero_ne_one hl
  · rename_i h0
    have hne : (⟨a.x, a.y, 0⟩ : V3 ℝ) ≠ 0 := fun hc => h0 ⟨congrArg V3.x hc, congrArg V3.y hc⟩
    have hp : 0 < (⟨a.x, a.y, 0⟩ : V3 ℝ).length :=
      lt_of_le_of_ne (V3.length_nonneg _) (fun hc => hne ((V3.length_zero_iff _).1 hc.symm))
    have hsq := V3.length_sq (⟨a.x, a.y, 0⟩ : V3 ℝ)
    simp only [V3.dot, mul_zero, add_zero] at hsq
    unfold V3.normalize
    rw [if_pos hp]
    set r := (⟨a.x, a.y, 0⟩ : V3 ℝ).length
    constructor
    · rintro rfl
      refine ⟨by simp, ?_, .inr ⟨r, hp, by field_simp, by field_simp⟩⟩
      unfold V3.length
      simp only [zero_div, mul_zero, add_zero]
      rw [Real.sqrt_eq_one]
      field_simp
      linarith
    · rintro ⟨hz, hl, ⟨hx, hy, _⟩ | ⟨k, hk, hx, hy⟩⟩
      · exact absurd ⟨hx, hy⟩ h0
      · have h3 := V3.length_sq n
        rw [hl] at h3
        simp only [V3.dot, hz, mul_zero, add_zero] at h3
        have hkr : r = k := by
          have : r ^ 2 = k ^ 2 := by
            rw [hx, hy] at hsq
            linear_combination hsq - k ^ 2 * h3
          exact (pow_left_inj₀ hp.le hk.le two_ne_zero).1 this
        rw [hkr, hx, hy]
        apply V3.ext'
        · simp only; field_simp
        · simp only; field_simp
        · simp [hz]

/-- **C76.** The roll angle `φ`, in degrees from 0 up to 360: the direction against the normal force is that of `φ` in the plane
of the rocket's x and y axes, from x towards y. -/
theorem roll_iff {s : RBState} (e : EnvCond) (x : Option ℝ) {n : V3 ℝ} (hn : Answers (.normal s e) (.ok (.vec n)))
    (h : s.ori ≠ Quat.zeroQ) (φ : ℝ) :
    Answers (.roll s e x) (.ok (.num φ)) ↔
      0 ≤ φ ∧ φ < 360 ∧ Real.cos (φ * Real.pi / 180) = -n.x ∧ Real.sin (φ * Real.pi / 180) = -n.y := by
  obtain ⟨a, h1, h2⟩ := airVel_ok e h
  have hz := (normal_iff e h h2 n).1 hn
  obtain ⟨hnz, hnl, _⟩ := hz
  rw [answers_iff] at hn
  have hn' : normalOf a = n := by
    have : (airVel s e).map (fun v => Ans.vec (normalOf v)) = .ok (.vec n) := hn
    rw [h1] at this
    simpa [Except.map] using this
  have hv : value (.roll s e x) = .ok (.num (rollOf n)) := by
    show (airVel s e).map _ = _
    rw [h1, ← hn']; rfl
  rw [answers_iff, hv]
  simp only [Except.ok.injEq, Ans.num.injEq]
  have hone : n.x * n.x + n.y * n.y = 1 := by
    have := V3.length_sq n
    rw [hnl] at this
    simp only [V3.dot, hnz] at this
    linarith
  have hlen : ((-1 : ℝ) • n).length = 1 := by
    unfold V3.length
    rw [Real.sqrt_eq_one]
    simp only [V3.smul_x, V3.smul_y, V3.smul_z, hnz]
    linarith
  unfold rollOf
  dsimp only
  rw [hlen, if_neg (by norm_num)]
  set t := Quat.atan2 (-((-1 : ℝ) • n).y) ((-1 : ℝ) • n).x with ht
  have hpi := Real.pi_pos
  have hcos : Real.cos t = -n.x := by
    have := atan2_cos (-((-1 : ℝ) • n).y) ((-1 : ℝ) • n).x
    rw [← ht] at this
    simp only [V3.smul_x, V3.smul_y] at this
    rw [show n.x * -1 * (n.x * -1) + -(n.y * -1) * -(n.y * -1) = 1 by linear_combination hone] at this
    simpa using this
  have hsin : Real.sin t = n.y := by
    have := atan2_sin (-((-1 : ℝ) • n).y) ((-1 : ℝ) • n).x
    rw [← ht] at this
    simp only [V3.smul_x, V3.smul_y] at this
    rw [show n.x * -1 * (n.x * -1) + -(n.y * -1) * -(n.y * -1) = 1 by linear_combination hone] at this
    simpa using this
  set A := -1 * (t * 180 / Real.pi) with hA
  have hred : ∀ k : ℤ, (A - 360 * k) * Real.pi / 180 = -t - k * (2 * Real.pi) := by
    intro k
    rw [hA]; field_simp; ring
  have hf0 := Int.floor_le (A / 360)
  have hf1 := Int.lt_floor_add_one (A / 360)
  constructor
  · rintro rfl
    refine ⟨by linarith, by linarith, ?_, ?_⟩
    · rw [hred, Real.cos_sub_int_mul_two_pi, Real.cos_neg, hcos]
    · rw [hred, Real.sin_sub_int_mul_two_pi, Real.sin_neg, hsin]
  · rintro ⟨h3, h4, h5, h6⟩
    -- both angles have the same cosine and sine and lie in one period
    set ψ := A - 360 * (⌊A / 360⌋ : ℝ) with hψ
    have hc2 : Real.cos (ψ * Real.pi / 180) = -n.x := by
      rw [hψ, hred, Real.cos_sub_int_mul_two_pi, Real.cos_neg, hcos]
    have hs2 : Real.sin (ψ * Real.pi / 180) = -n.y := by
      rw [hψ, hred, Real.sin_sub_int_mul_two_pi, Real.sin_neg, hsin]
    have hψ0 : 0 ≤ ψ := by rw [hψ]; linarith
    have hψ1 : ψ < 360 := by rw [hψ]; linarith
    have hdiff : Real.cos (ψ * Real.pi / 180 - φ * Real.pi / 180) = 1 := by
      rw [Real.cos_sub, hc2, hs2, h5, h6]; linarith
    obtain ⟨k, hk⟩ := (Real.cos_eq_one_iff _).1 hdiff
    have hk2 : (k : ℝ) * 360 = ψ - φ := by
      have : (k : ℝ) * (2 * Real.pi) * 180 = (ψ - φ) * Real.pi := by rw [hk]; ring
      have h7 : ((k : ℝ) * 360 - (ψ - φ)) * Real.pi = 0 := by linear_combination this
      rcases mul_eq_zero.1 h7 with h8 | h8
      · linarith
      · exact absurd h8 hpi.ne'
    have hk1 : (k : ℝ) < 1 := by linarith
    have hk0 : (-1 : ℝ) < k := by linarith
    have : k = 0 := by
      have a1 : k < 1 := by exact_mod_cast hk1
      have a2 : -1 < k := by exact_mod_cast hk0
      omega
    rw [this] at hk2
    simp at hk2
    linarith

/-- **C76, violated.** The docstring of `getRollAngle` gives roll angle 0 for a normal force along the y axis and 90 for one
along the x axis; the function returns 270 and 180. -/
theorem roll_reference_violated {s : RBState} (e : EnvCond) (x : Option ℝ) (h : s.ori ≠ Quat.zeroQ) :
    (Answers (.normal s e) (.ok (.vec ⟨0, 1, 0⟩)) → Answers (.roll s e x) (.ok (.num 270))) ∧
    (Answers (.normal s e) (.ok (.vec ⟨1, 0, 0⟩)) → Answers (.roll s e x) (.ok (.num 180))) := by
  constructor
  · intro hn
    rw [roll_iff e x hn h]
    have : (270 : ℝ) * Real.pi / 180 = Real.pi / 2 + Real.pi := by ring
    rw [this, Real.cos_add_pi, Real.sin_add_pi]
    norm_num
  · intro hn
    rw [roll_iff e x hn h]
    have : (180 : ℝ) * Real.pi / 180 = Real.pi := by ring
    rw [this, Real.cos_pi, Real.sin_pi]
    norm_num

/-- **C76, violated.** The docstring of `getTotalAOA` promises degrees. A rocket moving across its axis has an angle of attack of
90 degrees; the function returns `π / 2`. -/
theorem totalAOA_degrees_violated {s : RBState} (e : EnvCond) (x : Option ℝ) (h : s.ori ≠ Quat.zeroQ)
    (hv : s.vel ≠ e.wind) (hd : V3.dot (s.ori.rotF ⟨0, 0, 1⟩) (s.vel - e.wind) = 0) :
    Answers (.totalAOA s e x) (.ok (.num (Real.pi / 2))) ∧ Real.pi / 2 ≠ 90 := by
  have hpi := Real.pi_pos
  constructor
  · rw [totalAOA_iff e x _ h]
    intro L c hL hc
    have hL0 : L ≠ 0 := by
      rw [hL]
      intro h0
      have := (V3.length_zero_iff _).1 h0
      apply hv
      have hx := congrArg V3.x this
      have hy := congrArg V3.y this
      have hz := congrArg V3.z this
      apply V3.ext' <;> simp at * <;> linarith
    have hc0 : c = 0 := by rw [hd] at hc; exact (mul_eq_zero.1 hc).resolve_right hL0
    subst hc0
    refine ⟨?_, fun _ _ => ⟨by linarith, by linarith, Real.cos_pi_div_two⟩⟩
    rintro (h0 | h1)
    · exact absurd h0 hL0
    · norm_num at h1
  · have := Real.pi_le_four
    intro hc
    linarith

/-- A rocket along the global z axis that moves along x through still air: the hypotheses hold. -/
example : (⟨1, 0, 0, 0⟩ : Quat ℝ) ≠ Quat.zeroQ ∧ (⟨5, 0, 0⟩ : V3 ℝ) ≠ 0 ∧
    V3.dot ((⟨1, 0, 0, 0⟩ : Quat ℝ).rotF ⟨0, 0, 1⟩) (⟨5, 0, 0⟩ - 0) = 0 ∧
    (⟨1, 0, 0, 0⟩ : Quat ℝ).rotF ⟨-5, 0, 0⟩ = 0 - ⟨5, 0, 0⟩ := by
  refine ⟨id_ne, fun h => ?_, ?_, ?_⟩
  · have := congrArg V3.x h; simp at this
  · rw [rotF_id]; simp [V3.dot]
  · rw [rotF_id]; apply V3.ext' <;> simp

end Mapleaf.Motion.Aero
