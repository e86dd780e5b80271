import Verif.Motion.TurnSmoothProps

/-! # C94: rigid bodies under smooth forces, moments and inertia -/

namespace Mapleaf.Motion.Turn
open Set Mapleaf.Motion.Lim Mapleaf.Motion.RK Mapleaf.Motion.Body Mapleaf
open NormedSpace (exp)

attribute [local instance] vNorm vSpace

/-! ## Components -/

theorem abs_x_le (v : V3 ℝ) : |v.x| ≤ v.length := Real.abs_le_sqrt (by nlinarith [sq_nonneg v.y, sq_nonneg v.z])
theorem abs_y_le (v : V3 ℝ) : |v.y| ≤ v.length := Real.abs_le_sqrt (by nlinarith [sq_nonneg v.x, sq_nonneg v.z])
theorem abs_z_le (v : V3 ℝ) : |v.z| ≤ v.length := Real.abs_le_sqrt (by nlinarith [sq_nonneg v.x, sq_nonneg v.y])

noncomputable def xL : V3 ℝ →L[ℝ] ℝ :=
  LinearMap.mkContinuous ⟨⟨V3.x, fun _ _ => rfl⟩, fun k v => mul_comm v.x k⟩ 1 (fun v => (abs_x_le v).trans (one_mul _).ge)
noncomputable def yL : V3 ℝ →L[ℝ] ℝ :=
  LinearMap.mkContinuous ⟨⟨V3.y, fun _ _ => rfl⟩, fun k v => mul_comm v.y k⟩ 1 (fun v => (abs_y_le v).trans (one_mul _).ge)
noncomputable def zL : V3 ℝ →L[ℝ] ℝ :=
  LinearMap.mkContinuous ⟨⟨V3.z, fun _ _ => rfl⟩, fun k v => mul_comm v.z k⟩ 1 (fun v => (abs_z_le v).trans (one_mul _).ge)

/-- the vector part of a quaternion -/
def imV (q : Quaternion ℝ) : V3 ℝ := ⟨q.imI, q.imJ, q.imK⟩

theorem length_imV (q : Quaternion ℝ) : (imV q).length ≤ ‖q‖ := by
  have h : ‖q‖ * ‖q‖ = q.re * q.re + q.imI * q.imI + q.imJ * q.imJ + q.imK * q.imK := by
    rw [← Quaternion.normSq_eq_norm_mul_self, Quaternion.normSq_def']; ring
  apply Real.sqrt_le_iff.2
  refine ⟨norm_nonneg _, ?_⟩
  rw [pow_two, h]
  simp only [imV]
  nlinarith [mul_self_nonneg q.re]

noncomputable def imL : Quaternion ℝ →L[ℝ] V3 ℝ :=
  LinearMap.mkContinuous ⟨⟨imV, fun _ _ => rfl⟩, fun k q => by apply V3.ext' <;> simp [imV, mul_comm]⟩ 1 (fun q => (length_imV q).trans (one_mul _).ge)

noncomputable def starQ : Quaternion ℝ →L[ℝ] Quaternion ℝ :=
  LinearMap.mkContinuous ⟨⟨star, star_add⟩, fun k q => by ext <;> simp⟩ 1 (fun q => ((norm_star q).trans (one_mul _).symm).le)

section contdiff
variable {X : Type} [NormedAddCommGroup X] [NormedSpace ℝ X] {n : WithTop ℕ∞} {S : Set X}

theorem smooth_x {φ : X → V3 ℝ} (h : ContDiffOn ℝ n φ S) : ContDiffOn ℝ n (fun p => (φ p).x) S := xL.contDiff.comp_contDiffOn h
theorem smooth_y {φ : X → V3 ℝ} (h : ContDiffOn ℝ n φ S) : ContDiffOn ℝ n (fun p => (φ p).y) S := yL.contDiff.comp_contDiffOn h
theorem smooth_z {φ : X → V3 ℝ} (h : ContDiffOn ℝ n φ S) : ContDiffOn ℝ n (fun p => (φ p).z) S := zL.contDiff.comp_contDiffOn h

theorem smooth_mk {f g h : X → ℝ} (hf : ContDiffOn ℝ n f S) (hg : ContDiffOn ℝ n g S) (hh : ContDiffOn ℝ n h S) :
    ContDiffOn ℝ n (fun p => (⟨f p, g p, h p⟩ : V3 ℝ)) S := by
  have := ((hf.smul (contDiffOn_const (c := (⟨1, 0, 0⟩ : V3 ℝ)))).add (hg.smul (contDiffOn_const (c := (⟨0, 1, 0⟩ : V3 ℝ))))).add
    (hh.smul (contDiffOn_const (c := (⟨0, 0, 1⟩ : V3 ℝ))))
  refine this.congr fun p _ => ?_
  apply V3.ext' <;> simp

/-- The rotation of a vector by a quaternion, as a polynomial. -/
theorem sandwich_im (q : Quat ℝ) (v : V3 ℝ) : q.sandwich v = imV (Quat.toH q * Quat.pureH v * star (Quat.toH q)) := by
  apply V3.ext' <;> simp [imV, Quat.sandwich, Quat.mul, Quat.conj] <;> ring

theorem smooth_turn {φ : X → Quaternion ℝ} {v : X → V3 ℝ} (h : ContDiffOn ℝ n φ S) (hv : ContDiffOn ℝ n v S) :
    ContDiffOn ℝ n (fun p => imV (φ p * Quat.pureH (v p) * star (φ p))) S := by
  have hp : ContDiffOn ℝ n (fun p => Quat.pureH (v p)) S := by
    have : ContDiffOn ℝ n (fun p => half ((2 : ℝ) • v p)) S := halfL.contDiff.comp_contDiffOn (hv.const_smul (2 : ℝ))
    refine this.congr fun p _ => ?_
    rw [half, pureH_smul, smul_smul]
    norm_num
  have hs : ContDiffOn ℝ n (fun p => star (φ p)) S := starQ.contDiff.comp_contDiffOn h
  exact imL.contDiff.comp_contDiffOn ((h.mul hp).mul hs)

end contdiff

/-! ## Rigid bodies -/

/-- `y` is the motion of a rigid body on `[a, e]`, written down without reference to the code's right-hand side: Newton's law in the global
frame, Euler's law for principal axes in the body frame, the orientation turning with the angular velocity in the body frame, and the position
moving with the velocity and with the centre of gravity's shift within the body (as the code's difference quotient over `1e-8` s has it). -/
structure RigidMotion (force moment : ℝ → RBState → V3 ℝ) (inertia : ℝ → RBState → MassProps) (y : ℝ → RBState) (a e : ℝ) : Prop where
  unit : ∀ t ∈ Icc a e, Quat.Unit (y t).ori
  pos : ∀ t ∈ Icc a e, HasDerivWithinAt (fun t => (y t).pos)
    ((y t).vel + (y t).ori.rotF ((1e8 : ℝ) • ((inertia (t + 1e-8) (y t)).cg - (inertia t (y t)).cg))) (Icc a e) t
  vel : ∀ t ∈ Icc a e, ∃ A, HasDerivWithinAt (fun t => (y t).vel) A (Icc a e) t ∧ (inertia t (y t)).mass • A = (y t).ori.rotF (force t (y t))
  ori : ∀ t ∈ Icc a e, HasDerivWithinAt (fun t => Quat.toH (y t).ori) ((1 / 2 : ℝ) • (Quat.toH (y t).ori * Quat.pureH (y t).angVel)) (Icc a e) t
  ang : ∀ t ∈ Icc a e, ∃ A, HasDerivWithinAt (fun t => (y t).angVel) A (Icc a e) t ∧
    tensor (inertia t (y t)).moi A + V3.cross (y t).angVel (tensor (inertia t (y t)).moi (y t).angVel) = moment t (y t)

/-- Force, moment, mass, moments of inertia and centre of gravity are twice continuously differentiable in time and state around the motion. -/
structure SmoothBody (force moment : ℝ → RBState → V3 ℝ) (inertia : ℝ → RBState → MassProps) (U : Set (ℝ × St)) : Prop where
  isOpen : IsOpen U
  force : ContDiffOn ℝ 2 (fun p : ℝ × St => force p.1 (dec p.2)) U
  moment : ContDiffOn ℝ 2 (fun p : ℝ × St => moment p.1 (dec p.2)) U
  mass : ContDiffOn ℝ 2 (fun p : ℝ × St => (inertia p.1 (dec p.2)).mass) U
  moi : ContDiffOn ℝ 2 (fun p : ℝ × St => (inertia p.1 (dec p.2)).moi) U
  cg : ContDiffOn ℝ 2 (fun p : ℝ × St => (inertia p.1 (dec p.2)).cg) U
  cg' : ContDiffOn ℝ 2 (fun p : ℝ × St => (inertia (p.1 + 1e-8) (dec p.2)).cg) U

section rigid
variable {force moment : ℝ → RBState → V3 ℝ} {inertia : ℝ → RBState → MassProps} {y : ℝ → RBState} {a e : ℝ} {U : Set (ℝ × St)}

/-- The right-hand side, on unit orientations, as a function of time and state that is polynomial in the orientation. -/
noncomputable def rigidG (force moment : ℝ → RBState → V3 ℝ) (inertia : ℝ → RBState → MassProps) (p : ℝ × St) : Ch :=
  ((p.2.1.2.1 + imV (p.2.2 * Quat.pureH ((1e8 : ℝ) • ((inertia (p.1 + 1e-8) (dec p.2)).cg - (inertia p.1 (dec p.2)).cg)) * star p.2.2),
    (1 / (inertia p.1 (dec p.2)).mass) • imV (p.2.2 * Quat.pureH (force p.1 (dec p.2)) * star p.2.2),
    ⟨((moment p.1 (dec p.2)).x + ((inertia p.1 (dec p.2)).moi.y - (inertia p.1 (dec p.2)).moi.z) * p.2.1.2.2.y * p.2.1.2.2.z) / (inertia p.1 (dec p.2)).moi.x,
     ((moment p.1 (dec p.2)).y + ((inertia p.1 (dec p.2)).moi.z - (inertia p.1 (dec p.2)).moi.x) * p.2.1.2.2.z * p.2.1.2.2.x) / (inertia p.1 (dec p.2)).moi.y,
     ((moment p.1 (dec p.2)).z + ((inertia p.1 (dec p.2)).moi.x - (inertia p.1 (dec p.2)).moi.y) * p.2.1.2.2.x * p.2.1.2.2.y) / (inertia p.1 (dec p.2)).moi.z⟩),
   imV (p.2.2 * Quat.pureH p.2.1.2.2 * star p.2.2))

theorem rigidG_smooth (H : SmoothBody force moment inertia U)
    (hne : ∀ t s, (inertia t s).mass ≠ 0 ∧ (inertia t s).moi.x ≠ 0 ∧ (inertia t s).moi.y ≠ 0 ∧ (inertia t s).moi.z ≠ 0) :
    ContDiffOn ℝ 2 (rigidG force moment inertia) U := by
  have hq : ContDiffOn ℝ 2 (fun p : ℝ × St => p.2.2) U := (contDiff_snd.comp contDiff_snd).contDiffOn
  have hv : ContDiffOn ℝ 2 (fun p : ℝ × St => p.2.1.2.1) U := (contDiff_fst.comp (contDiff_snd.comp (contDiff_fst.comp contDiff_snd))).contDiffOn
  have hw : ContDiffOn ℝ 2 (fun p : ℝ × St => p.2.1.2.2) U := (contDiff_snd.comp (contDiff_snd.comp (contDiff_fst.comp contDiff_snd))).contDiffOn
  have h1 := hv.add (smooth_turn hq ((H.cg'.sub H.cg).const_smul (1e8 : ℝ)))
  have h2 := ((contDiffOn_const (c := (1 : ℝ))).div H.mass fun p _ => (hne p.1 (dec p.2)).1).smul (smooth_turn hq H.force)
  have h3 := smooth_mk
    (((smooth_x H.moment).add ((((smooth_y H.moi).sub (smooth_z H.moi)).mul (smooth_y hw)).mul (smooth_z hw))).div (smooth_x H.moi)
      fun p _ => (hne p.1 (dec p.2)).2.1)
    (((smooth_y H.moment).add ((((smooth_z H.moi).sub (smooth_x H.moi)).mul (smooth_z hw)).mul (smooth_x hw))).div (smooth_y H.moi)
      fun p _ => (hne p.1 (dec p.2)).2.2.1)
    (((smooth_z H.moment).add ((((smooth_x H.moi).sub (smooth_y H.moi)).mul (smooth_x hw)).mul (smooth_y hw))).div (smooth_z H.moi)
      fun p _ => (hne p.1 (dec p.2)).2.2.2)
  exact (h1.prodMk (h2.prodMk h3)).prodMk (smooth_turn hq hw)

theorem tensor_solve (I α w M : V3 ℝ) (hx : I.x ≠ 0) (hy : I.y ≠ 0) (hz : I.z ≠ 0) :
    tensor I α + V3.cross w (tensor I w) = M ↔
    α = ⟨(M.x + (I.y - I.z) * w.y * w.z) / I.x, (M.y + (I.z - I.x) * w.z * w.x) / I.y, (M.z + (I.x - I.y) * w.x * w.y) / I.z⟩ := by
  constructor
  · rintro rfl
    apply V3.ext' <;> simp [tensor, V3.cross] <;> field_simp <;> ring
  · rintro rfl
    apply V3.ext' <;> simp [tensor, V3.cross] <;> field_simp <;> ring

theorem rotation_is {q : Quat ℝ} (hq : Quat.Unit q) {v v' : V3 ℝ} (h : Quat.IsRotation q v v') : v' = q.rotF v := by
  have h' := Quat.rotF_spec q v hq.ne
  unfold Quat.IsRotation at h h'
  exact Quat.pureH_injective (h.trans h'.symm)

/-- The code's right-hand side on unit orientations. -/
theorem rigid_rhs (hne : ∀ t s, (inertia t s).mass ≠ 0 ∧ (inertia t s).moi.x ≠ 0 ∧ (inertia t s).moi.y ≠ 0 ∧ (inertia t s).moi.z ≠ 0) :
    ∃ g : ℝ → RBState → RBDeriv, ∀ t s, Quat.Unit s.ori → bodyRhs force moment inertia t s = .ok (g t s) ∧
      (g t s).vel = s.vel + s.ori.rotF ((1e8 : ℝ) • ((inertia (t + 1e-8) s).cg - (inertia t s).cg)) ∧
      (inertia t s).mass • (g t s).acc = s.ori.rotF (force t s) ∧ (g t s).angVel = s.ori.rotF s.angVel ∧
      tensor (inertia t s).moi (g t s).angAcc + V3.cross s.angVel (tensor (inertia t s).moi s.angVel) = moment t s := by
  have : ∀ (t : ℝ) (s : RBState), ∃ d : RBDeriv, Quat.Unit s.ori → bodyRhs force moment inertia t s = .ok d ∧
      d.vel = s.vel + s.ori.rotF ((1e8 : ℝ) • ((inertia (t + 1e-8) s).cg - (inertia t s).cg)) ∧
      (inertia t s).mass • d.acc = s.ori.rotF (force t s) ∧ d.angVel = s.ori.rotF s.angVel ∧
      tensor (inertia t s).moi d.angAcc + V3.cross s.angVel (tensor (inertia t s).moi s.angVel) = moment t s := by
    intro t s
    by_cases hs : Quat.Unit s.ori
    · obtain ⟨h1, h2, h3, h4⟩ := hne t s
      obtain ⟨d, hd, ⟨FG, e1, e2⟩, ⟨wG, e3, e4⟩, e5, _, ⟨c, e6, e7⟩⟩ :=
        newton_euler s (force t s) (moment t s) (inertia t s) (inertia (t + 1e-8) s) hs.ne h1 h2 h3 h4
      exact ⟨d, fun _ => ⟨hd, by rw [e7, rotation_is hs e6], by rw [e2, rotation_is hs e1], by rw [e4, rotation_is hs e3], e5⟩⟩
    · exact ⟨0, fun h => absurd h hs⟩
  choose g hg using this
  exact ⟨g, hg⟩

/-- Turning with the angular velocity in the body frame is turning with the angular velocity in the global frame. -/
theorem frame_turn {q : Quat ℝ} (hq : Quat.Unit q) (w : V3 ℝ) : Quat.pureH (q.rotF w) * Quat.toH q = Quat.toH q * Quat.pureH w := by
  have h := Quat.rotF_spec q w hq.ne
  unfold Quat.IsRotation at h
  have hne : Quat.toH q ≠ 0 := by
    have := (unitO_enc ⟨0, 0, q, 0⟩).2 hq
    intro h0
    unfold UnitO enc at this
    dsimp only at this
    rw [h0, norm_zero] at this
    exact zero_ne_one this
  rw [h, mul_assoc, inv_mul_cancel₀ hne, mul_one]

/-- The motion of a rigid body is a motion under the code's right-hand side. -/
theorem rigid_setup (hne : ∀ t s, (inertia t s).mass ≠ 0 ∧ (inertia t s).moi.x ≠ 0 ∧ (inertia t s).moi.y ≠ 0 ∧ (inertia t s).moi.z ≠ 0)
    (R : RigidMotion force moment inertia y a e) (H : SmoothBody force moment inertia U) (mem : ∀ t ∈ Icc a e, (t, enc (y t)) ∈ U) :
    ∃ g : ℝ → RBState → RBDeriv, (∀ t s, Quat.Unit s.ori → bodyRhs force moment inertia t s = .ok (g t s)) ∧ TrueMotion g y a e ∧
      SmoothRhs g (rigidG force moment inertia) U y a e := by
  obtain ⟨g, hg⟩ := rigid_rhs (force := force) (moment := moment) hne
  have M : TrueMotion g y a e := by
    refine ⟨R.unit, fun t ht => ?_, fun t ht => ?_, fun t ht => ?_, fun t ht => ?_⟩
    · rw [(hg t (y t) (R.unit t ht)).2.1]; exact R.pos t ht
    · obtain ⟨A, h1, h2⟩ := R.vel t ht
      have h3 := (hg t (y t) (R.unit t ht)).2.2.1
      have : A = (g t (y t)).acc := by
        have h4 : (inertia t (y t)).mass • A = (inertia t (y t)).mass • (g t (y t)).acc := h2.trans h3.symm
        exact smul_right_injective _ (hne t (y t)).1 h4
      rw [← this]; exact h1
    · rw [(hg t (y t) (R.unit t ht)).2.2.2.1, frame_turn (R.unit t ht)]; exact R.ori t ht
    · obtain ⟨A, h1, h2⟩ := R.ang t ht
      have h3 := (hg t (y t) (R.unit t ht)).2.2.2.2
      obtain ⟨_, hx, hy, hz⟩ := hne t (y t)
      rw [tensor_solve _ _ _ _ hx hy hz] at h2 h3
      rw [h3, ← h2]; exact h1
  have S : SmoothRhs g (rigidG force moment inertia) U y a e := by
    refine ⟨H.isOpen, rigidG_smooth H hne, mem, fun t s hs _ => ?_⟩
    obtain ⟨_, h1, h2, h3, h4⟩ := hg t s hs
    obtain ⟨hm0, hx, hy, hz⟩ := hne t s
    rw [tensor_solve _ _ _ _ hx hy hz] at h4
    have h5 : (g t s).acc = (1 / (inertia t s).mass) • s.ori.rotF (force t s) := by
      rw [← h2, smul_smul, one_div_mul_cancel hm0, one_smul]
    unfold encD rigidG
    rw [h1, h3, h4, h5, rotF_unit hs, rotF_unit hs, rotF_unit hs, sandwich_im, sandwich_im, sandwich_im]
    rfl
  exact ⟨g, fun t s hs => (hg t s hs).1, M, S⟩

/-- **C94.** The flights of a rigid body under smooth forces, moments and inertia run without error and approach the motion that Newton's and
Euler's laws describe: like `h` for Euler's method, like `h²` for Heun's method and the 3/8 rule. -/
theorem rigid_body_converges (mp : String × ℕ) (hm : mp ∈ [("Euler", 1), ("RK2Heun", 2), ("RK4_3/8", 2)])
    (hne : ∀ t s, (inertia t s).mass ≠ 0 ∧ (inertia t s).moi.x ≠ 0 ∧ (inertia t s).moi.y ≠ 0 ∧ (inertia t s).moi.z ≠ 0)
    (R : RigidMotion force moment inertia y a e) (H : SmoothBody force moment inertia U) (mem : ∀ t ∈ Icc a e, (t, enc (y t)) ∈ U) (hae : a < e) :
    ∃ C h₀ : ℝ, 0 ≤ C ∧ 0 < h₀ ∧ ∀ h ∈ Ioc 0 h₀, ∀ hs : List ℝ, (∀ k ∈ hs, 0 < k ∧ k ≤ h) → a + hs.sum ≤ e →
      ∃ s', flySteps mp.1 (bodyRhs force moment inertia) a (y a) hs = .ok s' ∧ Quat.Unit s'.ori ∧
        ∀ r, r = C * h ^ mp.2 →
          (s'.pos - (y (a + hs.sum)).pos).length ≤ r ∧ (s'.vel - (y (a + hs.sum)).vel).length ≤ r ∧
          (s'.angVel - (y (a + hs.sum)).angVel).length ≤ r ∧ ‖Quat.toH s'.ori - Quat.toH (y (a + hs.sum)).ori‖ ≤ r := by
  obtain ⟨g, hg, M, S⟩ := rigid_setup hne R H mem
  obtain ⟨C, h₀, hC, hh₀, key⟩ := body_converges_smooth mp hm (bodyRhs force moment inertia) hg M S hae
  refine ⟨C, h₀, hC, hh₀, fun h hh hs hsteps hend => ?_⟩
  obtain ⟨s', k1, k2, k3⟩ := key h hh hs hsteps hend
  refine ⟨s', k1, k2, ?_⟩
  rintro r rfl
  exact (apart_le_iff _ _ _).1 k3

/-- **C94.** The same for the methods with zeros in their tableaus. What is missing: see `body_converges_partial`. -/
theorem rigid_body_converges_partial
    (hne : ∀ t s, (inertia t s).mass ≠ 0 ∧ (inertia t s).moi.x ≠ 0 ∧ (inertia t s).moi.y ≠ 0 ∧ (inertia t s).moi.z ≠ 0)
    (R : RigidMotion force moment inertia y a e) (H : SmoothBody force moment inertia U) (mem : ∀ t ∈ Icc a e, (t, enc (y t)) ∈ U) (hae : a < e) :
    ∃ C h₀ ε₀ : ℝ, 0 ≤ C ∧ 0 < h₀ ∧ 0 < ε₀ ∧ ∀ ε ∈ Ioc 0 ε₀, ∀ h ∈ Ioc 0 h₀, ∀ hs : List ℝ, (∀ k ∈ hs, 0 < k ∧ k ≤ h) → a + hs.sum ≤ e →
      (∃ s', flyTableau (rk4 ε) (bodyRhs force moment inertia) a (y a) hs = .ok s' ∧ Quat.Unit s'.ori ∧ apart s' (y (a + hs.sum)) ≤ C * (h ^ 2 + ε * h)) ∧
      (∃ s', flyTableau (midpoint ε) (bodyRhs force moment inertia) a (y a) hs = .ok s' ∧ Quat.Unit s'.ori ∧ apart s' (y (a + hs.sum)) ≤ C * (h ^ 2 + ε)) := by
  obtain ⟨g, hg, M, S⟩ := rigid_setup hne R H mem
  exact body_converges_smooth_partial _ hg M S hae

/-! ## A case -/

theorem z_turn (θ c : ℝ) : (⟨Real.cos θ, 0, 0, Real.sin θ⟩ : Quat ℝ).rotF ⟨0, 0, c⟩ = ⟨0, 0, c⟩ := by
  have h : Real.cos θ * Real.cos θ + Real.sin θ * Real.sin θ = 1 := by nlinarith [Real.sin_sq_add_cos_sq θ]
  rw [rotF_unit (by simpa [Quat.Unit, Quat.nsq] using h)]
  apply V3.ext' <;> simp [Quat.sandwich, Quat.mul, Quat.conj]
  linear_combination c * h

/-- A rocket that spins up about its axis under a constant moment while it climbs under a constant thrust along the axis. -/
theorem spinning_up : RigidMotion (fun _ _ => ⟨0, 0, 6⟩) (fun _ _ => ⟨0, 0, 4⟩) (fun _ _ => ⟨3, ⟨5, 5, 2⟩, ⟨0, 0, 1⟩⟩)
    (fun t => ⟨⟨0, 0, t ^ 2⟩, ⟨0, 0, 2 * t⟩, ⟨Real.cos (t ^ 2 / 2), 0, 0, Real.sin (t ^ 2 / 2)⟩, ⟨0, 0, 2 * t⟩⟩) 0 1 ∧
    SmoothBody (fun _ _ => ⟨0, 0, 6⟩) (fun _ _ => ⟨0, 0, 4⟩) (fun _ _ => ⟨3, ⟨5, 5, 2⟩, ⟨0, 0, 1⟩⟩) univ := by
  have lin : ∀ {f : ℝ → ℝ} {f' t : ℝ}, HasDerivAt f f' t → HasDerivWithinAt (fun t => (⟨0, 0, f t⟩ : V3 ℝ)) ⟨0, 0, f'⟩ (Icc 0 1) t := by
    intro f f' t h
    have h1 := h.smul_const (⟨0, 0, 1⟩ : V3 ℝ)
    have e : ∀ k : ℝ, k • (⟨0, 0, 1⟩ : V3 ℝ) = ⟨0, 0, k⟩ := fun k => by apply V3.ext' <;> simp
    simp only [e] at h1
    exact h1.hasDerivWithinAt
  have d1 : ∀ t : ℝ, HasDerivAt (fun t : ℝ => 2 * t) 2 t := fun t => by simpa using (hasDerivAt_id t).const_mul 2
  have d2 : ∀ t : ℝ, HasDerivAt (fun t : ℝ => t ^ 2) (2 * t) t := fun t => by simpa using hasDerivAt_pow 2 t
  refine ⟨⟨fun t _ => ?_, fun t _ => ?_, fun t _ => ⟨⟨0, 0, 2⟩, lin (d1 t), ?_⟩, fun t ht => ?_, fun t _ => ⟨⟨0, 0, 2⟩, lin (d1 t), ?_⟩⟩,
    isOpen_univ, contDiffOn_const, contDiffOn_const, contDiffOn_const, contDiffOn_const, contDiffOn_const, contDiffOn_const⟩
  · have := Real.sin_sq_add_cos_sq (t ^ 2 / 2)
    simp only [Quat.Unit, Quat.nsq]
    nlinarith
  · have h := lin (d2 t)
    convert h using 1
    rw [show (1e8 : ℝ) • ((⟨0, 0, 1⟩ : V3 ℝ) - ⟨0, 0, 1⟩) = ⟨0, 0, 0⟩ by apply V3.ext' <;> simp, z_turn]
    apply V3.ext' <;> simp
  · rw [z_turn]; apply V3.ext' <;> norm_num
  · have h3 : HasDerivAt (fun t : ℝ => t ^ 2 / 2) t t := by simpa using (d2 t).div_const 2
    have h4 := (h3.cos.smul_const (Quat.toH ⟨1, 0, 0, 0⟩)).add (h3.sin.smul_const (Quat.pureH ⟨0, 0, 1⟩))
    refine (h4.congr_deriv ?_).hasDerivWithinAt.congr_of_mem (fun s _ => ?_) ?_
    · ext <;> simp <;> ring
    · ext <;> simp
    · assumption
  · apply V3.ext' <;> simp [tensor, V3.cross] <;> norm_num

end rigid

end Mapleaf.Motion.Turn
