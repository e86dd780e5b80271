import Verif.Motion.TurnBodyProps

/-! # C94: true motions of rigid bodies, and flights of the code near them -/

namespace Mapleaf.Motion.Turn
open Set Mapleaf.Motion.Lim Mapleaf.Motion.RK Mapleaf.Motion.Body Mapleaf
open NormedSpace (exp)

attribute [local instance] vNorm vSpace

/-- `y` is the motion of a body on `[a, e]` under the right-hand side `g`: position, velocity and angular velocity have the rates that `g`
gives, and the orientation turns with the angular velocity in the global frame, `q' = ½ w q`. -/
structure TrueMotion (g : ℝ → RBState → RBDeriv) (y : ℝ → RBState) (a e : ℝ) : Prop where
  unit : ∀ t ∈ Icc a e, Quat.Unit (y t).ori
  pos : ∀ t ∈ Icc a e, HasDerivWithinAt (fun t => (y t).pos) (g t (y t)).vel (Icc a e) t
  vel : ∀ t ∈ Icc a e, HasDerivWithinAt (fun t => (y t).vel) (g t (y t)).acc (Icc a e) t
  ori : ∀ t ∈ Icc a e, HasDerivWithinAt (fun t => Quat.toH (y t).ori) ((1 / 2 : ℝ) • (Quat.pureH (g t (y t)).angVel * Quat.toH (y t).ori)) (Icc a e) t
  ang : ∀ t ∈ Icc a e, HasDerivWithinAt (fun t => (y t).angVel) (g t (y t)).angAcc (Icc a e) t

/-- how far two states are apart: the largest of the distances of positions, velocities, angular velocities and orientations -/
noncomputable def apart (s s' : RBState) : ℝ := ‖enc s - enc s'‖

/-- the same for derivatives -/
noncomputable def apartD (d d' : RBDeriv) : ℝ := ‖encD d - encD d'‖

theorem apart_le_iff (s s' : RBState) (r : ℝ) : apart s s' ≤ r ↔ (s.pos - s'.pos).length ≤ r ∧ (s.vel - s'.vel).length ≤ r ∧
    (s.angVel - s'.angVel).length ≤ r ∧ ‖Quat.toH s.ori - Quat.toH s'.ori‖ ≤ r := by
  have : ‖enc s - enc s'‖ = max (max (s.pos - s'.pos).length (max (s.vel - s'.vel).length (s.angVel - s'.angVel).length)) ‖Quat.toH s.ori - Quat.toH s'.ori‖ := rfl
  unfold apart
  rw [this, max_le_iff, max_le_iff, max_le_iff]
  tauto

theorem apartD_le_iff (d d' : RBDeriv) (r : ℝ) : apartD d d' ≤ r ↔ (d.vel - d'.vel).length ≤ r ∧ (d.acc - d'.acc).length ≤ r ∧
    (d.angAcc - d'.angAcc).length ≤ r ∧ (d.angVel - d'.angVel).length ≤ r := by
  have : ‖encD d - encD d'‖ = max (max (d.vel - d'.vel).length (max (d.acc - d'.acc).length (d.angAcc - d'.angAcc).length)) (d.angVel - d'.angVel).length := rfl
  unfold apartD
  rw [this, max_le_iff, max_le_iff, max_le_iff]
  tauto

/-- a right-hand side that is Lipschitz in the state near the motion -/
def LipNear (g : ℝ → RBState → RBDeriv) (y : ℝ → RBState) (a e L ρ : ℝ) : Prop :=
  ∀ t ∈ Icc a e, ∀ s s' : RBState, Quat.Unit s.ori → Quat.Unit s'.ori → apart s (y t) ≤ ρ → apart s' (y t) ≤ ρ → apartD (g t s) (g t s') ≤ L * apart s s'

section course
variable {g : ℝ → RBState → RBDeriv} {y : ℝ → RBState} {a e L ρ Γ : ℝ}

theorem TrueMotion.vec (M : TrueMotion g y a e) : ∀ t ∈ Icc a e, HasDerivWithinAt (fun t => (enc (y t)).1) (encD (g t (y t))).1 (Icc a e) t := fun t ht =>
  (M.pos t ht).prodMk ((M.vel t ht).prodMk (M.ang t ht))

theorem TrueMotion.quat (M : TrueMotion g y a e) : ∀ t ∈ Icc a e,
    HasDerivWithinAt (fun t => (enc (y t)).2) (half (encD (g t (y t))).2 * (enc (y t)).2) (Icc a e) t := fun t ht => by
  have := M.ori t ht
  rw [← smul_mul_assoc] at this
  exact this

theorem TrueMotion.norm (M : TrueMotion g y a e) : ∀ t ∈ Icc a e, ‖(enc (y t)).2‖ = 1 := fun t ht => (unitO_enc (y t)).2 (M.unit t ht)

theorem Course.weaken {E D : Type} [NormedAddCommGroup E] [NormedAddCommGroup D] [NormedSpace ℝ D] {adv : E → D → E} {P : E → Prop} {g : ℝ → E → D}
    {y : ℝ → E} {a e L ρ B Γ ρ' Γ' : ℝ} (C : Course adv P g y a e L ρ B Γ) (h0 : 0 < ρ') (hρ : ρ' ≤ ρ) (hΓ : Γ ≤ Γ') :
    Course adv P g y a e L ρ' B Γ' where
  good := C.good
  lip := fun t ht x z hx hz h1 h2 => C.lip t ht x z hx hz (h1.trans hρ) (h2.trans hρ)
  bound := C.bound
  path := C.path
  along := fun s hs t ht => (C.along s hs t ht).trans (mul_le_mul_of_nonneg_right hΓ (abs_nonneg _))
  tangent := fun t ht h hh0 hh hte => (C.tangent t ht h hh0 (hh.trans hρ) hte).trans (mul_le_mul_of_nonneg_right hΓ (by positivity))
  hL := C.hL
  hρ := h0
  hB := C.hB
  hΓ := C.hΓ.trans hΓ

theorem max_snd_le {X Y : Type} [NormedAddCommGroup X] [NormedAddCommGroup Y] (p : X × Y) {r s : ℝ} (hr : 0 ≤ r) (hs : 0 ≤ s) (h1 : ‖p.1‖ ≤ r)
    (h2 : ‖p.2‖ ≤ s) : ‖p‖ ≤ r + s := by
  rw [Prod.norm_def]
  exact max_le (by linarith) (by linarith)

/-- The motion of a body with a Lipschitz right-hand side. -/
theorem course_of (M : TrueMotion g y a e) (hL : 0 ≤ L) (hρ : 0 < ρ) (hΓ : 0 ≤ Γ) (lip : LipNear g y a e L ρ)
    (along : ∀ s ∈ Icc a e, ∀ t ∈ Icc a e, apartD (g s (y s)) (g t (y t)) ≤ Γ * |s - t|) :
    ∃ ρ' B Γ', Course advE UnitO (lift g) (fun t => enc (y t)) a e L ρ' B Γ' ∧ ∀ t ∈ Icc a e, ‖encD (g t (y t))‖ ≤ B := by
  set B := ‖encD (g a (y a))‖ + Γ * |e - a| with hBdef
  have hB : 0 ≤ B := by positivity
  have bound : ∀ t ∈ Icc a e, ‖encD (g t (y t))‖ ≤ B := by
    intro t ht
    have h1 := along t ht a ⟨le_rfl, ht.1.trans ht.2⟩
    have h2 : |t - a| ≤ |e - a| := abs_le_abs_of_nonneg (by linarith [ht.1]) (by linarith [ht.2])
    have h3 : ‖encD (g t (y t))‖ ≤ ‖encD (g a (y a))‖ + apartD (g t (y t)) (g a (y a)) := norm_le_norm_add_norm_sub' _ _
    have h4 := mul_le_mul_of_nonneg_left h2 hΓ
    rw [hBdef]
    linarith
  have bω : ∀ t ∈ Icc a e, ‖half (encD (g t (y t))).2‖ ≤ B := by
    intro t ht
    rw [norm_half]
    have := (norm_snd_le (encD (g t (y t)))).trans (bound t ht)
    linarith [norm_nonneg (encD (g t (y t))).2]
  have lω : ∀ s ∈ Icc a e, ∀ t ∈ Icc a e, ‖half (encD (g s (y s))).2 - half (encD (g t (y t))).2‖ ≤ Γ * |s - t| := by
    intro s hs t ht
    rw [← half_sub, norm_half]
    have h1 : ‖(encD (g s (y s)) - encD (g t (y t))).2‖ ≤ Γ * |s - t| := (norm_snd_le _).trans (along s hs t ht)
    have h2 : ‖(encD (g s (y s))).2 - (encD (g t (y t))).2‖ ≤ Γ * |s - t| := h1
    linarith [norm_nonneg ((encD (g s (y s))).2 - (encD (g t (y t))).2)]
  obtain ⟨C, η, hC, hη, key⟩ := turn_tangent M.quat (fun t ht => (M.norm t ht).le) hB bω hΓ lω
  refine ⟨min ρ η, B, Γ + C, ⟨fun t ht => M.norm t ht, ?_, fun t ht => bound t ht, ?_, ?_, ?_, hL, lt_min hρ hη, hB, by positivity⟩, bound⟩
  · intro t ht x z hx hz h1 h2
    exact lip t ht (dec x) (dec z) ((unitO_enc _).1 hx) ((unitO_enc _).1 hz) (h1.trans (min_le_left _ _)) (h2.trans (min_le_left _ _))
  · intro s hs t ht
    rw [Prod.norm_def]
    apply max_le
    · exact lip_of_bound M.vec (fun t ht => (norm_fst_le _).trans (bound t ht)) s hs t ht
    · exact turn_lip M.quat (fun t ht => (M.norm t ht).le) hB bω s hs t ht
  · intro s hs t ht
    refine (along s hs t ht).trans (mul_le_mul_of_nonneg_right (by linarith) (abs_nonneg _))
  · intro t ht h h0 hh hte
    have e1 := taylor_first M.vec hΓ (fun s hs t ht => (norm_fst_le (encD (g s (y s)) - encD (g t (y t)))).trans (along s hs t ht)) ht h0 hte
    have e2 := key t ht h h0 (hh.trans (min_le_right _ _)) hte
    rw [← half_smul] at e2
    rw [add_mul]
    refine max_snd_le _ (by positivity) (by positivity) ?_ e2
    rw [sub_sub] at e1
    exact e1

theorem adv_near {x x' : St} {u : Ch} {r s : ℝ} (hr : 0 ≤ r) (hs : 0 ≤ s) (h1 : ‖x'.1 - x.1 - u.1‖ ≤ r) (h2 : ‖x'.2 - exp (half u.2) * x.2‖ ≤ s) :
    ‖x' - advE x u‖ ≤ r + s := by
  rw [sub_sub] at h1
  exact max_snd_le _ hr hs h1 h2

theorem pair_fst (A B : Ch) (h k : ℝ) : (h • A + k • B).1 = h • A.1 + k • B.1 := rfl

theorem pair_half (A B : Ch) (h k : ℝ) : half (h • A + k • B).2 = h • half A.2 + k • half B.2 := by
  rw [← half_smul, ← half_smul, ← half_add]; rfl

theorem snd_deriv {X Y : Type} [NormedAddCommGroup X] [NormedSpace ℝ X] [NormedAddCommGroup Y] [NormedSpace ℝ Y] {φ : ℝ → X × Y} {φ' : X × Y} {S : Set ℝ}
    {t : ℝ} (h : HasDerivWithinAt φ φ' S t) : HasDerivWithinAt (fun t => (φ t).2) φ'.2 S t :=
  (ContinuousLinearMap.snd ℝ X Y).hasFDerivAt.comp_hasDerivWithinAt t h

theorem fst_deriv {X Y : Type} [NormedAddCommGroup X] [NormedSpace ℝ X] [NormedAddCommGroup Y] [NormedSpace ℝ Y] {φ : ℝ → X × Y} {φ' : X × Y} {S : Set ℝ}
    {t : ℝ} (h : HasDerivWithinAt φ φ' S t) : HasDerivWithinAt (fun t => (φ t).1) φ'.1 S t :=
  (ContinuousLinearMap.fst ℝ X Y).hasFDerivAt.comp_hasDerivWithinAt t h

theorem half_deriv {φ : ℝ → V3 ℝ} {φ' : V3 ℝ} {S : Set ℝ} {t : ℝ} (h : HasDerivWithinAt φ φ' S t) :
    HasDerivWithinAt (fun t => half (φ t)) (half φ') S t :=
  halfL.hasFDerivAt.comp_hasDerivWithinAt t h

/-- The vector part of the motion, to second order. -/
theorem vec_second (M : TrueMotion g y a e) (hΓ : 0 ≤ Γ) (γ' : ℝ → Ch)
    (hγ : ∀ t ∈ Icc a e, HasDerivWithinAt (fun t => encD (g t (y t))) (γ' t) (Icc a e) t)
    (hl : ∀ s ∈ Icc a e, ∀ t ∈ Icc a e, ‖γ' s - γ' t‖ ≤ Γ * |s - t|) {t h : ℝ} (ht : t ∈ Icc a e) (h0 : 0 ≤ h) (hte : t + h ≤ e) :
    ‖(enc (y (t + h))).1 - (enc (y t)).1 - (h • (encD (g t (y t))).1 + (h ^ 2 / 2) • (γ' t).1)‖ ≤ Γ * h ^ 3 := by
  have hfst : ∀ t ∈ Icc a e, HasDerivWithinAt (fun t => (encD (g t (y t))).1) (γ' t).1 (Icc a e) t := fun t ht => fst_deriv (hγ t ht)
  have hl1 : ∀ s ∈ Icc a e, ∀ t ∈ Icc a e, ‖(γ' s).1 - (γ' t).1‖ ≤ Γ * |s - t| := fun s hs t ht => (norm_fst_le (γ' s - γ' t)).trans (hl s hs t ht)
  exact taylor_second (ψ := fun t => (γ' t).1) M.vec hΓ ht h0 hte (fun s hs0 hs1 => taylor_first hfst hΓ hl1 ht hs0 (by linarith))

/-- The motion of a body whose derivative has a Lipschitz derivative in time. -/
theorem course2_of (M : TrueMotion g y a e) (hL : 0 ≤ L) (hρ : 0 < ρ) (hΓ : 0 ≤ Γ) (lip : LipNear g y a e L ρ) (γ' : ℝ → Ch)
    (hγ : ∀ t ∈ Icc a e, HasDerivWithinAt (fun t => encD (g t (y t))) (γ' t) (Icc a e) t) (hb : ∀ t ∈ Icc a e, ‖γ' t‖ ≤ Γ)
    (hl : ∀ s ∈ Icc a e, ∀ t ∈ Icc a e, ‖γ' s - γ' t‖ ≤ Γ * |s - t|) :
    ∃ ρ' B Γ', Course advE UnitO (lift g) (fun t => enc (y t)) a e L ρ' B Γ' ∧ Course2 advE (lift g) (fun t => enc (y t)) γ' a e ρ' Γ' := by
  have along := lip_of_bound hγ hb
  obtain ⟨ρ₁, B, Γ₁, C1, bound⟩ := course_of M hL hρ hΓ lip along
  have hB := C1.hB
  have hΓ1 := C1.hΓ
  have bω : ∀ t ∈ Icc a e, ‖half (encD (g t (y t))).2‖ ≤ B := by
    intro t ht
    rw [norm_half]
    have := (norm_snd_le (encD (g t (y t)))).trans (bound t ht)
    linarith [norm_nonneg (encD (g t (y t))).2]
  have dω : ∀ t ∈ Icc a e, HasDerivWithinAt (fun t => half (encD (g t (y t))).2) (half (γ' t).2) (Icc a e) t := by
    intro t ht
    exact half_deriv (snd_deriv (hγ t ht))
  have bω' : ∀ t ∈ Icc a e, ‖half (γ' t).2‖ ≤ Γ := by
    intro t ht
    rw [norm_half]
    have := (norm_snd_le (γ' t)).trans (hb t ht)
    linarith [norm_nonneg (γ' t).2]
  have lω' : ∀ s ∈ Icc a e, ∀ t ∈ Icc a e, ‖half (γ' s).2 - half (γ' t).2‖ ≤ Γ * |s - t| := by
    intro s hs t ht
    rw [← half_sub, norm_half]
    have h1 : ‖(γ' s).2 - (γ' t).2‖ ≤ Γ * |s - t| := (norm_snd_le (γ' s - γ' t)).trans (hl s hs t ht)
    linarith [norm_nonneg ((γ' s).2 - (γ' t).2)]
  obtain ⟨C, η, hC, hη, key⟩ := turn_tangent2 M.quat (fun t ht => (M.norm t ht).le) hB bω hΓ dω bω' lω'
  refine ⟨min ρ₁ η, B, Γ₁ + (Γ + C), C1.weaken (lt_min C1.hρ hη) (min_le_left _ _) (by linarith), ?_, ?_, ?_⟩
  · intro t ht h h0 hh hte
    refine (taylor_first hγ hΓ hl ht h0 hte).trans (mul_le_mul_of_nonneg_right (by linarith) (by positivity))
  · intro t ht
    exact (hb t ht).trans (by linarith)
  · intro t ht h h0 hh hte
    have e1 := vec_second M hΓ γ' hγ hl ht h0 hte
    have e2 := key t ht h h0 (hh.trans (min_le_right _ _)) hte
    have e3 := adv_near (u := h • encD (g t (y t)) + (h ^ 2 / 2) • γ' t) (r := Γ * h ^ 3) (s := C * h ^ 3) (by positivity) (by positivity) (by rw [pair_fst]; exact e1) (by rw [pair_half]; exact e2)
    have p : 0 ≤ Γ₁ * h ^ 3 := by positivity
    refine e3.trans ?_
    linarith

/-! ## Flights -/

/-- RigidBodies.py:49-62 `timeStep` (inherited by the 6-DoF body), repeated: steps of the given sizes -/
noncomputable def flySteps (m : String) (f : ℝ → RBState → Except PyErr RBDeriv) : ℝ → RBState → List ℝ → Except PyErr RBState
  | _, y, [] => .ok y
  | t, y, h :: hs =>
    match Body.classicalStep bodyArith m f t y h with
    | .error e => .error e
    | .ok r => flySteps m f (t + h) r.newValue hs

theorem fly_march (m : String) (q : Coef) (f : ℝ → RBState → Except PyErr RBDeriv)
    (hstep : ∀ t (y : RBState), Quat.Unit y.ori → ∀ dt, dt ≠ 0 → ∃ r, Body.classicalStep bodyArith m f t y dt = .ok r ∧ Quat.Unit r.newValue.ori ∧
        enc r.newValue = stepG q advE (lift g) t (enc y) dt)
    (hs : List ℝ) (hh : ∀ h ∈ hs, h ≠ 0) (t : ℝ) (s : RBState) (hu : Quat.Unit s.ori) :
    ∃ s', flySteps m f t s hs = .ok s' ∧ Quat.Unit s'.ori ∧ enc s' = march (stepG q advE (lift g)) t (enc s) hs := by
  induction hs generalizing t s with
  | nil => exact ⟨s, rfl, hu, rfl⟩
  | cons h hs ih =>
    obtain ⟨r, h1, h2, h3⟩ := hstep t s hu h (hh h (by simp))
    obtain ⟨s', k1, k2, k3⟩ := ih (fun z hz => hh z (by simp [hz])) (t + h) r.newValue h2
    refine ⟨s', ?_, k2, ?_⟩
    · rw [flySteps, h1]; exact k1
    · rw [k3, march, h3]

/-- **C94.** Whatever the fixed-step method, if the right-hand side is defined on unit orientations, Lipschitz in the state near the motion and in
time along it, then every flight from the start of the motion, with any sequence of steps of at most `h ≤ h₀`, runs without error and ends within
`C h` of the motion. -/
theorem body_converges_rough (m : String) (hm : m ∈ ["Euler", "RK2Heun", "RK4", "RK4_3/8"]) (f : ℝ → RBState → Except PyErr RBDeriv)
    (hf : ∀ t s, Quat.Unit s.ori → f t s = .ok (g t s)) (M : TrueMotion g y a e) (hL : 0 ≤ L) (hρ : 0 < ρ) (hΓ : 0 ≤ Γ) (lip : LipNear g y a e L ρ)
    (along : ∀ s ∈ Icc a e, ∀ t ∈ Icc a e, apartD (g s (y s)) (g t (y t)) ≤ Γ * |s - t|) (hae : a ≤ e) :
    ∃ C h₀ : ℝ, 0 ≤ C ∧ 0 < h₀ ∧ ∀ h ∈ Ioc 0 h₀, ∀ hs : List ℝ, (∀ k ∈ hs, 0 < k ∧ k ≤ h) → a + hs.sum ≤ e →
      ∃ s', flySteps m f a (y a) hs = .ok s' ∧ Quat.Unit s'.ori ∧ apart s' (y (a + hs.sum)) ≤ C * h := by
  obtain ⟨ρ', B, Γ', C1, _⟩ := course_of M hL hρ hΓ lip along
  obtain ⟨η, S⟩ := body_chart
  obtain ⟨q, hq, _, hsum, _, _, hstep⟩ := body_methods m hm
  obtain ⟨X, h₀, ε₀, hX, hh₀, hε₀, key⟩ := turn_first_order S C1 q.s zero_le_one
  refine ⟨X, h₀, hX, hh₀, fun h hh hs hsteps hend => ?_⟩
  obtain ⟨s', k1, k2, k3⟩ := fly_march (g := g) m q f (hstep f g hf) hs (fun k hk => (hsteps k hk).1.ne') a (y a) (M.unit a ⟨le_rfl, hae⟩)
  refine ⟨s', k1, k2, ?_⟩
  unfold apart
  rw [k3]
  have := key 0 ⟨le_rfl, hε₀.le⟩ q rfl hq (by rw [hsum]; simp) h hh hs hsteps hend
  rwa [add_zero] at this

/-- **C94.** If moreover the derivative has a Lipschitz derivative in time along the motion, the flights with Heun's method and the 3/8 rule end
within `C h²` of the motion. -/
theorem body_converges (m : String) (hm : m ∈ ["RK2Heun", "RK4_3/8"]) (f : ℝ → RBState → Except PyErr RBDeriv)
    (hf : ∀ t s, Quat.Unit s.ori → f t s = .ok (g t s)) (M : TrueMotion g y a e) (hL : 0 ≤ L) (hρ : 0 < ρ) (hΓ : 0 ≤ Γ) (lip : LipNear g y a e L ρ)
    (γ' : ℝ → Ch) (hγ : ∀ t ∈ Icc a e, HasDerivWithinAt (fun t => encD (g t (y t))) (γ' t) (Icc a e) t) (hb : ∀ t ∈ Icc a e, ‖γ' t‖ ≤ Γ)
    (hl : ∀ s ∈ Icc a e, ∀ t ∈ Icc a e, ‖γ' s - γ' t‖ ≤ Γ * |s - t|) (hae : a ≤ e) :
    ∃ C h₀ : ℝ, 0 ≤ C ∧ 0 < h₀ ∧ ∀ h ∈ Ioc 0 h₀, ∀ hs : List ℝ, (∀ k ∈ hs, 0 < k ∧ k ≤ h) → a + hs.sum ≤ e →
      ∃ s', flySteps m f a (y a) hs = .ok s' ∧ Quat.Unit s'.ori ∧ apart s' (y (a + hs.sum)) ≤ C * h ^ 2 := by
  obtain ⟨ρ', B, Γ', C1, C2⟩ := course2_of M hL hρ hΓ lip γ' hγ hb hl
  obtain ⟨η, S⟩ := body_chart
  have hm' : m ∈ ["Euler", "RK2Heun", "RK4", "RK4_3/8"] := by simp at hm ⊢; tauto
  have hne : m ≠ "Euler" := by rintro rfl; simp at hm
  have hne4 : m ≠ "RK4" := by rintro rfl; simp at hm
  obtain ⟨q, hq, hrow, hsum, hmom, hs4, hstep⟩ := body_methods m hm'
  simp only [if_neg hne4] at hrow
  obtain ⟨X, h₀, ε₀, hX, hh₀, hε₀, key⟩ := turn_second_order S C1 C2 q.s zero_le_one
  refine ⟨X, h₀, hX, hh₀, fun h hh hs hsteps hend => ?_⟩
  obtain ⟨s', k1, k2, k3⟩ := fly_march (g := g) m q f (hstep f g hf) hs (fun k hk => (hsteps k hk).1.ne') a (y a) (M.unit a ⟨le_rfl, hae⟩)
  refine ⟨s', k1, k2, ?_⟩
  unfold apart
  rw [k3]
  have := key 0 ⟨le_rfl, zero_le_one⟩ 0 ⟨le_rfl, hε₀.le⟩ q rfl hq hrow (by rw [hsum]; simp) (hmom hne) h hh hs hsteps hend
  rwa [mul_zero, add_zero, add_zero] at this

/-! ## The tableaus with zeros -/

/-- repeated steps with a tableau -/
noncomputable def flyTableau (tab : Tableau ℝ) (f : ℝ → RBState → Except PyErr RBDeriv) : ℝ → RBState → List ℝ → Except PyErr RBState
  | _, y, [] => .ok y
  | t, y, h :: hs =>
    match Body.rkStep bodyArith tab f t y h with
    | .error e => .error e
    | .ok r => flyTableau tab f (t + h) r.newValue hs

theorem fly_tableau (tab rows : Tableau ℝ) (b : List ℝ) (hsplit : tab = rows ++ [b]) (hshape : Shape 1 tab) (f : ℝ → RBState → Except PyErr RBDeriv)
    (hf : ∀ t s, Quat.Unit s.ori → f t s = .ok (g t s)) (hs : List ℝ) (hh : ∀ h ∈ hs, h ≠ 0) (t : ℝ) (s : RBState) (hu : Quat.Unit s.ori) :
    ∃ s', flyTableau tab f t s hs = .ok s' ∧ Quat.Unit s'.ori ∧ enc s' = march (stepG (coefOf rows b) advE (lift g)) t (enc s) hs := by
  induction hs generalizing t s with
  | nil => exact ⟨s, rfl, hu, rfl⟩
  | cons h hs ih =>
    obtain ⟨r, h1, h2, h3⟩ := real_step tab rows b hsplit hshape f g hf t s hu h (hh h (by simp))
    obtain ⟨s', k1, k2, k3⟩ := ih (fun z hz => hh z (by simp [hz])) (t + h) r.newValue h2
    refine ⟨s', ?_, k2, ?_⟩
    · rw [flyTableau, h1]; exact k1
    · rw [k3, march, h3]

/-- **C94.** The code flies "RK4" with its zeros replaced by `1e-16`, and the midpoint rule likewise. -/
theorem tableau_code (f : ℝ → RBState → Except PyErr RBDeriv) (t : ℝ) (s : RBState) (hs : List ℝ) :
    flySteps "RK4" f t s hs = flyTableau (rk4 (1 / 10 ^ 16)) f t s hs ∧
    flySteps "RK2Midpoint" f t s hs = flyTableau (midpoint (1 / 10 ^ 16)) f t s hs := by
  have one : ∀ (m : String) (tab : Tableau ℚ) (tab' : Tableau ℝ), classicalTableau m = .ok (some tab) → rowsConsistent 0 tab = true →
      (castT (patch tab) : Tableau ℝ) = tab' → ∀ t s hs, flySteps m f t s hs = flyTableau tab' f t s hs := by
    intro m tab tab' hm hc ht t s hs
    induction hs generalizing t s with
    | nil => rfl
    | cons h hs ih =>
      have : Body.classicalStep bodyArith m f t s h = Body.rkStep bodyArith tab' f t s h := by
        unfold Body.classicalStep
        rw [hm]
        dsimp only
        rw [← castT_def, checkTableau_cast tab hc, ← ht]
      rw [flySteps, flyTableau, this]
      cases Body.rkStep bodyArith tab' f t s h with
      | error e => rfl
      | ok r => exact ih _ _
  refine ⟨one "RK4" tabRK4 _ (by simp [classicalTableau]) (by decide +kernel) ?_ t s hs,
    one "RK2Midpoint" tabRK2Midpoint _ (by simp [classicalTableau]) (by decide +kernel) ?_ t s hs⟩
  · norm_num [castT, castL, patch, tabRK4, rk4]
  · norm_num [castT, castL, patch, tabRK2Midpoint, Lim.midpoint]

/-- **C94, the methods with zeros in their tableaus.** What is missing: the code replaces the zeros by `1e-16` (`tableau_code`). With `ε` in their
place, flights of the classical fourth-order method end within `C (h² + ε h)` of the motion, and flights of the midpoint rule within `C (h² + ε)`,
where `C` does not depend on `ε`. -/
theorem body_converges_partial (f : ℝ → RBState → Except PyErr RBDeriv)
    (hf : ∀ t s, Quat.Unit s.ori → f t s = .ok (g t s)) (M : TrueMotion g y a e) (hL : 0 ≤ L) (hρ : 0 < ρ) (hΓ : 0 ≤ Γ) (lip : LipNear g y a e L ρ)
    (γ' : ℝ → Ch) (hγ : ∀ t ∈ Icc a e, HasDerivWithinAt (fun t => encD (g t (y t))) (γ' t) (Icc a e) t) (hb : ∀ t ∈ Icc a e, ‖γ' t‖ ≤ Γ)
    (hl : ∀ s ∈ Icc a e, ∀ t ∈ Icc a e, ‖γ' s - γ' t‖ ≤ Γ * |s - t|) (hae : a ≤ e) :
    ∃ C h₀ ε₀ : ℝ, 0 ≤ C ∧ 0 < h₀ ∧ 0 < ε₀ ∧ ∀ ε ∈ Ioc 0 ε₀, ∀ h ∈ Ioc 0 h₀, ∀ hs : List ℝ, (∀ k ∈ hs, 0 < k ∧ k ≤ h) → a + hs.sum ≤ e →
      (∃ s', flyTableau (rk4 ε) f a (y a) hs = .ok s' ∧ Quat.Unit s'.ori ∧ apart s' (y (a + hs.sum)) ≤ C * (h ^ 2 + ε * h)) ∧
      (∃ s', flyTableau (midpoint ε) f a (y a) hs = .ok s' ∧ Quat.Unit s'.ori ∧ apart s' (y (a + hs.sum)) ≤ C * (h ^ 2 + ε)) := by
  obtain ⟨ρ', B, Γ', C1, C2⟩ := course2_of M hL hρ hΓ lip γ' hγ hb hl
  obtain ⟨η, S⟩ := body_chart
  obtain ⟨X, h₁, ε₁, hX, hh₁, hε₁, key⟩ := turn_second_order S C1 C2 4 zero_le_one
  obtain ⟨X', h₂, ε₂, hX', hh₂, hε₂, key'⟩ := turn_second_order S C1 C2 2 zero_le_one
  refine ⟨2 * X + X', min h₁ h₂, min (1 / 2) ε₂, by positivity, lt_min hh₁ hh₂, lt_min (by norm_num) hε₂, fun ε hε h hh hs hsteps hend => ?_⟩
  have h0 := hh.1
  have e0 := hε.1
  have he2 : ε ≤ 1 / 2 := hε.2.trans (min_le_left _ _)
  have he1 : ε ∈ Ioc (0 : ℝ) 1 := ⟨e0, by linarith⟩
  have hu := M.unit a ⟨le_rfl, hae⟩
  constructor
  · obtain ⟨s', k1, k2, k3⟩ := fly_tableau (rk4 ε) [[1 / 2, 1 / 2], [1 / 2, ε, 1 / 2], [1, ε, ε, 1]] [1 / 6, 1 / 3, 1 / 3, 1 / 6] rfl (rk4_shape ε e0.ne') f hf hs
      (fun k hk => (hsteps k hk).1.ne') a (y a) hu
    refine ⟨s', k1, k2, ?_⟩
    unfold apart
    rw [k3]
    refine (key (2 * ε) ⟨by linarith, by linarith⟩ 0 ⟨le_rfl, hε₁.le⟩ _ rfl (rk4_bounded ε he1) ?_ ?_ ?_ h ⟨h0, hh.2.trans (min_le_left _ _)⟩ hs hsteps hend).trans ?_
    · intro i hi
      have : i < 4 := hi
      interval_cases i <;> norm_num [coefOf, Finset.sum_range_succ, abs_of_pos e0] <;> first | linarith | (rw [abs_le]; constructor <;> linarith)
    · norm_num [coefOf, Finset.sum_range_succ]
    · norm_num [coefOf, Finset.sum_range_succ]
    · have p1 : 0 ≤ X * h ^ 2 := by positivity
      have p2 : 0 ≤ X' * (h ^ 2 + ε * h) := by positivity
      nlinarith
  · obtain ⟨s', k1, k2, k3⟩ := fly_tableau (midpoint ε) [[1 / 2, 1 / 2]] [ε, 1] rfl (midpoint_shape ε e0.ne') f hf hs
      (fun k hk => (hsteps k hk).1.ne') a (y a) hu
    refine ⟨s', k1, k2, ?_⟩
    unfold apart
    rw [k3]
    refine (key' 0 ⟨le_rfl, zero_le_one⟩ ε ⟨e0.le, hε.2.trans (min_le_right _ _)⟩ _ rfl (midpoint_bounded ε he1) ?_ ?_ ?_ h ⟨h0, hh.2.trans (min_le_right _ _)⟩ hs hsteps hend).trans ?_
    · intro i hi
      have : i < 2 := hi
      interval_cases i <;> norm_num [coefOf, Finset.sum_range_succ]
    · norm_num [coefOf, Finset.sum_range_succ, abs_of_pos e0]
    · norm_num [coefOf, Finset.sum_range_succ]
    · have p1 : 0 ≤ X * (h ^ 2 + ε) := by positivity
      nlinarith

end course

end Mapleaf.Motion.Turn
