import Verif.Motion.BodySpinProps

/-! # Flights of steadily spinning bodies -/

namespace Mapleaf.Motion.Body
open Mapleaf Mapleaf.Motion
open Mapleaf.Motion.RK (Tableau wsum Explicit NonZero Shape wsum_cons wsum_append_right castT castL patch shapeB rowsConsistent classicalTableau
  adaptiveTableau checkTableau shape_cast checkTableau_cast castT_def castT_dropLast castT_getLast castT_take castT_length isStages_unique IsStages
  classical_runs castL_tail sum_castL)
open Mapleaf.Motion.Stepper (factors ballistic constants ballistic_tableau)

/-- the body accelerates by `a` in the global frame and keeps its angular velocity `w` (in its own frame) -/
def Steady (f : ℝ → RBState → Except PyErr RBDeriv) (a w : V3 ℝ) : Prop :=
  ∀ t s, Quat.Unit s.ori → s.angVel = w → f t s = .ok ⟨s.vel, a, s.ori.rotF w, 0⟩

theorem wsum_vel (ws : List ℝ) (ks : List RBDeriv) : (wsum ws ks).vel = wsum ws (ks.map (·.vel)) := by
  induction ws generalizing ks with
  | nil => simp [wsum]
  | cons w ws ih => cases ks with
    | nil => simp [wsum]
    | cons k ks => rw [List.map_cons, wsum_cons, wsum_cons, RBDeriv.add_vel, RBDeriv.smul_vel, ih]

theorem wsum_pair (ws : List ℝ) (ks : List RBDeriv) :
    wsum ws (ks.map fun k => (k.vel, k.acc)) = ((wsum ws ks).vel, (wsum ws ks).acc) := by
  induction ws generalizing ks with
  | nil => simp [wsum]; rfl
  | cons w ws ih => cases ks with
    | nil => simp [wsum]; rfl
    | cons k ks => rw [List.map_cons, wsum_cons, wsum_cons, ih]; rfl

theorem wsum_spin (W : V3 ℝ) (ws : List ℝ) (ks : List RBDeriv) (h : ∀ k ∈ ks, k.angVel = W ∧ k.angAcc = 0) (hl : ws.length ≤ ks.length) :
    (wsum ws ks).angVel = ws.sum • W ∧ (wsum ws ks).angAcc = 0 := by
  induction ws generalizing ks with
  | nil => simp [wsum]
  | cons w ws ih => cases ks with
    | nil => simp at hl
    | cons k ks =>
      obtain ⟨h1, h2⟩ := ih ks (fun k hk => h k (by simp [hk])) (by simpa using hl)
      obtain ⟨h3, h4⟩ := h k (by simp)
      rw [wsum_cons]
      simp only [RBDeriv.add_angVel, RBDeriv.smul_angVel, RBDeriv.add_angAcc, RBDeriv.smul_angAcc, h1, h2, h3, h4, List.sum_cons]
      exact ⟨by module, by simp⟩

/-- the states reached during steady spin -/
def Spinning (w W : V3 ℝ) (s : RBState) : Prop := Quat.Unit s.ori ∧ s.angVel = w ∧ s.ori.rotF w = W

theorem spinning_turn {w W : V3 ℝ} {s : RBState} (h : Spinning w W s) (x : ℝ) (p v : V3 ℝ) :
    Spinning w W ⟨p, v, (Quat.ofRotationVector (x • W)).mul s.ori, s.angVel⟩ := by
  obtain ⟨h1, h2, h3⟩ := h
  refine ⟨(ofRotationVector_unit _).mul h1, h2, ?_⟩
  show ((Quat.ofRotationVector (x • W)).mul s.ori).rotF w = W
  rw [Quat.rotF_mul, h3, turn_fixes]

theorem spinning_advance {w W : V3 ℝ} {s : RBState} (h : Spinning w W s) (x : ℝ) (d : RBDeriv) (h1 : d.angVel = x • W) (h2 : d.angAcc = 0) :
    Spinning w W (advance s d) := by
  have := spinning_turn h x (s.pos + d.vel) (s.vel + d.acc)
  unfold advance
  rw [h1, h2, add_zero]
  exact this

theorem spin_tableau (tab : Tableau ℚ) (m : String) (β γ : ℚ) (hm : classicalTableau m = .ok (some tab))
    (hc : rowsConsistent 0 tab = true) (hs : shapeB 1 (patch tab) = true) (hk : constants tab β γ = true)
    (f : ℝ → RBState → Except PyErr RBDeriv) (a w W : V3 ℝ) (hf : Steady f a w) (t dt : ℝ) (hdt : dt ≠ 0) (y : RBState) (hy : Spinning w W y) :
    ∃ r, classicalStep bodyArith m f t y dt = .ok r ∧
      r.newValue = ⟨y.pos + ((β : ℝ) * dt) • y.vel + ((γ : ℝ) * dt ^ 2) • a, y.vel + ((β : ℝ) * dt) • a,
        (Quat.ofRotationVector (((β : ℝ) * dt) • W)).mul y.ori, w⟩ := by
  have hshape : Shape 1 (castT (patch tab) : Tableau ℝ) := shape_cast 1 (patch tab) hs
  obtain ⟨r, ks, b, h1, h2, h3, h4, h5, h6, _, _⟩ := rkStep_gen body_lawful (castT (patch tab)) hshape f
    (fun _ s => ⟨s.vel, a, s.ori.rotF w, 0⟩) (Spinning w W) (fun k => k.acc = a ∧ k.angVel = W ∧ k.angAcc = 0)
    (fun t s h => ⟨hf t s h.1 h.2.1, rfl, h.2.2, rfl⟩) t y hy.1 hy dt hdt
    (fun r _ ks hks hl => by
      obtain ⟨k1, k2⟩ := wsum_spin W r.tail ks (fun k hk => (hks k hk).2) hl
      exact spinning_advance hy (dt * r.tail.sum) _ (by rw [RBDeriv.smul_angVel, k1, smul_smul]) (by rw [RBDeriv.smul_angAcc, k2, smul_zero]))
  refine ⟨r, ?_, ?_⟩
  · unfold classicalStep
    rw [hm]
    dsimp only
    rw [← castT_def, checkTableau_cast tab hc]
    exact h1
  -- position and velocity: the 3-DoF step
  obtain ⟨r', ks', g1, g2, g3, _⟩ := classical_runs (K := ℝ) m tab hm hc hs (ballistic a) t (y.pos, y.vel) dt hdt
  obtain ⟨r'', q1, q2⟩ := ballistic_tableau tab m β γ hm hc hs hk a y.pos y.vel t dt hdt
  rw [g1] at q1
  injection q1 with q1
  subst q1
  have hpairs : IsStages (castT ((patch tab).take ((patch tab).length - 1)) : Tableau ℝ) (ballistic a) t (y.pos, y.vel) dt
      (ballistic a t (y.pos, y.vel)) (ks.map fun k => (k.vel, k.acc)) := by
    unfold StagesAt at h4
    unfold IsStages
    rw [castT_dropLast, List.dropLast_eq_take] at h4
    conv_lhs => rw [h4]
    rw [List.map_cons, List.map_map]
    congr 1
    apply List.map_congr_left
    intro r hr
    simp only [Function.comp, wsum_pair, ballistic, advance, Prod.snd_add, Prod.smul_snd, RBDeriv.smul_acc]
  have hex : Explicit 0 (castT ((patch tab).take ((patch tab).length - 1)) : Tableau ℝ) := by
    have := hshape.explicit
    rwa [castT_length, castT_take] at this
  have hsame := isStages_unique hex g2 hpairs
  have hb := castT_getLast _ _ h2
  rw [q2, hsame, wsum_pair, ← hb] at g3
  -- angular velocity
  obtain ⟨k1, k2⟩ := wsum_spin W b ks (fun k hk => (h5 k hk).2) (by omega)
  have hsum : b.sum = (β : ℝ) := by
    unfold constants at hk
    simp only [Bool.and_eq_true, decide_eq_true_eq] at hk
    rw [hb, sum_castL, hk.1.2]
  rw [h6]
  unfold advance
  simp only [RBDeriv.smul_angVel, RBDeriv.smul_angAcc, RBDeriv.smul_vel, RBDeriv.smul_acc, k1, k2, smul_zero, add_zero, smul_smul, hsum,
    hy.2.1, mul_comm dt]
  have e1 := congrArg Prod.fst g3
  have e2 := congrArg Prod.snd g3
  simp only [Prod.fst_add, Prod.snd_add, Prod.smul_fst, Prod.smul_snd] at e1 e2
  rw [← e1, ← e2]

set_option maxRecDepth 100000 in
/-- **C92.** One fixed step of a body that spins steadily and accelerates constantly: with the constants `β`, `γ` of the method
(`β = 1` but for the midpoint rule, where it is `1 + 1e-16`; `γ = 1/2` up to `1e-16`, 0 for Euler) it moves to
`p + β dt v + γ dt² a`, its velocity is `v + β dt a`, it has turned by `β dt |ω|` about its angular velocity, and its angular
velocity is unchanged. -/
theorem spin_step (m : String) (β γ : ℚ) (hm : (m, β, γ) ∈ factors) (f : ℝ → RBState → Except PyErr RBDeriv) (a w W : V3 ℝ)
    (hf : Steady f a w) (t dt : ℝ) (hdt : dt ≠ 0) (y : RBState) (hy : Spinning w W y) :
    ∃ r, classicalStep bodyArith m f t y dt = .ok r ∧
      r.newValue = ⟨y.pos + ((β : ℝ) * dt) • y.vel + ((γ : ℝ) * dt ^ 2) • a, y.vel + ((β : ℝ) * dt) • a,
        (Quat.ofRotationVector (((β : ℝ) * dt) • W)).mul y.ori, w⟩ := by
  simp only [factors, List.mem_cons, Prod.mk.injEq, List.not_mem_nil, or_false] at hm
  rcases hm with ⟨rfl, rfl, rfl⟩ | ⟨rfl, rfl, rfl⟩ | ⟨rfl, rfl, rfl⟩ | ⟨rfl, rfl, rfl⟩ | ⟨rfl, rfl, rfl⟩
  · refine ⟨_, six_dof_euler f t y hy.1 dt _ (hf t y hy.1 hy.2.1), ?_⟩
    unfold advance
    simp [hy.2.1, hy.2.2]
  · exact spin_tableau RK.tabRK2Midpoint _ _ _ (by simp [classicalTableau]) (by decide +kernel) (by decide +kernel)
      (by decide +kernel) f a w W hf t dt hdt y hy
  · exact spin_tableau RK.tabRK2Heun _ _ _ (by simp [classicalTableau]) (by decide +kernel) (by decide +kernel)
      (by decide +kernel) f a w W hf t dt hdt y hy
  · exact spin_tableau RK.tabRK4 _ _ _ (by simp [classicalTableau]) (by decide +kernel) (by decide +kernel)
      (by decide +kernel) f a w W hf t dt hdt y hy
  · exact spin_tableau RK.tabRK438 _ _ _ (by simp [classicalTableau]) (by decide +kernel) (by decide +kernel)
      (by decide +kernel) f a w W hf t dt hdt y hy

/-- `n` equal steps -/
noncomputable def fly {S D : Type} (A : Arith S D) (m : String) (f : ℝ → S → Except PyErr D) (dt : ℝ) : ℕ → ℝ → S → Except PyErr S
  | 0, _, y => .ok y
  | n + 1, t, y =>
    match classicalStep A m f t y dt with
    | .error e => .error e
    | .ok r => fly A m f dt n (t + dt) r.newValue

/-- **C92.** `n` equal steps, for the methods with `β = 1`: after the time `T = n dt` the body has turned by exactly `T |ω|` about its
angular velocity, has gained exactly `T a` of velocity, and is at `p + T v + (n γ + n (n-1)/2) dt² a`, which is exact for `γ = 1/2`. -/
theorem spin_flight (m : String) (γ : ℚ) (hm : (m, 1, γ) ∈ factors) (f : ℝ → RBState → Except PyErr RBDeriv) (a w W : V3 ℝ)
    (hf : Steady f a w) (dt : ℝ) (hdt : dt ≠ 0) (n : ℕ) (t : ℝ) (y : RBState) (hy : Spinning w W y) :
    fly bodyArith m f dt n t y = .ok ⟨y.pos + (n * dt) • y.vel + (((n : ℝ) * γ + n * (n - 1) / 2) * dt ^ 2) • a, y.vel + (n * dt) • a,
      (Quat.ofRotationVector ((n * dt) • W)).mul y.ori, w⟩ := by
  induction n generalizing t y with
  | zero =>
    simp only [fly, Nat.cast_zero, zero_mul, zero_smul, add_zero, zero_div, turn_zero, one_mulQ]
    rw [← hy.2.1]
  | succ n ih =>
    obtain ⟨r, h1, h2⟩ := spin_step m 1 γ hm f a w W hf t dt hdt y hy
    unfold fly
    rw [h1]
    dsimp only
    have hsp : Spinning w W r.newValue := by
      have := spinning_turn hy (1 * dt) (y.pos + (((1 : ℚ) : ℝ) * dt) • y.vel + ((γ : ℝ) * dt ^ 2) • a) (y.vel + (((1 : ℚ) : ℝ) * dt) • a)
      rw [h2]
      rw [hy.2.1] at this
      simpa using this
    rw [ih (t + dt) r.newValue hsp, h2]
    simp only [Rat.cast_one, one_mul]
    have hq : (Quat.ofRotationVector (((n : ℝ) * dt) • W)).mul ((Quat.ofRotationVector (dt • W)).mul y.ori) =
        (Quat.ofRotationVector ((((n + 1 : ℕ) : ℝ) * dt) • W)).mul y.ori := by
      rw [show ∀ p q s : Quat ℝ, p.mul (q.mul s) = (p.mul q).mul s from fun p q s => by apply Quat.ext4 <;> simp [Quat.mul] <;> ring,
        turn_add]
      congr 3; push_cast; ring
    rw [hq]
    congr 2
    · push_cast; module
    · push_cast; module

/-- **C92.** What "steady" means for a rigid body: constant inertia, a force that is `F` in the global frame, no moment, and an angular
velocity for which the gyroscopic terms vanish (about a principal axis, or any for equal moments of inertia). -/
theorem steady_body (force moment : ℝ → RBState → V3 ℝ) (I : MassProps) (F w : V3 ℝ) (hm : I.mass ≠ 0)
    (hx : I.moi.x ≠ 0) (hy : I.moi.y ≠ 0) (hz : I.moi.z ≠ 0)
    (hF : ∀ t (s : RBState), Quat.Unit s.ori → s.ori.rotF (force t s) = F) (hM : ∀ t s, moment t s = 0)
    (g1 : (I.moi.y - I.moi.z) * w.y * w.z = 0) (g2 : (I.moi.z - I.moi.x) * w.z * w.x = 0) (g3 : (I.moi.x - I.moi.y) * w.x * w.y = 0) :
    Steady (bodyRhs force moment (fun _ _ => I)) ((1 / I.mass) • F) w := by
  intro t s hs hw
  obtain ⟨d, hd, ⟨FG, e1, e2⟩, ⟨wG, e3, e4⟩, e5, _, ⟨c, e6, e7⟩⟩ :=
    newton_euler s (force t s) (moment t s) I I hs.ne hm hx hy hz
  have hu : ∀ v v' : V3 ℝ, Quat.IsRotation s.ori v v' → v' = s.ori.rotF v := by
    intro v v' h
    have h' := Quat.rotF_spec s.ori v hs.ne
    unfold Quat.IsRotation at h h'
    exact Quat.pureH_injective (h.trans h'.symm)
  unfold bodyRhs
  rw [hd]
  congr 1
  apply RBDeriv.ext4
  · have : c = 0 := by
      rw [hu _ _ e6, sub_self, smul_zero, rotF_unit hs]
      apply V3.ext' <;> simp [Quat.sandwich, Quat.mul, Quat.conj]
    rw [e7, this, add_zero]
  · dsimp only
    rw [hu _ _ e1, hF t s hs] at e2
    rw [← e2, smul_smul, one_div_mul_cancel hm, one_smul]
  · dsimp only
    rw [e4, hu _ _ e3, hw]
  · dsimp only
    rw [hM, hw] at e5
    have c1 := congrArg V3.x e5
    have c2 := congrArg V3.y e5
    have c3 := congrArg V3.z e5
    simp only [tensor, V3.cross, V3.add_x, V3.add_y, V3.add_z, V3.zero_x, V3.zero_y, V3.zero_z] at c1 c2 c3
    have d1 : I.moi.x * d.angAcc.x = 0 := by linarith
    have d2 : I.moi.y * d.angAcc.y = 0 := by linarith
    have d3 : I.moi.z * d.angAcc.z = 0 := by linarith
    apply V3.ext'
    · exact (mul_eq_zero.1 d1).resolve_left hx
    · exact (mul_eq_zero.1 d2).resolve_left hy
    · exact (mul_eq_zero.1 d3).resolve_left hz

end Mapleaf.Motion.Body
