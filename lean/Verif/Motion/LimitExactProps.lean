import Verif.Motion.LimitOrderProps
import Mathlib.Analysis.Calculus.Deriv.Pow
import Mathlib.Analysis.Calculus.Deriv.Mul
import Mathlib.Analysis.Calculus.Deriv.Comp

/-! # C93: expansion of the motion and of a Runge-Kutta step in powers of the step -/

set_option maxSynthPendingDepth 3

namespace Mapleaf.Motion.Lim
open Set

section expand
variable {X : Type} [NormedAddCommGroup X] [NormedSpace ℝ X] {a e : ℝ} {m : ℕ}
variable {G : X → X} {Y : ℝ → X} {D1 : ℝ → X →L[ℝ] X} {D2 : ℝ → X →L[ℝ] X →L[ℝ] X} {D3 : ℝ → X →L[ℝ] X →L[ℝ] X →L[ℝ] X}

/-- Integrating an expansion of the derivative gives one of the motion. -/
theorem integrate (J : Jet G Y a e D1 D2 D3) (p1 p2 p3 p4 : ℝ → X)
    (hu : UO a e m fun t h => G (Y (t + h)) - (p1 t + (2 * h) • p2 t + (3 * h ^ 2) • p3 t + (4 * h ^ 3) • p4 t)) :
    UO a e (m + 1) fun t h => Y (t + h) - (Y t + h • p1 t + h ^ 2 • p2 t + h ^ 3 • p3 t + h ^ 4 • p4 t) := by
  obtain ⟨C, h₀, q1, q2, q3, q4⟩ := hu
  refine ⟨C, h₀, q1, q2, q3, fun t ht h hh hte => ?_⟩
  have hd : ∀ s ∈ Icc (0 : ℝ) h, HasDerivWithinAt (fun s => Y (t + s) - (Y t + s • p1 t + s ^ 2 • p2 t + s ^ 3 • p3 t + s ^ 4 • p4 t))
      (G (Y (t + s)) - (p1 t + (2 * s) • p2 t + (3 * s ^ 2) • p3 t + (4 * s ^ 3) • p4 t)) (Icc 0 h) s := by
    intro s hs
    have hmem : t + s ∈ Icc a e := ⟨by linarith [ht.1, hs.1], by linarith [hs.2]⟩
    have e1 : HasDerivWithinAt (fun s => Y (t + s)) (G (Y (t + s))) (Icc 0 h) s := by
      have := (J.sol (t + s) hmem).scomp s (((hasDerivAt_id s).const_add t).hasDerivWithinAt (s := Icc 0 h)) (fun z hz =>
        (⟨by simp only [id]; linarith [ht.1, hz.1], by simp only [id]; linarith [hz.2]⟩ : t + id z ∈ Icc a e))
      simpa [Function.comp_def] using this
    have pw : ∀ (k : ℕ) (w : X), HasDerivAt (fun s : ℝ => s ^ (k + 1) • w) (((k + 1 : ℕ) * s ^ k : ℝ) • w) s := by
      intro k w
      simpa using (hasDerivAt_pow (k + 1) s).smul_const w
    have e2 : HasDerivAt (fun s : ℝ => Y t + s • p1 t + s ^ 2 • p2 t + s ^ 3 • p3 t + s ^ 4 • p4 t)
        (p1 t + (2 * s) • p2 t + (3 * s ^ 2) • p3 t + (4 * s ^ 3) • p4 t) s := by
      have h1 : HasDerivAt (fun s : ℝ => s • p1 t) (p1 t) s := by simpa using pw 0 (p1 t)
      have h2 := pw 1 (p2 t)
      have h3 := pw 2 (p3 t)
      have h4 := pw 3 (p4 t)
      norm_num at h2 h3 h4
      exact (((h1.const_add (Y t)).add h2).add h3).add h4
    exact e1.sub e2.hasDerivWithinAt
  have := norm_image_sub_le_of_norm_deriv_le_segment' hd (C := C * h ^ m) (fun s hs => by
    refine (q4 t ht s ⟨hs.1, hs.2.le.trans hh.2⟩ (by linarith [hs.2])).trans ?_
    exact mul_le_mul_of_nonneg_left (pow_le_pow_left₀ hs.1 hs.2.le m) q3) h ⟨hh.1, le_rfl⟩
  simp only [add_zero, zero_smul, ne_eq, OfNat.ofNat_ne_zero, not_false_eq_true, zero_pow, sub_self, sub_zero] at this
  rw [pow_succ, ← mul_assoc]
  exact this

/-- the elementary differentials -/
noncomputable def E0 (G : X → X) (Y : ℝ → X) (t : ℝ) : X := G (Y t)
noncomputable def E1 (G : X → X) (Y : ℝ → X) (D1 : ℝ → X →L[ℝ] X) (t : ℝ) : X := D1 t (E0 G Y t)
noncomputable def E21 (G : X → X) (Y : ℝ → X) (D2 : ℝ → X →L[ℝ] X →L[ℝ] X) (t : ℝ) : X := D2 t (E0 G Y t) (E0 G Y t)
noncomputable def E22 (G : X → X) (Y : ℝ → X) (D1 : ℝ → X →L[ℝ] X) (t : ℝ) : X := D1 t (E1 G Y D1 t)
noncomputable def E31 (G : X → X) (Y : ℝ → X) (D3 : ℝ → X →L[ℝ] X →L[ℝ] X →L[ℝ] X) (t : ℝ) : X := D3 t (E0 G Y t) (E0 G Y t) (E0 G Y t)
noncomputable def E32 (G : X → X) (Y : ℝ → X) (D1 : ℝ → X →L[ℝ] X) (D2 : ℝ → X →L[ℝ] X →L[ℝ] X) (t : ℝ) : X :=
  (1 / 2 : ℝ) • (D2 t (E0 G Y t) (E1 G Y D1 t) + D2 t (E1 G Y D1 t) (E0 G Y t))
noncomputable def E33 (G : X → X) (Y : ℝ → X) (D1 : ℝ → X →L[ℝ] X) (D2 : ℝ → X →L[ℝ] X →L[ℝ] X) (t : ℝ) : X := D1 t (E21 G Y D2 t)
noncomputable def E34 (G : X → X) (Y : ℝ → X) (D1 : ℝ → X →L[ℝ] X) (t : ℝ) : X := D1 t (E22 G Y D1 t)

theorem Jet.differentials (J : Jet G Y a e D1 D2 D3) : BO a e (E0 G Y) ∧ BO a e (E1 G Y D1) ∧ BO a e (E21 G Y D2) ∧ BO a e (E22 G Y D1) ∧
    BO a e (E31 G Y D3) ∧ BO a e (E32 G Y D1 D2) ∧ BO a e (E33 G Y D1 D2) ∧ BO a e (E34 G Y D1) := by
  have h0 : BO a e (E0 G Y) := J.b0
  have h1 : BO a e (E1 G Y D1) := J.b1.app h0
  have h21 : BO a e (E21 G Y D2) := (J.b2.app h0).app h0
  have h22 : BO a e (E22 G Y D1) := J.b1.app h1
  exact ⟨h0, h1, h21, h22, ((J.b3.app h0).app h0).app h0, (((J.b2.app h0).app h1).add ((J.b2.app h1).app h0)).smul _, J.b1.app h21, J.b1.app h22⟩

theorem BO.zero : BO a e fun _ => (0 : X) := ⟨0, fun _ _ => by simp⟩

/-- The motion, up to the fourth power of the step. -/
theorem exact_expansion (J : Jet G Y a e D1 D2 D3) :
    UO a e 5 fun t h => Y (t + h) - (Y t + h • E0 G Y t + h ^ 2 • (1 / 2 : ℝ) • E1 G Y D1 t + h ^ 3 • (1 / 6 : ℝ) • (E21 G Y D2 t + E22 G Y D1 t) +
      h ^ 4 • (1 / 24 : ℝ) • (E31 G Y D3 t + (3 : ℝ) • E32 G Y D1 D2 t + E33 G Y D1 D2 t + E34 G Y D1 t)) := by
  obtain ⟨h0, h1, h21, h22, h31, h32, h33, h34⟩ := J.differentials
  -- the change of the state
  have z0 : UO a e 0 fun t h => G (Y (t + h)) := by
    obtain ⟨M, hM⟩ := J.b0
    exact ⟨|M|, 1, one_pos, le_rfl, abs_nonneg _, fun t ht h hh hte => by
      simpa using (hM (t + h) ⟨by linarith [ht.1, hh.1], hte⟩).trans (le_abs_self M)⟩
  have s1 : UO a e 1 fun t h => Y (t + h) - Y t := by
    refine (integrate (m := 0) J (fun _ => 0) (fun _ => 0) (fun _ => 0) (fun _ => 0) (z0.congr fun t h => by simp)).congr fun t h => by simp
  have sub : ∀ t h, Y t + (Y (t + h) - Y t) = Y (t + h) := fun t h => by abel
  -- first order
  have g1 : UO a e 1 fun t h => G (Y (t + h)) - E0 G Y t := by
    refine (substitute J le_rfl (by norm_num) BO.zero BO.zero BO.zero s1 (v := fun t h => Y (t + h) - Y t) (fun t h => by simp)).congr fun t h => ?_
    simp only [sub, map_zero, smul_zero, add_zero, E0, ContinuousLinearMap.zero_apply]
  have s2 : UO a e 2 fun t h => Y (t + h) - Y t - h • E0 G Y t :=
    (integrate (m := 1) J (E0 G Y) (fun _ => 0) (fun _ => 0) (fun _ => 0) (g1.congr fun t h => by simp)).congr fun t h => by simp; abel
  -- second order
  have g2 : UO a e 2 fun t h => G (Y (t + h)) - (E0 G Y t + h • E1 G Y D1 t) := by
    have := substitute J one_le_two (by norm_num) h0 BO.zero BO.zero s2 (v := fun t h => Y (t + h) - Y t) (fun t h => by simp)
    refine (this.add (((h21.smul (1 / 2)).term 2 le_rfl).add ((h31.smul (1 / 6)).term 3 (by norm_num)))).congr fun t h => ?_
    simp only [sub, map_zero, smul_zero, add_zero, zero_add, E0, E1, E21, E31, ContinuousLinearMap.zero_apply]
    module
  have s3 : UO a e 3 fun t h => Y (t + h) - Y t - h • E0 G Y t - h ^ 2 • (1 / 2 : ℝ) • E1 G Y D1 t :=
    (integrate (m := 2) J (E0 G Y) (fun t => (1 / 2 : ℝ) • E1 G Y D1 t) (fun _ => 0) (fun _ => 0) (g2.congr fun t h => by
      simp only [smul_zero, add_zero]; module)).congr fun t h => by simp only [smul_zero, add_zero]; module
  -- third order
  have g3 : UO a e 3 fun t h => G (Y (t + h)) - (E0 G Y t + h • E1 G Y D1 t + h ^ 2 • (1 / 2 : ℝ) • (E21 G Y D2 t + E22 G Y D1 t)) := by
    have := substitute J (by norm_num) (by norm_num) h0 (h1.smul (1 / 2)) BO.zero s3 (v := fun t h => Y (t + h) - Y t)
      (fun t h => by simp only [smul_zero, add_zero]; module)
    refine (this.add (((h32.smul (1 / 2)).term 3 le_rfl).add ((h31.smul (1 / 6)).term 3 (by norm_num)))).congr fun t h => ?_
    simp only [sub, map_zero, map_smul, smul_zero, zero_add, E0, E1, E21, E22, E31, E32, ContinuousLinearMap.smul_apply]
    module
  have s4 : UO a e 4 fun t h => Y (t + h) - Y t - h • E0 G Y t - h ^ 2 • (1 / 2 : ℝ) • E1 G Y D1 t -
      h ^ 3 • (1 / 6 : ℝ) • (E21 G Y D2 t + E22 G Y D1 t) :=
    (integrate (m := 3) J (E0 G Y) (fun t => (1 / 2 : ℝ) • E1 G Y D1 t) (fun t => (1 / 6 : ℝ) • (E21 G Y D2 t + E22 G Y D1 t)) (fun _ => 0)
      (g3.congr fun t h => by simp only [smul_zero, add_zero]; module)).congr fun t h => by simp only [smul_zero, add_zero]; module
  -- fourth order
  have g4 : UO a e 4 fun t h => G (Y (t + h)) - (E0 G Y t + h • E1 G Y D1 t + h ^ 2 • (1 / 2 : ℝ) • (E21 G Y D2 t + E22 G Y D1 t) +
      h ^ 3 • (1 / 6 : ℝ) • (E31 G Y D3 t + (3 : ℝ) • E32 G Y D1 D2 t + E33 G Y D1 D2 t + E34 G Y D1 t)) := by
    have := substitute J (by norm_num) le_rfl h0 (h1.smul (1 / 2)) ((h21.add h22).smul (1 / 6)) s4 (v := fun t h => Y (t + h) - Y t)
      (fun t h => by module)
    refine this.congr fun t h => ?_
    simp only [sub, map_smul, map_add, E0, E1, E21, E22, E31, E32, E33, E34, ContinuousLinearMap.smul_apply]
    module
  refine (integrate (m := 4) J (E0 G Y) (fun t => (1 / 2 : ℝ) • E1 G Y D1 t) (fun t => (1 / 6 : ℝ) • (E21 G Y D2 t + E22 G Y D1 t))
    (fun t => (1 / 24 : ℝ) • (E31 G Y D3 t + (3 : ℝ) • E32 G Y D1 D2 t + E33 G Y D1 D2 t + E34 G Y D1 t)) (g4.congr fun t h => by module))

end expand

end Mapleaf.Motion.Lim
