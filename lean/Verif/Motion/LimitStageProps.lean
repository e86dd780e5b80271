import Verif.Motion.LimitExactProps
import Mathlib.Algebra.BigOperators.Field

/-! # C93: expansion of a Runge-Kutta step and the error of one step -/

set_option maxSynthPendingDepth 3

namespace Mapleaf.Motion.Lim
open Set

section stages
variable {X : Type} [NormedAddCommGroup X] [NormedSpace ℝ X] {a e : ℝ}
variable {G : X → X} {Y : ℝ → X} {D1 : ℝ → X →L[ℝ] X} {D2 : ℝ → X →L[ℝ] X →L[ℝ] X} {D3 : ℝ → X →L[ℝ] X →L[ℝ] X →L[ℝ] X}

/-- `∑ⱼ aᵢⱼ wⱼ` -/
def Coef.row (q : Coef) (w : ℕ → ℝ) (i : ℕ) : ℝ := ∑ j ∈ Finset.range i, q.A i j * w j
/-- `∑ᵢ bᵢ wᵢ` -/
def Coef.dot (q : Coef) (w : ℕ → ℝ) : ℝ := ∑ i ∈ Finset.range q.s, q.b i * w i
/-- `∑ⱼ aᵢⱼ = cᵢ` -/
def Coef.Rows (q : Coef) : Prop := ∀ i < q.s, ∑ j ∈ Finset.range i, q.A i j = q.c i

/-- the third-order part of a stage -/
noncomputable def tri (q : Coef) (G : X → X) (Y : ℝ → X) (D1 : ℝ → X →L[ℝ] X) (D2 : ℝ → X →L[ℝ] X →L[ℝ] X) (D3 : ℝ → X →L[ℝ] X →L[ℝ] X →L[ℝ] X)
    (i : ℕ) (t : ℝ) : X :=
  (q.c i ^ 3 / 6) • E31 G Y D3 t + (q.c i * q.row q.c i) • E32 G Y D1 D2 t + (q.row (fun j => q.c j ^ 2) i / 2) • E33 G Y D1 D2 t +
    q.row (q.row q.c) i • E34 G Y D1 t

/-- the second-order part of a stage -/
noncomputable def duo (q : Coef) (G : X → X) (Y : ℝ → X) (D1 : ℝ → X →L[ℝ] X) (D2 : ℝ → X →L[ℝ] X →L[ℝ] X) (i : ℕ) (t : ℝ) : X :=
  (q.c i ^ 2 / 2) • E21 G Y D2 t + q.row q.c i • E22 G Y D1 t

theorem row_sum (q : Coef) (w : ℕ → ℝ) (i : ℕ) (x : X) : ∑ j ∈ Finset.range i, q.A i j • w j • x = q.row w i • x := by
  unfold Coef.row
  rw [Finset.sum_smul]
  exact Finset.sum_congr rfl fun j _ => by rw [smul_smul]

theorem dot_sum (q : Coef) (w : ℕ → ℝ) (x : X) : ∑ j ∈ Finset.range q.s, q.b j • w j • x = q.dot w • x := by
  unfold Coef.dot
  rw [Finset.sum_smul]
  exact Finset.sum_congr rfl fun j _ => by rw [smul_smul]

/-- The stages of a step from the motion, up to the third power of the step. -/
theorem stage_expansion (J : Jet G Y a e D1 D2 D3) (q : Coef) (hq : q.Rows) (i : ℕ) (hi : i < q.s) :
    UO a e 4 fun t h => stage q (fun _ x => G x) t (Y t) h i -
      (E0 G Y t + h • q.c i • E1 G Y D1 t + h ^ 2 • duo q G Y D1 D2 i t + h ^ 3 • tri q G Y D1 D2 D3 i t) := by
  obtain ⟨h0, h1, h21, h22, h31, h32, h33, h34⟩ := J.differentials
  induction i using Nat.strong_induction_on with
  | _ i ih =>
    have hr : UO a e 4 fun t h => h • ∑ j ∈ Finset.range i, q.A i j • (stage q (fun _ x => G x) t (Y t) h j -
        (E0 G Y t + h • q.c j • E1 G Y D1 t + h ^ 2 • duo q G Y D1 D2 j t)) := by
      have : UO a e 3 fun t h => ∑ j ∈ Finset.range i, q.A i j • (stage q (fun _ x => G x) t (Y t) h j -
          (E0 G Y t + h • q.c j • E1 G Y D1 t + h ^ 2 • duo q G Y D1 D2 j t)) := by
        refine UO.sum _ fun j hj => UO.smul _ ?_
        have hj' := Finset.mem_range.1 hj
        have b3 : BO a e (tri q G Y D1 D2 D3 j) := (((h31.smul _).add (h32.smul _)).add (h33.smul _)).add (h34.smul _)
        refine (((ih j hj' (by omega)).mono (by norm_num)).add (b3.term 3 le_rfl)).congr fun t h => ?_
        abel
      exact (this.hpow 1).congr fun t h => by rw [pow_one]
    have hb1 : BO a e fun t => q.c i • E0 G Y t := h0.smul _
    have hb2 : BO a e fun t => q.row q.c i • E1 G Y D1 t := h1.smul _
    have hb3 : BO a e fun t => (q.row (fun j => q.c j ^ 2) i / 2) • E21 G Y D2 t + q.row (q.row q.c) i • E22 G Y D1 t := (h21.smul _).add (h22.smul _)
    have key := substitute J (by norm_num) le_rfl hb1 hb2 hb3 hr
      (v := fun t h => h • ∑ j ∈ Finset.range i, q.A i j • stage q (fun _ x => G x) t (Y t) h j) (fun t h => by
        have e0 : ∑ j ∈ Finset.range i, q.A i j • E0 G Y t = q.c i • E0 G Y t := by rw [← Finset.sum_smul, hq i hi]
        have e1 : ∑ j ∈ Finset.range i, q.A i j • h • q.c j • E1 G Y D1 t = h • q.row q.c i • E1 G Y D1 t := by
          rw [← row_sum, Finset.smul_sum]
          exact Finset.sum_congr rfl fun j _ => smul_comm _ _ _
        have e2 : ∑ j ∈ Finset.range i, q.A i j • h ^ 2 • duo q G Y D1 D2 j t =
            h ^ 2 • ((q.row (fun j => q.c j ^ 2) i / 2) • E21 G Y D2 t + q.row (q.row q.c) i • E22 G Y D1 t) := by
          have : (q.row (fun j => q.c j ^ 2) i / 2) = q.row (fun j => q.c j ^ 2 / 2) i := by
            unfold Coef.row
            rw [Finset.sum_div]
            exact Finset.sum_congr rfl fun j _ => by ring
          rw [this, ← row_sum, ← row_sum, ← Finset.sum_add_distrib, Finset.smul_sum]
          refine Finset.sum_congr rfl fun j _ => ?_
          rw [smul_comm, ← smul_add]
          rfl
        have e3 : ∑ j ∈ Finset.range i, q.A i j • (stage q (fun _ x => G x) t (Y t) h j -
            (E0 G Y t + h • q.c j • E1 G Y D1 t + h ^ 2 • duo q G Y D1 D2 j t)) =
            ∑ j ∈ Finset.range i, q.A i j • stage q (fun _ x => G x) t (Y t) h j - (∑ j ∈ Finset.range i, q.A i j • E0 G Y t +
              ∑ j ∈ Finset.range i, q.A i j • h • q.c j • E1 G Y D1 t + ∑ j ∈ Finset.range i, q.A i j • h ^ 2 • duo q G Y D1 D2 j t) := by
          rw [← Finset.sum_add_distrib, ← Finset.sum_add_distrib, ← Finset.sum_sub_distrib]
          exact Finset.sum_congr rfl fun j _ => by rw [← smul_add, ← smul_add, ← smul_sub]
        rw [e3, e0, e1, e2]
        module)
    refine key.congr fun t h => ?_
    rw [stage_point]
    unfold point duo tri
    simp only [map_smul, map_add, E0, E1, E21, E22, E31, E32, E33, E34, ContinuousLinearMap.smul_apply]
    module

/-- The order conditions up to the fourth order (Butcher's trees with at most four vertices). -/
structure Coef.Order (q : Coef) (p : ℕ) : Prop where
  o1 : 1 ≤ p → q.dot (fun _ => 1) = 1
  o2 : 2 ≤ p → q.dot q.c = 1 / 2
  o31 : 3 ≤ p → q.dot (fun i => q.c i ^ 2) = 1 / 3
  o32 : 3 ≤ p → q.dot (q.row q.c) = 1 / 6
  o41 : 4 ≤ p → q.dot (fun i => q.c i ^ 3) = 1 / 4
  o42 : 4 ≤ p → q.dot (fun i => q.c i * q.row q.c i) = 1 / 8
  o43 : 4 ≤ p → q.dot (q.row fun j => q.c j ^ 2) = 1 / 12
  o44 : 4 ≤ p → q.dot (q.row (q.row q.c)) = 1 / 24

/-- **C93.** The error of one step from the motion is of order `p + 1` when the order conditions hold up to `p ≤ 4`. -/
theorem local_error (J : Jet G Y a e D1 D2 D3) (q : Coef) (hq : q.Rows) (p : ℕ) (hp : p ≤ 4) (ho : q.Order p) :
    UO a e (p + 1) fun t h => rk q (fun _ x => G x) t (Y t) h - Y (t + h) := by
  obtain ⟨h0, h1, h21, h22, h31, h32, h33, h34⟩ := J.differentials
  have hs : UO a e 5 fun t h => h • ∑ i ∈ Finset.range q.s, q.b i • (stage q (fun _ x => G x) t (Y t) h i -
      (E0 G Y t + h • q.c i • E1 G Y D1 t + h ^ 2 • duo q G Y D1 D2 i t + h ^ 3 • tri q G Y D1 D2 D3 i t)) :=
    ((UO.sum (Finset.range q.s) fun i hi => (stage_expansion J q hq i (Finset.mem_range.1 hi)).smul (q.b i)).hpow 1).congr fun t h => by rw [pow_one]
  -- the coefficients of the difference
  have w1 : UO a e (p + 1) fun t h => h ^ 1 • (q.dot (fun _ => 1) - 1) • E0 G Y t := by
    by_cases hc : 1 ≤ p
    · rw [ho.o1 hc]; simpa using UO.zero
    · exact (h0.smul _).term 1 (by omega)
  have w2 : UO a e (p + 1) fun t h => h ^ 2 • (q.dot q.c - 1 / 2) • E1 G Y D1 t := by
    by_cases hc : 2 ≤ p
    · rw [ho.o2 hc]; simpa using UO.zero
    · exact (h1.smul _).term 2 (by omega)
  have w31 : UO a e (p + 1) fun t h => h ^ 3 • ((q.dot (fun i => q.c i ^ 2) - 1 / 3) / 2) • E21 G Y D2 t := by
    by_cases hc : 3 ≤ p
    · rw [ho.o31 hc]; simpa using UO.zero
    · exact (h21.smul _).term 3 (by omega)
  have w32 : UO a e (p + 1) fun t h => h ^ 3 • (q.dot (q.row q.c) - 1 / 6) • E22 G Y D1 t := by
    by_cases hc : 3 ≤ p
    · rw [ho.o32 hc]; simpa using UO.zero
    · exact (h22.smul _).term 3 (by omega)
  have w41 : UO a e (p + 1) fun t h => h ^ 4 • ((q.dot (fun i => q.c i ^ 3) - 1 / 4) / 6) • E31 G Y D3 t := by
    by_cases hc : 4 ≤ p
    · rw [ho.o41 hc]; simpa using UO.zero
    · exact (h31.smul _).term 4 (by omega)
  have w42 : UO a e (p + 1) fun t h => h ^ 4 • (q.dot (fun i => q.c i * q.row q.c i) - 1 / 8) • E32 G Y D1 D2 t := by
    by_cases hc : 4 ≤ p
    · rw [ho.o42 hc]; simpa using UO.zero
    · exact (h32.smul _).term 4 (by omega)
  have w43 : UO a e (p + 1) fun t h => h ^ 4 • ((q.dot (q.row fun j => q.c j ^ 2) - 1 / 12) / 2) • E33 G Y D1 D2 t := by
    by_cases hc : 4 ≤ p
    · rw [ho.o43 hc]; simpa using UO.zero
    · exact (h33.smul _).term 4 (by omega)
  have w44 : UO a e (p + 1) fun t h => h ^ 4 • (q.dot (q.row (q.row q.c)) - 1 / 24) • E34 G Y D1 t := by
    by_cases hc : 4 ≤ p
    · rw [ho.o44 hc]; simpa using UO.zero
    · exact (h34.smul _).term 4 (by omega)
  have hx := exact_expansion J
  refine ((((((((((hs.mono (by omega)).sub (hx.mono (by omega))).add w1).add w2).add w31).add w32).add w41).add w42).add w43).add w44).congr fun t h => ?_
  have e0 : ∑ i ∈ Finset.range q.s, q.b i • E0 G Y t = q.dot (fun _ => 1) • E0 G Y t := by
    rw [← dot_sum]; exact Finset.sum_congr rfl fun j _ => by rw [one_smul]
  have e1 : ∑ i ∈ Finset.range q.s, q.b i • h • q.c i • E1 G Y D1 t = h • q.dot q.c • E1 G Y D1 t := by
    rw [← dot_sum, Finset.smul_sum]
    exact Finset.sum_congr rfl fun j _ => smul_comm _ _ _
  have hdiv : ∀ (w : ℕ → ℝ) (r : ℝ), q.dot (fun i => w i / r) = q.dot w / r := fun w r => by
    unfold Coef.dot
    rw [Finset.sum_div]
    exact Finset.sum_congr rfl fun j _ => by ring
  have e2 : ∑ i ∈ Finset.range q.s, q.b i • h ^ 2 • duo q G Y D1 D2 i t =
      h ^ 2 • ((q.dot (fun i => q.c i ^ 2) / 2) • E21 G Y D2 t + q.dot (q.row q.c) • E22 G Y D1 t) := by
    rw [← hdiv, ← dot_sum, ← dot_sum, ← Finset.sum_add_distrib, Finset.smul_sum]
    refine Finset.sum_congr rfl fun j _ => ?_
    rw [smul_comm, ← smul_add]
    rfl
  have e3 : ∑ i ∈ Finset.range q.s, q.b i • h ^ 3 • tri q G Y D1 D2 D3 i t =
      h ^ 3 • ((q.dot (fun i => q.c i ^ 3) / 6) • E31 G Y D3 t + q.dot (fun i => q.c i * q.row q.c i) • E32 G Y D1 D2 t +
        (q.dot (q.row fun j => q.c j ^ 2) / 2) • E33 G Y D1 D2 t + q.dot (q.row (q.row q.c)) • E34 G Y D1 t) := by
    rw [← hdiv, ← hdiv, ← dot_sum, ← dot_sum, ← dot_sum, ← dot_sum, ← Finset.sum_add_distrib, ← Finset.sum_add_distrib, ← Finset.sum_add_distrib,
      Finset.smul_sum]
    refine Finset.sum_congr rfl fun j _ => ?_
    rw [smul_comm, ← smul_add, ← smul_add, ← smul_add]
    rfl
  have e4 : ∑ i ∈ Finset.range q.s, q.b i • (stage q (fun _ x => G x) t (Y t) h i -
      (E0 G Y t + h • q.c i • E1 G Y D1 t + h ^ 2 • duo q G Y D1 D2 i t + h ^ 3 • tri q G Y D1 D2 D3 i t)) =
      incr q (fun _ x => G x) t (Y t) h - (∑ i ∈ Finset.range q.s, q.b i • E0 G Y t + ∑ i ∈ Finset.range q.s, q.b i • h • q.c i • E1 G Y D1 t +
        ∑ i ∈ Finset.range q.s, q.b i • h ^ 2 • duo q G Y D1 D2 i t + ∑ i ∈ Finset.range q.s, q.b i • h ^ 3 • tri q G Y D1 D2 D3 i t) := by
    unfold incr
    rw [← Finset.sum_add_distrib, ← Finset.sum_add_distrib, ← Finset.sum_add_distrib, ← Finset.sum_sub_distrib]
    exact Finset.sum_congr rfl fun j _ => by rw [← smul_add, ← smul_add, ← smul_add, ← smul_sub]
  rw [e4, e0, e1, e2, e3]
  unfold rk
  module

end stages

end Mapleaf.Motion.Lim
