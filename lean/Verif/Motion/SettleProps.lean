import Verif.Motion.LimitClaims
import Verif.Motion.BodyStepProps

/-! # C101, general part: Runge-Kutta steps towards a point of rest

A body whose acceleration pulls its velocity towards `c`, up to a disturbance of at most `δ`: steps of all fixed-step methods. -/

namespace Mapleaf.Motion.Settle
open Mapleaf.Motion.Lim Set

variable {E : Type} [NormedAddCommGroup E] [NormedSpace ℝ E]

/-- What is needed of the motion: velocity changes by `f` and a disturbance, of at most `δ` at places within 1 of `p`. -/
structure Pulled (F : ℝ → E × E → E × E) (f : E → E) (c : E) (p : E) (t δ L κ M r : ℝ) : Prop where
  vel : ∀ u x, (F u x).1 = x.2
  acc : ∀ u x, t ≤ u → ‖x.1 - p‖ ≤ 1 → ‖(F u x).2 - f x.2‖ ≤ δ
  rest : f c = 0
  lip : ∀ x z, ‖x - c‖ ≤ 2 * r + 1 → ‖z - c‖ ≤ 2 * r + 1 → ‖f x - f z‖ ≤ L * ‖x - z‖
  pull : ∀ x, ‖x - c‖ ≤ r → ∀ s, 0 ≤ s → ‖x + s • f x - c‖ ≤ (1 - s * κ + s ^ 2 * M) * ‖x - c‖
  hδ : 0 ≤ δ
  hL : 0 ≤ L
  hr : 0 ≤ r

variable {F : ℝ → E × E → E × E} {f : E → E} {c p v : E} {t δ L κ M r R h : ℝ}

theorem sum_fst (i : ℕ) (w : ℕ → ℝ) (u : ℕ → E × E) : (∑ j ∈ Finset.range i, w j • u j).1 = ∑ j ∈ Finset.range i, w j • (u j).1 := by
  rw [Prod.fst_sum]; rfl

theorem sum_snd (i : ℕ) (w : ℕ → ℝ) (u : ℕ → E × E) : (∑ j ∈ Finset.range i, w j • u j).2 = ∑ j ∈ Finset.range i, w j • (u j).2 := by
  rw [Prod.snd_sum]; rfl

/-- The stages of a short step stay near. -/
theorem stage_near (H : Pulled F f c p t δ L κ M r) (q : Coef) (hR : 0 ≤ R) (hq : q.Bounded R) (h0 : 0 ≤ h) (h1 : h * (q.s * R * (2 * L)) ≤ 1)
    (h2 : h * (q.s * R * (2 * δ)) ≤ 1) (h3 : h * (q.s * R * (‖c‖ + 2 * r + 1)) ≤ 1) (hv : ‖v - c‖ ≤ r) (i : ℕ) (hi : i ≤ q.s) :
    ‖(point q F t (p, v) h i).1 - p‖ ≤ 1 ∧ ‖(point q F t (p, v) h i).2 - v‖ ≤ 2 * h * (q.s * R * (L * ‖v - c‖ + δ)) ∧
    ‖(point q F t (p, v) h i).2 - c‖ ≤ 2 * r + 1 ∧ ‖(stage q F t (p, v) h i).2 - f v‖ ≤ L * (2 * h * (q.s * R * (L * ‖v - c‖ + δ))) + δ := by
  induction i using Nat.strong_induction_on with
  | _ i ih =>
    have hd := norm_nonneg (v - c)
    have hsR : 0 ≤ (q.s : ℝ) * R := mul_nonneg (Nat.cast_nonneg _) hR
    have hLd : 0 ≤ L * ‖v - c‖ := mul_nonneg H.hL hd
    set D := L * ‖v - c‖ + δ with hD
    have hD0 : 0 ≤ D := add_nonneg hLd H.hδ
    have near : ∀ x : E, ‖x - v‖ ≤ 2 * h * (q.s * R * D) → ‖x - c‖ ≤ 2 * r + 1 := by
      intro x hx
      have e1 : ‖x - c‖ ≤ ‖x - v‖ + ‖v - c‖ := norm_sub_le_norm_sub_add_norm_sub _ _ _
      have e2 : 2 * h * (q.s * R * D) = h * (q.s * R * (2 * L)) * ‖v - c‖ + h * (q.s * R * (2 * δ)) := by rw [hD]; ring
      have e3 : h * (q.s * R * (2 * L)) * ‖v - c‖ ≤ 1 * ‖v - c‖ := mul_le_mul_of_nonneg_right h1 hd
      linarith
    have hfv : ‖f v‖ ≤ L * ‖v - c‖ := by
      have := H.lip v c (near v (by rw [sub_self, norm_zero]; positivity)) (by rw [sub_self, norm_zero]; linarith [H.hr])
      rwa [H.rest, sub_zero] at this
    have hpos : ‖(point q F t (p, v) h i).1 - p‖ ≤ 1 := by
      have hs : ∀ j < i, ‖(stage q F t (p, v) h j).1‖ ≤ ‖c‖ + 2 * r + 1 := by
        intro j hj
        rw [stage_point, H.vel]
        have := (ih j hj (by omega)).2.2.1
        have e : ‖(point q F t (p, v) h j).2‖ ≤ ‖(point q F t (p, v) h j).2 - c‖ + ‖c‖ := by
          simpa using norm_add_le ((point q F t (p, v) h j).2 - c) c
        linarith
      have := sum_le_card (u := fun j => (stage q F t (p, v) h j).1) (w := q.A i) hi hR (by linarith [norm_nonneg c, H.hr]) (hq.A i) hs
      unfold point
      change ‖p + h • (∑ j ∈ Finset.range i, q.A i j • stage q F t (p, v) h j).1 - p‖ ≤ 1
      rw [sum_fst, add_sub_cancel_left, norm_smul, Real.norm_eq_abs, abs_of_nonneg h0]
      exact (mul_le_mul_of_nonneg_left this h0).trans h3
    have hvel : ‖(point q F t (p, v) h i).2 - v‖ ≤ 2 * h * (q.s * R * D) := by
      have hs : ∀ j < i, ‖(stage q F t (p, v) h j).2‖ ≤ 2 * D := by
        intro j hj
        have := (ih j hj (by omega)).2.2.2
        have e : ‖(stage q F t (p, v) h j).2‖ ≤ ‖(stage q F t (p, v) h j).2 - f v‖ + ‖f v‖ := by
          simpa using norm_add_le ((stage q F t (p, v) h j).2 - f v) (f v)
        have e2 : L * (2 * h * (q.s * R * D)) = h * (q.s * R * (2 * L)) * D := by ring
        have e3 : h * (q.s * R * (2 * L)) * D ≤ 1 * D := mul_le_mul_of_nonneg_right h1 hD0
        linarith
      have := sum_le_card (u := fun j => (stage q F t (p, v) h j).2) (w := q.A i) hi hR (by linarith) (hq.A i) hs
      unfold point
      change ‖v + h • (∑ j ∈ Finset.range i, q.A i j • stage q F t (p, v) h j).2 - v‖ ≤ _
      rw [sum_snd, add_sub_cancel_left, norm_smul, Real.norm_eq_abs, abs_of_nonneg h0]
      refine (mul_le_mul_of_nonneg_left this h0).trans (le_of_eq ?_)
      ring
    refine ⟨hpos, hvel, near _ hvel, ?_⟩
    rw [stage_point]
    have e1 := H.acc (t + h * q.c i) (point q F t (p, v) h i) (by have := mul_nonneg h0 (hq.c i).1; linarith) hpos
    have e2 := H.lip _ v (near _ hvel) (near v (by rw [sub_self, norm_zero]; positivity))
    have e3 : L * ‖(point q F t (p, v) h i).2 - v‖ ≤ L * (2 * h * (q.s * R * D)) := mul_le_mul_of_nonneg_left hvel H.hL
    have e4 := norm_sub_le_norm_sub_add_norm_sub (F (t + h * q.c i) (point q F t (p, v) h i)).2 (f (point q F t (p, v) h i).2) (f v)
    linarith

/-- One short step brings the velocity nearer to `c`. -/
theorem step_near (H : Pulled F f c p t δ L κ M r) (q : Coef) (hR : 0 ≤ R) (hq : q.Bounded R) (hβ : 0 ≤ ∑ i ∈ Finset.range q.s, q.b i)
    (h0 : 0 ≤ h) (h1 : h * (q.s * R * (2 * L)) ≤ 1)
    (h2 : h * (q.s * R * (2 * δ)) ≤ 1) (h3 : h * (q.s * R * (‖c‖ + 2 * r + 1)) ≤ 1)
    (h4 : h * ((∑ i ∈ Finset.range q.s, q.b i) ^ 2 * M + 2 * (q.s * R * L) ^ 2) ≤ (∑ i ∈ Finset.range q.s, q.b i) * κ / 2) (hv : ‖v - c‖ ≤ r) :
    ‖(rk q F t (p, v) h).2 - c‖ ≤ (1 - h * ((∑ i ∈ Finset.range q.s, q.b i) * κ / 2)) * ‖v - c‖ + h * (2 * (q.s * R) * δ) := by
  set β := ∑ i ∈ Finset.range q.s, q.b i with hβd
  have hd := norm_nonneg (v - c)
  have hsR : 0 ≤ (q.s : ℝ) * R := mul_nonneg (Nat.cast_nonneg _) hR
  set D := L * ‖v - c‖ + δ with hD
  have hD0 : 0 ≤ D := add_nonneg (mul_nonneg H.hL hd) H.hδ
  have hK : 0 ≤ L * (2 * h * (q.s * R * D)) + δ := by
    have := H.hL; have := H.hδ
    positivity
  have key : ‖(incr q F t (p, v) h).2 - β • f v‖ ≤ q.s * R * (L * (2 * h * (q.s * R * D)) + δ) := by
    have hs := sum_le_card (s := q.s) (u := fun i => (stage q F t (p, v) h i).2 - f v) (w := q.b) le_rfl hR hK hq.b
      (fun i hi => (stage_near H q hR hq h0 h1 h2 h3 hv i hi.le).2.2.2)
    unfold incr
    rw [sum_snd, hβd, Finset.sum_smul, ← Finset.sum_sub_distrib]
    simpa only [smul_sub] using hs
  have e1 := H.pull v hv (h * β) (mul_nonneg h0 hβ)
  have e2 : (rk q F t (p, v) h).2 - c = (v + (h * β) • f v - c) + h • ((incr q F t (p, v) h).2 - β • f v) := by
    unfold rk
    change v + h • (incr q F t (p, v) h).2 - c = _
    rw [smul_sub, smul_smul]
    abel
  rw [e2]
  refine (norm_add_le _ _).trans ?_
  rw [norm_smul, Real.norm_eq_abs, abs_of_nonneg h0]
  have e3 := mul_le_mul_of_nonneg_left key h0
  have e4 : h * (q.s * R * (L * (2 * h * (q.s * R * D)) + δ)) =
      h * (h * (2 * (q.s * R * L) ^ 2)) * ‖v - c‖ + h * (q.s * R * δ) * (h * (q.s * R * (2 * L)) + 1) := by rw [hD]; ring
  have e5 : h * (q.s * R * δ) * (h * (q.s * R * (2 * L)) + 1) ≤ h * (q.s * R * δ) * 2 :=
    mul_le_mul_of_nonneg_left (by linarith) (mul_nonneg h0 (mul_nonneg hsR H.hδ))
  have e6 : h * (h * (β ^ 2 * M + 2 * (q.s * R * L) ^ 2)) * ‖v - c‖ ≤ h * (β * κ / 2) * ‖v - c‖ :=
    mul_le_mul_of_nonneg_right (mul_le_mul_of_nonneg_left h4 h0) hd
  have e7 : (1 - h * β * κ + (h * β) ^ 2 * M) * ‖v - c‖ + h * (h * (2 * (q.s * R * L) ^ 2)) * ‖v - c‖ =
      (1 - h * β * κ) * ‖v - c‖ + h * (h * (β ^ 2 * M + 2 * (q.s * R * L) ^ 2)) * ‖v - c‖ := by ring
  have e8 : (1 - h * β * κ) * ‖v - c‖ + h * (β * κ / 2) * ‖v - c‖ = (1 - h * (β * κ / 2)) * ‖v - c‖ := by ring
  linarith

end Mapleaf.Motion.Settle
