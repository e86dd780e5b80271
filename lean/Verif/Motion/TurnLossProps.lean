import Verif.Motion.TurnRigidProps

/-! # C94: the third-order defect of the 3/8 rule on tumbling bodies -/

namespace Mapleaf.Motion.Turn
open Set Mapleaf.Motion.Lim Mapleaf.Motion.RK Mapleaf.Motion.Body Mapleaf Filter Topology Asymptotics
open NormedSpace (exp)

section expand
variable {A : Type} [NormedRing A] [NormedAlgebra ℝ A] [CompleteSpace A] {R : ℝ} {a₁ : A}

/-- small steps `h`, and elements of norm at most `R` -/
def small (A : Type) [NormedRing A] (R : ℝ) : Filter (ℝ × A) := 𝓝 0 ×ˢ 𝓟 {a | ‖a‖ ≤ R}

/-- `f` is of order `hⁿ`, uniformly for elements of norm at most `R` -/
def Ord (R : ℝ) (n : ℕ) (f : ℝ × A → A) : Prop := f =O[small A R] fun p => p.1 ^ n

theorem Ord.add {n : ℕ} {f g : ℝ × A → A} (hf : Ord R n f) (hg : Ord R n g) : Ord R n (fun p => f p + g p) := IsBigO.add hf hg
theorem Ord.sub {n : ℕ} {f g : ℝ × A → A} (hf : Ord R n f) (hg : Ord R n g) : Ord R n (fun p => f p - g p) := IsBigO.sub hf hg

theorem Ord.smul {n : ℕ} {f : ℝ × A → A} (k : ℝ) (hf : Ord R n f) : Ord R n (fun p => k • f p) := IsBigO.const_smul_left hf k

theorem Ord.mul {n m : ℕ} {f g : ℝ × A → A} (hf : Ord R n f) (hg : Ord R m g) : Ord R (n + m) (fun p => f p * g p) := by
  have := IsBigO.mul hf hg
  unfold Ord
  simpa only [pow_add] using this

theorem small_fst : Tendsto (fun p : ℝ × A => p.1) (small A R) (𝓝 0) := tendsto_fst

theorem Ord.mono {n m : ℕ} (h : m ≤ n) {f : ℝ × A → A} (hf : Ord R n f) : Ord R m f := by
  refine IsBigO.trans hf ?_
  obtain ⟨k, rfl⟩ := Nat.exists_eq_add_of_le h
  have h1 : (fun p : ℝ × A => p.1 ^ k) =O[small A R] fun _ => (1 : ℝ) := (small_fst.pow k).isBigO_one ℝ
  have := (isBigO_refl (fun p : ℝ × A => p.1 ^ m) (small A R)).mul h1
  simpa only [pow_add, mul_one] using this

theorem Ord.step {n : ℕ} {f : ℝ × A → A} (k : ℕ) (c : ℝ) (hf : Ord R n f) : Ord R (k + n) (fun p => (c * p.1 ^ k) • f p) := by
  have h1 : (fun p : ℝ × A => c * p.1 ^ k) =O[small A R] fun p => p.1 ^ k := (isBigO_refl _ _).const_mul_left c
  have := IsBigO.smul h1 hf
  unfold Ord
  simpa only [pow_add, smul_eq_mul] using this

theorem ord_const (c : A) : Ord R 0 (fun _ : ℝ × A => c) := by
  unfold Ord
  simpa using isBigO_const_const c (one_ne_zero (α := ℝ)) (small A R)

theorem ord_el : Ord R 0 (fun p : ℝ × A => p.2) := by
  unfold Ord
  refine IsBigO.of_bound R ?_
  unfold small
  rw [eventually_prod_principal_iff]
  filter_upwards with x a ha
  simpa using ha

theorem Ord.congr {n : ℕ} {f g : ℝ × A → A} (hf : Ord R n f) (h : ∀ p, g p = f p) : Ord R n g := by
  rwa [show g = f from funext h]

/-- what `Ord` says -/
theorem Ord.bound {n : ℕ} {f : ℝ × A → A} (hf : Ord R n f) : ∃ C η : ℝ, 0 ≤ C ∧ 0 < η ∧ ∀ h, 0 ≤ h → h ≤ η → ∀ a : A, ‖a‖ ≤ R → ‖f (h, a)‖ ≤ C * h ^ n := by
  obtain ⟨C, hC, h⟩ := hf.exists_nonneg
  have h := h.bound
  unfold small at h
  rw [eventually_prod_principal_iff, Metric.nhds_basis_closedBall.eventually_iff] at h
  obtain ⟨η, hη, h⟩ := h
  refine ⟨C, η, hC, hη, fun x h0 hx a ha => ?_⟩
  have := h (x := x) (by simpa [abs_of_nonneg h0] using hx) a ha
  simpa [abs_of_nonneg h0] using this

theorem ord_exp (n : ℕ) {x : ℝ × A → A} (hx : Ord R 1 x) : Ord R n (fun p => exp (x p) - (NormedSpace.expSeries ℝ A).partialSum n (x p)) := by
  have h := (NormedSpace.exp_hasFPowerSeriesAt_zero (𝕂 := ℝ) (𝔸 := A)).isBigO_sub_partialSum_pow n
  have hx0 : Tendsto x (small A R) (𝓝 0) := by
    refine IsBigO.trans_tendsto hx ?_
    simpa using (small_fst (A := A) (R := R)).pow 1
  have h2 := h.comp_tendsto hx0
  simp only [Function.comp_def, zero_add] at h2
  refine h2.trans ?_
  have := IsBigO.pow hx.norm_left n
  simpa using this

/-- conjugation by an exponential -/
noncomputable def cj (x b : A) : A := exp x * b * exp (-x)

/-- Conjugation by a small element that nearly commutes. -/
theorem ord_cj {x b : ℝ × A → A} (hx : Ord R 1 x) (hb : Ord R 0 b) (hc : Ord R 2 (fun p => x p * b p - b p * x p)) :
    Ord R 3 (fun p => cj (x p) (b p) - (b p + (x p * b p - b p * x p))) := by
  have hxn : Ord R 1 (fun p => -x p) := (hx.smul (-1)).congr fun p => by simp
  have r1 := ord_exp 3 hx
  have r2 := ord_exp 3 hxn
  simp only [exp_partial_three] at r1 r2
  have e2 : Ord R 0 (fun p => exp (-x p)) := by
    have := ((r2.mono (Nat.zero_le 3)).add (ord_const (R := R) (1 : A))).add
      ((hxn.mono (Nat.zero_le 1)).add (((hxn.mul hxn).smul (1 / 2)).mono (Nat.zero_le 2)))
    exact this.congr fun p => by simp only [neg_mul_neg]; abel
  have P : Ord R 0 (fun p => 1 + x p + (1 / 2 : ℝ) • (x p * x p)) :=
    ((ord_const (1 : A)).add (hx.mono (Nat.zero_le 1))).add (((hx.mul hx).smul (1 / 2)).mono (Nat.zero_le 2))
  have t1 := (r1.mul hb).mul e2
  have t2 := (P.mul hb).mul r2
  have t3 := (((hx.mul hc).sub (hc.mul hx)).smul (1 / 2))
  have t4 := ((((hx.mul hb).mul (hx.mul hx)).smul (1 / 2)).sub ((((hx.mul hx).mul hb).mul hx).smul (1 / 2)))
  have t5 := (((((hx.mul hx).mul hb).mul (hx.mul hx)).smul (1 / 4))).mono (show 3 ≤ 1 + 1 + 0 + (1 + 1) by norm_num)
  refine ((((t1.add t2).add t3).add t4).add t5).congr fun p => ?_
  generalize x p = x; generalize b p = b
  unfold cj
  generalize exp x = e; generalize exp (-x) = e'
  simp only [mul_add, add_mul, mul_sub, sub_mul, mul_smul_comm, smul_mul_assoc, mul_one, one_mul, mul_assoc, neg_mul, mul_neg, smul_sub, smul_smul, neg_neg]
  module

/-! ## The stages of the 3/8 rule -/

/-- the angular velocities (halved, in the body frame of the start) at the stages, for a body whose halved angular velocity is `a + s a₁` -/
noncomputable def s2 (a₁ : A) (p : ℝ × A) : A := cj ((p.1 / 3) • p.2) (p.2 + (p.1 / 3) • a₁)
noncomputable def s3 (a₁ : A) (p : ℝ × A) : A := cj (p.1 • ((-(1 / 3) : ℝ) • p.2 + s2 a₁ p)) (p.2 + (p.1 * (2 / 3)) • a₁)
noncomputable def s4 (a₁ : A) (p : ℝ × A) : A := cj (p.1 • (p.2 - s2 a₁ p + s3 a₁ p)) (p.2 + p.1 • a₁)
noncomputable def turn38 (a₁ : A) (p : ℝ × A) : A :=
  exp (p.1 • ((1 / 8 : ℝ) • p.2 + (3 / 8 : ℝ) • s2 a₁ p + (3 / 8 : ℝ) • s3 a₁ p + (1 / 8 : ℝ) • s4 a₁ p))

theorem ord_c : Ord R 0 (fun p : ℝ × A => p.2 * a₁ - a₁ * p.2) := (ord_el.mul (ord_const a₁)).sub ((ord_const a₁).mul ord_el)

theorem ord_s2 : Ord R 3 (fun p => s2 a₁ p - (p.2 + (p.1 / 3) • a₁ + (p.1 ^ 2 / 9) • (p.2 * a₁ - a₁ * p.2))) := by
  have hx : Ord R 1 (fun p : ℝ × A => (p.1 / 3) • p.2) := (ord_el.step 1 (1 / 3)).congr fun p => by congr 1; ring
  have hb : Ord R 0 (fun p : ℝ × A => p.2 + (p.1 / 3) • a₁) :=
    ord_el.add ((((ord_const a₁).step 1 (1 / 3)).mono (Nat.zero_le _)).congr fun p => by congr 1; ring)
  have e : ∀ p : ℝ × A, (p.1 / 3) • p.2 * (p.2 + (p.1 / 3) • a₁) - (p.2 + (p.1 / 3) • a₁) * (p.1 / 3) • p.2 = (p.1 ^ 2 / 9) • (p.2 * a₁ - a₁ * p.2) := by
    intro p
    simp only [mul_add, add_mul, mul_smul_comm, smul_mul_assoc, smul_smul]
    module
  have hc : Ord R 2 (fun p : ℝ × A => (p.1 / 3) • p.2 * (p.2 + (p.1 / 3) • a₁) - (p.2 + (p.1 / 3) • a₁) * (p.1 / 3) • p.2) :=
    (ord_c.step 2 (1 / 9)).congr fun p => by rw [e]; congr 1; ring
  refine (ord_cj hx hb hc).congr fun p => ?_
  rw [e]; rfl

theorem ord_s3 : Ord R 3 (fun p => s3 a₁ p - (p.2 + (p.1 * (2 / 3)) • a₁ + (p.1 ^ 2 / 9) • (p.2 * a₁ - a₁ * p.2))) := by
  have r := ord_s2 (A := A) (R := R) (a₁ := a₁)
  have hc0 := ord_c (A := A) (R := R) (a₁ := a₁)
  have hxe : ∀ p : ℝ × A, p.1 • ((-(1 / 3) : ℝ) • p.2 + s2 a₁ p) = (p.1 * (2 / 3)) • p.2 + (p.1 ^ 2 / 3) • a₁ +
      ((1 / 9 * p.1 ^ 3) • (p.2 * a₁ - a₁ * p.2) + (1 * p.1 ^ 1) • (s2 a₁ p - (p.2 + (p.1 / 3) • a₁ + (p.1 ^ 2 / 9) • (p.2 * a₁ - a₁ * p.2)))) := by
    intro p; module
  set z : ℝ × A → A := fun p => (1 / 9 * p.1 ^ 3) • (p.2 * a₁ - a₁ * p.2) + (1 * p.1 ^ 1) • (s2 a₁ p - (p.2 + (p.1 / 3) • a₁ + (p.1 ^ 2 / 9) • (p.2 * a₁ - a₁ * p.2))) with hz
  have oz : Ord R 3 z := (hc0.step 3 (1 / 9)).add ((r.step 1 1).mono (by norm_num))
  have hx : Ord R 1 (fun p : ℝ × A => (p.1 * (2 / 3)) • p.2 + (p.1 ^ 2 / 3) • a₁ + z p) :=
    (((ord_el.step 1 (2 / 3)).congr fun p => by congr 1; ring).add ((((ord_const a₁).step 2 (1 / 3)).mono (by norm_num)).congr fun p => by congr 1; ring)).add
      (oz.mono (by norm_num))
  have hb : Ord R 0 (fun p : ℝ × A => p.2 + (p.1 * (2 / 3)) • a₁) :=
    ord_el.add ((((ord_const a₁).step 1 (2 / 3)).mono (Nat.zero_le _)).congr fun p => by congr 1; ring)
  have e : ∀ p : ℝ × A, ((p.1 * (2 / 3)) • p.2 + (p.1 ^ 2 / 3) • a₁ + z p) * (p.2 + (p.1 * (2 / 3)) • a₁) -
      (p.2 + (p.1 * (2 / 3)) • a₁) * ((p.1 * (2 / 3)) • p.2 + (p.1 ^ 2 / 3) • a₁ + z p) = (p.1 ^ 2 / 9) • (p.2 * a₁ - a₁ * p.2) +
      (z p * (p.2 + (p.1 * (2 / 3)) • a₁) - (p.2 + (p.1 * (2 / 3)) • a₁) * z p) := by
    intro p
    generalize z p = z
    simp only [mul_add, add_mul, mul_smul_comm, smul_mul_assoc, smul_smul]
    module
  have oz2 : Ord R 3 (fun p : ℝ × A => z p * (p.2 + (p.1 * (2 / 3)) • a₁) - (p.2 + (p.1 * (2 / 3)) • a₁) * z p) := (oz.mul hb).sub ((hb.mul oz).mono (by norm_num))
  have hc : Ord R 2 (fun p : ℝ × A => ((p.1 * (2 / 3)) • p.2 + (p.1 ^ 2 / 3) • a₁ + z p) * (p.2 + (p.1 * (2 / 3)) • a₁) -
      (p.2 + (p.1 * (2 / 3)) • a₁) * ((p.1 * (2 / 3)) • p.2 + (p.1 ^ 2 / 3) • a₁ + z p)) :=
    (((hc0.step 2 (1 / 9)).add (oz2.mono (by norm_num)))).congr fun p => by rw [e]; congr 2; ring
  refine ((ord_cj hx hb hc).add oz2).congr fun p => ?_
  rw [e]
  unfold s3
  rw [hxe]
  simp only [hz]
  abel

theorem ord_s4 : Ord R 3 (fun p => s4 a₁ p - (p.2 + p.1 • a₁ + (p.1 ^ 2 * (2 / 3)) • (p.2 * a₁ - a₁ * p.2))) := by
  have r2 := ord_s2 (A := A) (R := R) (a₁ := a₁)
  have r3 := ord_s3 (A := A) (R := R) (a₁ := a₁)
  have hc0 := ord_c (A := A) (R := R) (a₁ := a₁)
  set z : ℝ × A → A := fun p => (1 * p.1 ^ 1) • ((s3 a₁ p - (p.2 + (p.1 * (2 / 3)) • a₁ + (p.1 ^ 2 / 9) • (p.2 * a₁ - a₁ * p.2))) -
    (s2 a₁ p - (p.2 + (p.1 / 3) • a₁ + (p.1 ^ 2 / 9) • (p.2 * a₁ - a₁ * p.2)))) with hz
  have hxe : ∀ p : ℝ × A, p.1 • (p.2 - s2 a₁ p + s3 a₁ p) = p.1 • p.2 + (p.1 ^ 2 / 3) • a₁ + z p := by
    intro p; simp only [hz]; module
  have oz : Ord R 3 z := ((r3.sub r2).step 1 1).mono (by norm_num)
  have hx : Ord R 1 (fun p : ℝ × A => p.1 • p.2 + (p.1 ^ 2 / 3) • a₁ + z p) :=
    (((ord_el.step 1 1).congr fun p => by congr 1; ring).add ((((ord_const a₁).step 2 (1 / 3)).mono (by norm_num)).congr fun p => by congr 1; ring)).add
      (oz.mono (by norm_num))
  have hb : Ord R 0 (fun p : ℝ × A => p.2 + p.1 • a₁) :=
    ord_el.add ((((ord_const a₁).step 1 1).mono (Nat.zero_le _)).congr fun p => by congr 1; ring)
  have e : ∀ p : ℝ × A, (p.1 • p.2 + (p.1 ^ 2 / 3) • a₁ + z p) * (p.2 + p.1 • a₁) -
      (p.2 + p.1 • a₁) * (p.1 • p.2 + (p.1 ^ 2 / 3) • a₁ + z p) = (p.1 ^ 2 * (2 / 3)) • (p.2 * a₁ - a₁ * p.2) +
      (z p * (p.2 + p.1 • a₁) - (p.2 + p.1 • a₁) * z p) := by
    intro p
    generalize z p = z
    simp only [mul_add, add_mul, mul_smul_comm, smul_mul_assoc, smul_smul]
    module
  have oz2 : Ord R 3 (fun p : ℝ × A => z p * (p.2 + p.1 • a₁) - (p.2 + p.1 • a₁) * z p) := (oz.mul hb).sub ((hb.mul oz).mono (by norm_num))
  have hc : Ord R 2 (fun p : ℝ × A => (p.1 • p.2 + (p.1 ^ 2 / 3) • a₁ + z p) * (p.2 + p.1 • a₁) - (p.2 + p.1 • a₁) * (p.1 • p.2 + (p.1 ^ 2 / 3) • a₁ + z p)) :=
    (((hc0.step 2 (2 / 3)).add (oz2.mono (by norm_num)))).congr fun p => by rw [e]; congr 2; ring
  refine ((ord_cj hx hb hc).add oz2).congr fun p => ?_
  rw [e]
  unfold s4
  rw [hxe]
  abel

/-- The turn of one step of the 3/8 rule, to third order. -/
theorem ord_turn38 : Ord R 4 (fun p => turn38 a₁ p - (1 + p.1 • p.2 + (p.1 ^ 2 / 2) • (p.2 * p.2 + a₁) +
    (p.1 ^ 3 / 6) • (p.2 * p.2 * p.2 + a₁ * p.2 + (2 : ℝ) • (p.2 * a₁)) + (p.1 ^ 3 / 12) • (p.2 * a₁ - a₁ * p.2))) := by
  have r2 := ord_s2 (A := A) (R := R) (a₁ := a₁)
  have r3 := ord_s3 (A := A) (R := R) (a₁ := a₁)
  have r4 := ord_s4 (A := A) (R := R) (a₁ := a₁)
  have hc0 := ord_c (A := A) (R := R) (a₁ := a₁)
  set z : ℝ × A → A := fun p => (1 * p.1 ^ 1) • (((3 / 8 : ℝ) • (s2 a₁ p - (p.2 + (p.1 / 3) • a₁ + (p.1 ^ 2 / 9) • (p.2 * a₁ - a₁ * p.2))) +
    (3 / 8 : ℝ) • (s3 a₁ p - (p.2 + (p.1 * (2 / 3)) • a₁ + (p.1 ^ 2 / 9) • (p.2 * a₁ - a₁ * p.2)))) +
    (1 / 8 : ℝ) • (s4 a₁ p - (p.2 + p.1 • a₁ + (p.1 ^ 2 * (2 / 3)) • (p.2 * a₁ - a₁ * p.2)))) with hz
  have oz : Ord R 4 z := (((r2.smul (3 / 8)).add (r3.smul (3 / 8))).add (r4.smul (1 / 8))).step 1 1
  set w : ℝ × A → A := fun p => (1 / 6 * p.1 ^ 3) • (p.2 * a₁ - a₁ * p.2) + z p with hw
  have ow : Ord R 3 w := (hc0.step 3 (1 / 6)).add (oz.mono (by norm_num))
  have hue : ∀ p : ℝ × A, p.1 • ((1 / 8 : ℝ) • p.2 + (3 / 8 : ℝ) • s2 a₁ p + (3 / 8 : ℝ) • s3 a₁ p + (1 / 8 : ℝ) • s4 a₁ p) =
      p.1 • p.2 + (p.1 ^ 2 / 2) • a₁ + w p := by
    intro p; simp only [hw, hz]; module
  have v1 : Ord R 1 (fun p : ℝ × A => p.1 • p.2) := (ord_el.step 1 1).congr fun p => by congr 1; ring
  have v2 : Ord R 2 (fun p : ℝ × A => (p.1 ^ 2 / 2) • a₁) := ((ord_const a₁).step 2 (1 / 2)).congr fun p => by congr 1; ring
  have hu : Ord R 1 (fun p : ℝ × A => p.1 • p.2 + (p.1 ^ 2 / 2) • a₁ + w p) := (v1.add (v2.mono (by norm_num))).add (ow.mono (by norm_num))
  have r := ord_exp 4 hu
  simp only [exp_partial_four] at r
  have y2 : Ord R 2 (fun p : ℝ × A => (p.1 ^ 2 / 2) • a₁ + w p) := v2.add (ow.mono (by norm_num))
  -- the parts of the square and the cube that are of fourth order
  have q1 := ((v1.mul ow).add (((ow.mul v1).mono (show 4 ≤ 3 + 1 by norm_num)))).smul (1 / 2)
  have q2 := (y2.mul y2).smul (1 / 2)
  have c1 := ((y2.mul v1).mul v1).smul (1 / 6)
  have c2 := ((v1.mul y2).mul v1).smul (1 / 6)
  have c3 := ((v1.mul v1).mul y2).smul (1 / 6)
  have c4 := (((v1.mul y2).mul y2).mono (show 4 ≤ 1 + 2 + 2 by norm_num)).smul (1 / 6)
  have c5 := (((y2.mul v1).mul y2).mono (show 4 ≤ 2 + 1 + 2 by norm_num)).smul (1 / 6)
  have c6 := (((y2.mul y2).mul v1).mono (show 4 ≤ 2 + 2 + 1 by norm_num)).smul (1 / 6)
  have c7 := (((y2.mul y2).mul y2).mono (show 4 ≤ 2 + 2 + 2 by norm_num)).smul (1 / 6)
  refine (r.add (oz.add (q1.add (q2.add (c1.add (c2.add (c3.add (c4.add (c5.add (c6.add c7)))))))))).congr fun p => ?_
  unfold turn38
  rw [hue]
  simp only [hw]
  generalize z p = z
  generalize exp (p.1 • p.2 + (p.1 ^ 2 / 2) • a₁ + ((1 / 6 * p.1 ^ 3) • (p.2 * a₁ - a₁ * p.2) + z)) = E
  simp only [mul_add, add_mul, mul_sub, sub_mul, mul_smul_comm, smul_mul_assoc, smul_smul, smul_add, smul_sub, mul_assoc]
  module

end expand

end Mapleaf.Motion.Turn
