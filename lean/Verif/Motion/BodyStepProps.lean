import Verif.Motion.BodyStepModel
import Verif.Motion.IntegProps
import Verif.Motion.StateProps

/-! # Steps of states with given operators: what a fixed step and an attempt of an adaptive step compute -/

namespace Mapleaf.Motion

/-! ## Derivatives of rigid-body states are vectors -/

theorem RBDeriv.ext4 {a b : RBDeriv} (h1 : a.vel = b.vel) (h2 : a.acc = b.acc) (h3 : a.angVel = b.angVel)
    (h4 : a.angAcc = b.angAcc) : a = b := by
  cases a; cases b; simp_all

noncomputable instance : Add RBDeriv := ⟨fun a b => ⟨a.vel + b.vel, a.acc + b.acc, a.angVel + b.angVel, a.angAcc + b.angAcc⟩⟩
noncomputable instance : Zero RBDeriv := ⟨⟨0, 0, 0, 0⟩⟩
noncomputable instance : Neg RBDeriv := ⟨fun a => ⟨-a.vel, -a.acc, -a.angVel, -a.angAcc⟩⟩
noncomputable instance : SMul ℝ RBDeriv := ⟨fun k a => ⟨k • a.vel, k • a.acc, k • a.angVel, k • a.angAcc⟩⟩

@[simp] theorem RBDeriv.add_vel (a b : RBDeriv) : (a + b).vel = a.vel + b.vel := rfl
@[simp] theorem RBDeriv.add_acc (a b : RBDeriv) : (a + b).acc = a.acc + b.acc := rfl
@[simp] theorem RBDeriv.add_angVel (a b : RBDeriv) : (a + b).angVel = a.angVel + b.angVel := rfl
@[simp] theorem RBDeriv.add_angAcc (a b : RBDeriv) : (a + b).angAcc = a.angAcc + b.angAcc := rfl
@[simp] theorem RBDeriv.neg_vel (a : RBDeriv) : (-a).vel = -a.vel := rfl
@[simp] theorem RBDeriv.neg_acc (a : RBDeriv) : (-a).acc = -a.acc := rfl
@[simp] theorem RBDeriv.neg_angVel (a : RBDeriv) : (-a).angVel = -a.angVel := rfl
@[simp] theorem RBDeriv.neg_angAcc (a : RBDeriv) : (-a).angAcc = -a.angAcc := rfl
@[simp] theorem RBDeriv.zero_vel : (0 : RBDeriv).vel = 0 := rfl
@[simp] theorem RBDeriv.zero_acc : (0 : RBDeriv).acc = 0 := rfl
@[simp] theorem RBDeriv.zero_angVel : (0 : RBDeriv).angVel = 0 := rfl
@[simp] theorem RBDeriv.zero_angAcc : (0 : RBDeriv).angAcc = 0 := rfl
@[simp] theorem RBDeriv.smul_vel (k : ℝ) (a : RBDeriv) : (k • a).vel = k • a.vel := rfl
@[simp] theorem RBDeriv.smul_acc (k : ℝ) (a : RBDeriv) : (k • a).acc = k • a.acc := rfl
@[simp] theorem RBDeriv.smul_angVel (k : ℝ) (a : RBDeriv) : (k • a).angVel = k • a.angVel := rfl
@[simp] theorem RBDeriv.smul_angAcc (k : ℝ) (a : RBDeriv) : (k • a).angAcc = k • a.angAcc := rfl

noncomputable instance : AddCommGroup RBDeriv where
  add_assoc a b c := by apply RBDeriv.ext4 <;> simp [add_assoc]
  zero_add a := by apply RBDeriv.ext4 <;> simp
  add_zero a := by apply RBDeriv.ext4 <;> simp
  add_comm a b := by apply RBDeriv.ext4 <;> simp [add_comm]
  neg_add_cancel a := by apply RBDeriv.ext4 <;> simp
  sub_eq_add_neg a b := rfl
  nsmul := nsmulRec
  zsmul := zsmulRec

noncomputable instance : Module ℝ RBDeriv where
  one_smul a := by apply RBDeriv.ext4 <;> simp
  mul_smul a b c := by apply RBDeriv.ext4 <;> simp [mul_smul]
  smul_zero a := by apply RBDeriv.ext4 <;> simp
  smul_add a b c := by apply RBDeriv.ext4 <;> simp
  add_smul a b c := by apply RBDeriv.ext4 <;> simp [add_smul]
  zero_smul a := by apply RBDeriv.ext4 <;> simp

end Mapleaf.Motion

namespace Mapleaf.Motion.Body
open Mapleaf Mapleaf.Motion
open Mapleaf.Motion.RK (Tableau wsum Explicit NonZero Shape wsum_cons wsum_append_right getLast_mem_drop take_dropLast dropLast_dropLast)

/-- Derivatives `enc d`, for `d` in a vector space, are divided and added as such, and added to good states by `adv`. -/
structure Lawful {S D M : Type} [AddCommGroup M] [Module ℝ M] (A : Arith S D) (enc : M → D) (adv : S → M → S) (good : S → Prop) : Prop where
  ddiv : ∀ d s, s ≠ 0 → A.ddiv (enc d) s = .ok (enc ((1 / s) • d))
  dadd : ∀ a b, A.dadd (enc a) (enc b) = .ok (enc (a + b))
  plus : ∀ y d s, good y → plus A y (enc d) s = .ok (adv y (s • d))

section gen
variable {S D M : Type} [AddCommGroup M] [Module ℝ M] {A : Arith S D} {enc : M → D} {adv : S → M → S} {good : S → Prop}

theorem divInv_ok (L : Lawful A enc adv good) (d : M) (w : ℝ) (h : w ≠ 0) : divInv A (enc d) w = .ok (enc (w • d)) := by
  unfold divInv
  rw [if_neg h, L.ddiv _ _ (one_div_ne_zero h), one_div_one_div]

theorem accum_ok (L : Lawful A enc adv good) (dt : ℝ) (hdt : dt ≠ 0) (acc : M) (ws : List ℝ) (ks : List M)
    (hl : ws.length ≤ ks.length) (hn : ∀ w ∈ ws, w ≠ 0) :
    accum A A.dadd dt (enc acc) ws (ks.map enc) = .ok (enc (acc + dt • wsum ws ks)) := by
  induction ws generalizing acc ks with
  | nil => simp [accum, wsum]
  | cons w ws ih =>
    cases ks with
    | nil => simp at hl
    | cons k ks =>
      rw [List.map_cons, accum, divInv_ok L _ _ (mul_ne_zero (hn w (by simp)) hdt)]
      dsimp only
      rw [L.dadd]
      dsimp only
      rw [ih _ ks (by simpa using hl) (fun w hw => hn w (by simp [hw])), wsum_cons, smul_add, smul_smul, mul_comm dt w, add_assoc]

theorem combine_ok (L : Lawful A enc adv good) (dt : ℝ) (hdt : dt ≠ 0) (ws : List ℝ) (ks : List M) (h0 : ws ≠ [])
    (hl : ws.length ≤ ks.length) (hn : ∀ w ∈ ws, w ≠ 0) :
    combine A A.dadd dt ws (ks.map enc) = .ok (enc (dt • wsum ws ks)) := by
  cases ws with
  | nil => exact absurd rfl h0
  | cons w ws =>
    cases ks with
    | nil => simp at hl
    | cons k ks =>
      rw [List.map_cons, combine, divInv_ok L _ _ (mul_ne_zero (hn w (by simp)) hdt)]
      dsimp only
      rw [accum_ok L dt hdt _ ws ks (by simpa using hl) (fun w hw => hn w (by simp [hw])), wsum_cons, smul_add, smul_smul, mul_comm dt w]

/-- `ks` are the derivatives of a step whose stage with row `r` is evaluated at the state `stg r.tail ks`, and at time `t + dt c`. -/
def StagesAt (rows : Tableau ℝ) (g : ℝ → S → M) (t dt : ℝ) (stg : List ℝ → List M → S) (k0 : M) (ks : List M) : Prop :=
  ks = k0 :: rows.map (fun r => g (t + dt * r.headD 0) (stg r.tail ks))

/-- the points at which the stages are evaluated -/
def points (rows : Tableau ℝ) (t dt : ℝ) (stg : List ℝ → List M → S) (ks : List M) : List (ℝ × S) :=
  rows.map (fun r => (t + dt * r.headD 0, stg r.tail ks))

theorem stagesAt_length {rows : Tableau ℝ} {g : ℝ → S → M} {t dt : ℝ} {stg : List ℝ → List M → S} {k0 : M} {ks : List M}
    (h : StagesAt rows g t dt stg k0 ks) : ks.length = rows.length + 1 := by
  rw [h]; simp

theorem stages_gen (L : Lawful A enc adv good) (f : ℝ → S → Except PyErr D) (g : ℝ → S → M) (ok : S → Prop) (Q : M → Prop)
    (hg : ∀ t s, ok s → f t s = .ok (enc (g t s)) ∧ Q (g t s)) (t : ℝ) (y : S) (hy : good y) (dt : ℝ) (hdt : dt ≠ 0)
    (rows : Tableau ℝ) (hok : ∀ r ∈ rows, ∀ ks : List M, (∀ k ∈ ks, Q k) → r.tail.length ≤ ks.length → ok (adv y (dt • wsum r.tail ks)))
    (n : ℕ) (ks0 : List M) (ev : List (ℝ × S)) (hQ : ∀ k ∈ ks0, Q k) (hn : ks0.length = n + 1) (hex : Explicit n rows) (hnz : NonZero rows) :
    ∃ ks : List M, stages A f t y dt rows (ks0.map enc) ev =
        .ok (ks.map enc, ev ++ points rows t dt (fun ws ks => adv y (dt • wsum ws ks)) ks) ∧
      ks = ks0 ++ rows.map (fun r => g (t + dt * r.headD 0) (adv y (dt • wsum r.tail ks))) ∧ ∀ k ∈ ks, Q k := by
  induction rows generalizing n ks0 ev with
  | nil => exact ⟨ks0, by simp [stages, points], by simp, hQ⟩
  | cons r rows ih =>
    obtain ⟨hr, hex'⟩ := hex
    cases r with
    | nil => simp at hr
    | cons c as =>
      have hlen : as.length = n + 1 := by simpa using hr
      have hcomb : combine A A.dadd dt as (ks0.map enc) = .ok (enc (dt • wsum as ks0)) := by
        apply combine_ok L dt hdt
        · intro h; rw [h] at hlen; simp at hlen
        · omega
        · intro w hw; exact hnz (c :: as) (by simp) w (by simp [hw])
      have hplus := L.plus y (dt • wsum as ks0) 1 hy
      rw [one_smul] at hplus
      obtain ⟨hf, hq⟩ := hg (t + dt * c) (adv y (dt • wsum as ks0)) (hok (c :: as) (by simp) ks0 hQ (by simp; omega))
      obtain ⟨ks, h1, h2, h3⟩ := ih (fun r hr => hok r (by simp [hr])) (n + 1) (ks0 ++ [g (t + dt * c) (adv y (dt • wsum as ks0))])
        (ev ++ [(t + dt * c, adv y (dt • wsum as ks0))])
        (by intro k hk; rcases List.mem_append.1 hk with h | h; exacts [hQ k h, by simp at h; rw [h]; exact hq])
        (by simp [hn]) hex' (fun r hr => hnz r (by simp [hr]))
      have hpre : wsum as ks = wsum as ks0 := by
        rw [h2, List.append_assoc, wsum_append_right as ks0 _ (by omega)]
      refine ⟨ks, ?_, ?_, h3⟩
      · rw [stages]
        simp only [hcomb, hplus, hf]
        rw [show ks0.map enc ++ [enc (g (t + dt * c) (adv y (dt • wsum as ks0)))] =
          (ks0 ++ [g (t + dt * c) (adv y (dt • wsum as ks0))]).map enc by simp, h1]
        simp [points, hpre]
      · rw [List.map_cons]
        dsimp only [List.headD_cons, List.tail_cons]
        rw [hpre]
        nth_rewrite 1 [h2]
        simp

/-- A fixed step: stages at the states `adv y (dt ∑ aᵢⱼ kⱼ)` and times `t + cᵢ dt`, result `adv y (dt ∑ bᵢ kᵢ)`. -/
theorem rkStep_gen (L : Lawful A enc adv good) (tab : Tableau ℝ) (hs : Shape 1 tab) (f : ℝ → S → Except PyErr D) (g : ℝ → S → M)
    (ok : S → Prop) (Q : M → Prop) (hg : ∀ t s, ok s → f t s = .ok (enc (g t s)) ∧ Q (g t s)) (t : ℝ) (y : S) (hy : good y)
    (hyok : ok y) (dt : ℝ) (hdt : dt ≠ 0)
    (hok : ∀ r ∈ tab.dropLast, ∀ ks : List M, (∀ k ∈ ks, Q k) → r.tail.length ≤ ks.length → ok (adv y (dt • wsum r.tail ks))) :
    ∃ r ks b, rkStep A tab f t y dt = .ok r ∧ tab.getLast? = some b ∧ b.length = ks.length ∧
      StagesAt tab.dropLast g t dt (fun ws ks => adv y (dt • wsum ws ks)) (g t y) ks ∧ (∀ k ∈ ks, Q k) ∧
      r.newValue = adv y (dt • wsum b ks) ∧ r.derivative = enc (wsum b ks) ∧
      r.evals = (t, y) :: points tab.dropLast t dt (fun ws ks => adv y (dt • wsum ws ks)) ks := by
  obtain ⟨b, hb, hbd⟩ := getLast_mem_drop hs.enough
  have hbl : b.length = tab.length - 1 + 1 := hs.result b (by rw [hbd]; simp)
  have hex := hs.explicit
  rw [← take_dropLast] at hex
  obtain ⟨hf, hq⟩ := hg t y hyok
  obtain ⟨ks, h1, h2, h3⟩ := stages_gen L f g ok Q hg t y hy dt hdt tab.dropLast hok 0 [g t y] [(t, y)]
    (by intro k hk; simp at hk; rw [hk]; exact hq) rfl hex (fun r hr => hs.nonzero r (List.dropLast_subset _ hr))
  have hkl : ks.length = tab.length - 1 + 1 := by rw [h2]; simp
  have hc : combine A A.dadd 1 b (ks.map enc) = .ok (enc ((1 : ℝ) • wsum b ks)) := by
    apply combine_ok L 1 one_ne_zero
    · rintro rfl; simp at hbl
    · omega
    · exact hs.nonzero b (List.mem_of_getLast? hb)
  rw [one_smul] at hc
  refine ⟨⟨adv y (dt • wsum b ks), enc (wsum b ks), _⟩, ks, b, ?_, hb, by omega, h2, h3, rfl, rfl, rfl⟩
  unfold rkStep
  rw [hf]
  dsimp only
  rw [show [enc (g t y)] = [g t y].map enc from rfl, h1]
  dsimp only
  rw [hb, Option.getD_some, hc]
  dsimp only
  rw [L.plus y _ dt hy]
  rfl

/-- An Euler step. -/
theorem eulerStep_gen (L : Lawful A enc adv good) (f : ℝ → S → Except PyErr D) (t : ℝ) (y : S) (hy : good y) (dt : ℝ) (k : M)
    (hk : f t y = .ok (enc k)) : eulerStep A f t y dt = .ok ⟨adv y (dt • k), enc k, [(t, y)]⟩ := by
  unfold eulerStep
  rw [hk]
  dsimp only
  rw [L.plus y k dt hy]

/-! ### Adaptive steps -/

theorem stagesA_gen (f : ℝ → S → Except PyErr D) (g : ℝ → S → M) (ok : S → Prop) (Q : M → Prop) (enc : M → D)
    (hg : ∀ t s, ok s → f t s = .ok (enc (g t s)) ∧ Q (g t s)) (t : ℝ) (y : S) (dt : ℝ) (stg : List ℝ → List M → S)
    (hpre : ∀ ws ks ks', ws.length ≤ ks.length → stg ws (ks ++ ks') = stg ws ks) (rows : Tableau ℝ)
    (hst : ∀ r ∈ rows, ∀ ks : List M, (∀ k ∈ ks, Q k) → r.tail ≠ [] → r.tail.length ≤ ks.length →
      stageState A y dt r.tail (ks.map enc) = .ok (stg r.tail ks) ∧ ok (stg r.tail ks))
    (n : ℕ) (ks0 : List M) (ev : List (ℝ × S)) (hQ : ∀ k ∈ ks0, Q k) (hn : ks0.length = n + 1) (hex : Explicit n rows) :
    ∃ ks : List M, stagesA A f t y dt rows (ks0.map enc) ev = .ok (ks.map enc, ev ++ points rows t dt stg ks) ∧
      ks = ks0 ++ rows.map (fun r => g (t + dt * r.headD 0) (stg r.tail ks)) ∧ ∀ k ∈ ks, Q k := by
  induction rows generalizing n ks0 ev with
  | nil => exact ⟨ks0, by simp [stagesA, points], by simp, hQ⟩
  | cons r rows ih =>
    obtain ⟨hr, hex'⟩ := hex
    cases r with
    | nil => simp at hr
    | cons c as =>
      have hlen : as.length = n + 1 := by simpa using hr
      obtain ⟨hs, ho⟩ := hst (c :: as) (by simp) ks0 hQ (by simp; rintro rfl; simp at hlen) (by simp; omega)
      dsimp only [List.tail_cons] at hs ho
      obtain ⟨hf, hq⟩ := hg (t + dt * c) (stg as ks0) ho
      obtain ⟨ks, h1, h2, h3⟩ := ih (fun r hr => hst r (by simp [hr])) (n + 1) (ks0 ++ [g (t + dt * c) (stg as ks0)])
        (ev ++ [(t + dt * c, stg as ks0)])
        (by intro k hk; rcases List.mem_append.1 hk with h | h; exacts [hQ k h, by simp at h; rw [h]; exact hq])
        (by simp [hn]) hex'
      have hp : stg as ks = stg as ks0 := by
        rw [h2, List.append_assoc, hpre as ks0 _ (by omega)]
      refine ⟨ks, ?_, ?_, h3⟩
      · rw [stagesA]
        simp only [hs, hf]
        rw [show ks0.map enc ++ [enc (g (t + dt * c) (stg as ks0))] = (ks0 ++ [g (t + dt * c) (stg as ks0)]).map enc by simp, h1]
        simp [points, hp]
      · rw [List.map_cons]
        dsimp only [List.headD_cons, List.tail_cons]
        rw [hp]
        nth_rewrite 1 [h2]
        simp

/-- the two result rows of an adaptive tableau -/
theorem result_rows (tab : Tableau ℝ) (hs : Shape 2 tab) :
    ∃ b bc, tab.dropLast.getLast? = some b ∧ tab.getLast? = some bc ∧ b.length = tab.length - 2 + 1 ∧ bc.length = tab.length - 2 + 1 ∧
      (∀ w ∈ b, w ≠ 0) ∧ ∀ w ∈ bc, w ≠ 0 := by
  have h2 := hs.enough
  obtain ⟨bc, hbc, hbcd⟩ := getLast_mem_drop (tab := tab) (by omega)
  obtain ⟨b, hb, hbd⟩ := getLast_mem_drop (tab := tab.dropLast) (by simp; omega)
  have hmem : ∀ r, (r = b ∨ r = bc) → r ∈ tab.drop (tab.length - 2) := by
    have : tab.drop (tab.length - 2) = [b, bc] := by
      have e1 : tab = tab.dropLast ++ [bc] := by
        have hne : tab ≠ [] := by rintro rfl; simp at h2
        rw [List.getLast?_eq_some_getLast hne] at hbc
        injection hbc with hbc
        rw [← hbc]; exact (List.dropLast_append_getLast hne).symm
      have hne' : tab.dropLast ≠ [] := by intro h; rw [h] at hb; simp at hb
      have e2 : tab.dropLast = tab.dropLast.dropLast ++ [b] := by
        rw [List.getLast?_eq_some_getLast hne'] at hb
        injection hb with hb
        rw [← hb]; exact (List.dropLast_append_getLast hne').symm
      have hlen : tab.dropLast.dropLast.length = tab.length - 2 := by simp; omega
      nth_rewrite 2 [e1]
      rw [e2, List.append_assoc, List.drop_append_of_le_length (by omega), List.drop_eq_nil_of_le (by omega)]
      rfl
    rintro r (rfl | rfl) <;> rw [this] <;> simp
  exact ⟨b, bc, hb, hbc, hs.result b (hmem b (.inl rfl)), hs.result bc (hmem bc (.inr rfl)),
    hs.nonzero b (List.drop_subset _ _ (hmem b (.inl rfl))), hs.nonzero bc (List.drop_subset _ _ (hmem bc (.inr rfl)))⟩

end gen
end Mapleaf.Motion.Body
