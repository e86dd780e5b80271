import Verif.Motion.IntegModel
import Mathlib.Algebra.Polynomial.Taylor
import Mathlib.Algebra.Polynomial.Derivative
import Mathlib.Algebra.BigOperators.Ring.List
import Mathlib.Algebra.Module.LinearMap.End
import Mathlib.Tactic.Linarith
import Mathlib.Tactic.Ring
import Mathlib.Tactic.FieldSimp

/-! # C20: integration methods; C60: reuse of the last derivative; C12: evaluations per attempt -/

set_option linter.unusedSectionVars false

namespace Mapleaf.Motion.RK

section spec
variable {K S : Type} [Field K] [LinearOrder K] [IsStrictOrderedRing K] [AddCommGroup S] [Module K S]

/-! ## Specification: explicit Runge-Kutta steps as in textbooks -/

/-- `∑ wᵢ kᵢ` over the common length -/
def wsum (ws : List K) (ks : List S) : S := (List.zipWith (fun w k => w • k) ws ks).sum

/-- `ks` are the stage derivatives of a step from `(t, y)` with step `dt`: the first is `k0`, and stage `i` is the
right-hand side at time `t + cᵢ dt` and state `y + dt ∑ⱼ aᵢⱼ kⱼ`. Row `i` of `rows` is `cᵢ, aᵢ₁, …, aᵢ,ᵢ₋₁`. -/
def IsStages (rows : Tableau K) (f : K → S → S) (t : K) (y : S) (dt : K) (k0 : S) (ks : List S) : Prop :=
  ks = k0 :: rows.map (fun r => f (t + dt * r.headD 0) (y + dt • wsum r.tail ks))

/-- Row `i` has exactly the coefficients an explicit method needs. -/
def Explicit : Nat → Tableau K → Prop
  | _, [] => True
  | n, r :: rs => r.length = n + 2 ∧ Explicit (n + 1) rs

/-- No zero coefficients (true after `checkButcherTableau`). -/
def NonZero (rows : Tableau K) : Prop := ∀ r ∈ rows, ∀ x ∈ r, x ≠ 0

/-- Times (as fractions of the step) at which the right-hand side is evaluated. -/
def nodes (rows : Tableau K) : List K := 0 :: rows.map (fun r => r.headD 0)

/-- `∑ bᵢ cᵢʲ` -/
def moment (b cs : List K) (j : ℕ) : K := wsum b (cs.map (· ^ j))

/-! ## The code computes such steps -/

theorem wsum_nil_left (ks : List S) : wsum ([] : List K) ks = 0 := by simp [wsum]

theorem wsum_cons (w : K) (ws : List K) (k : S) (ks : List S) : wsum (w :: ws) (k :: ks) = w • k + wsum ws ks := by
  simp [wsum]

theorem wsum_append_right (ws : List K) (ks ks' : List S) (h : ws.length ≤ ks.length) : wsum ws (ks ++ ks') = wsum ws ks := by
  induction ws generalizing ks with
  | nil => simp [wsum]
  | cons w ws ih =>
    cases ks with
    | nil => simp at h
    | cons k ks => rw [List.cons_append, wsum_cons, wsum_cons, ih ks (by simpa using h)]

theorem divInv_ok (k : S) (w : K) (h : w ≠ 0) : divInv k w = .ok (w • k) := by
  unfold divInv; rw [if_neg h, one_div_one_div]

theorem accum_ok (dt : K) (hdt : dt ≠ 0) (acc : S) (ws : List K) (ks : List S) (hl : ws.length ≤ ks.length)
    (hn : ∀ w ∈ ws, w ≠ 0) : accum dt acc ws ks = .ok (acc + dt • wsum ws ks) := by
  induction ws generalizing acc ks with
  | nil => simp [accum, wsum]
  | cons w ws ih =>
    cases ks with
    | nil => simp at hl
    | cons k ks =>
      rw [accum, divInv_ok _ _ (mul_ne_zero (hn w (by simp)) hdt)]
      dsimp only
      rw [ih _ ks (by simpa using hl) (fun w hw => hn w (by simp [hw])), wsum_cons, smul_add, smul_smul, mul_comm dt w, add_assoc]

theorem combine_ok (dt : K) (hdt : dt ≠ 0) (ws : List K) (ks : List S) (h0 : ws ≠ []) (hl : ws.length ≤ ks.length)
    (hn : ∀ w ∈ ws, w ≠ 0) : combine dt ws ks = .ok (dt • wsum ws ks) := by
  cases ws with
  | nil => exact absurd rfl h0
  | cons w ws =>
    cases ks with
    | nil => simp at hl
    | cons k ks =>
      rw [combine, divInv_ok _ _ (mul_ne_zero (hn w (by simp)) hdt)]
      dsimp only
      rw [accum_ok dt hdt _ ws ks (by simpa using hl) (fun w hw => hn w (by simp [hw])), wsum_cons, smul_add, smul_smul, mul_comm dt w]

theorem linComb_go_ok (acc : S) (ws : List K) (ks : List S) (hl : ws.length ≤ ks.length) :
    linComb.go acc ws ks = .ok (acc + wsum ws ks) := by
  induction ws generalizing acc ks with
  | nil => simp [linComb.go, wsum]
  | cons w ws ih =>
    cases ks with
    | nil => simp at hl
    | cons k ks => rw [linComb.go, ih _ ks (by simpa using hl), wsum_cons, add_assoc]

theorem linComb_ok (ws : List K) (ks : List S) (h0 : ws ≠ []) (hl : ws.length ≤ ks.length) :
    linComb ws ks = .ok (wsum ws ks) := by
  cases ws with
  | nil => exact absurd rfl h0
  | cons w ws =>
    cases ks with
    | nil => simp at hl
    | cons k ks => rw [linComb, linComb_go_ok _ ws ks (by simpa using hl), wsum_cons]

/-- The derivatives (and evaluation points) the loop adds for the given rows, in terms of all derivatives. -/
def newKs (f : K → S → S) (t : K) (y : S) (dt : K) (rows : Tableau K) (ks : List S) : List S :=
  rows.map (fun r => f (t + dt * r.headD 0) (y + dt • wsum r.tail ks))

def newEvals (t : K) (y : S) (dt : K) (rows : Tableau K) (ks : List S) : List (K × S) :=
  rows.map (fun r => (t + dt * r.headD 0, y + dt • wsum r.tail ks))

theorem stages_ok (f : K → S → S) (t : K) (y : S) (dt : K) (hdt : dt ≠ 0) (rows : Tableau K) (n : ℕ) (st : Stages K S)
    (hn : st.ks.length = n + 1) (hex : Explicit n rows) (hnz : NonZero rows) :
    ∃ ks, stages f t y dt rows st = .ok ⟨ks, st.evals ++ newEvals t y dt rows ks⟩ ∧
      ks = st.ks ++ newKs f t y dt rows ks := by
  induction rows generalizing n st with
  | nil => exact ⟨st.ks, by simp [stages, newEvals], by simp [newKs]⟩
  | cons r rows ih =>
    obtain ⟨hr, hex'⟩ := hex
    cases r with
    | nil => simp at hr
    | cons c as =>
      have hlen : as.length = n + 1 := by simpa using hr
      have hcomb : combine dt as st.ks = .ok (dt • wsum as st.ks) := by
        apply combine_ok dt hdt
        · intro h; rw [h] at hlen; simp at hlen
        · omega
        · intro w hw; exact hnz (c :: as) (by simp) w (by simp [hw])
      obtain ⟨ks, h1, h2⟩ := ih (n + 1) ⟨st.ks ++ [f (t + dt * c) (y + dt • wsum as st.ks)],
        st.evals ++ [(t + dt * c, y + dt • wsum as st.ks)]⟩ (by simp [hn]) hex' (fun r hr => hnz r (by simp [hr]))
      have hpre : wsum as ks = wsum as st.ks := by
        rw [h2, List.append_assoc, wsum_append_right as st.ks _ (by omega)]
      refine ⟨ks, ?_, ?_⟩
      · rw [stages]
        simp only [hcomb]
        rw [h1]
        simp [newEvals, hpre]
      · rw [newKs, List.map_cons]
        dsimp only [List.headD_cons, List.tail_cons]
        rw [hpre]
        nth_rewrite 1 [h2]
        simp [newKs]

theorem stagesA_ok (f : K → S → S) (t : K) (y : S) (dt : K) (rows : Tableau K) (n : ℕ) (st : Stages K S)
    (hn : st.ks.length = n + 1) (hex : Explicit n rows) :
    ∃ ks, stagesA f t y dt rows st = .ok ⟨ks, st.evals ++ newEvals t y dt rows ks⟩ ∧
      ks = st.ks ++ newKs f t y dt rows ks := by
  induction rows generalizing n st with
  | nil => exact ⟨st.ks, by simp [stagesA, newEvals], by simp [newKs]⟩
  | cons r rows ih =>
    obtain ⟨hr, hex'⟩ := hex
    cases r with
    | nil => simp at hr
    | cons c as =>
      have hlen : as.length = n + 1 := by simpa using hr
      have hcomb : linComb as st.ks = .ok (wsum as st.ks) := by
        apply linComb_ok
        · intro h; rw [h] at hlen; simp at hlen
        · omega
      obtain ⟨ks, h1, h2⟩ := ih (n + 1) ⟨st.ks ++ [f (t + dt * c) (y + dt • wsum as st.ks)],
        st.evals ++ [(t + dt * c, y + dt • wsum as st.ks)]⟩ (by simp [hn]) hex'
      have hpre : wsum as ks = wsum as st.ks := by
        rw [h2, List.append_assoc, wsum_append_right as st.ks _ (by omega)]
      refine ⟨ks, ?_, ?_⟩
      · rw [stagesA]
        simp only [hcomb]
        rw [h1]
        simp [newEvals, hpre]
      · rw [newKs, List.map_cons]
        dsimp only [List.headD_cons, List.tail_cons]
        rw [hpre]
        nth_rewrite 1 [h2]
        simp [newKs]

/-- The shape the two integrators need: `s - 1` stage rows and `e` result rows of length `s`. -/
structure Shape (e : ℕ) (tab : Tableau K) : Prop where
  explicit : Explicit 0 (tab.take (tab.length - e))
  result : ∀ r ∈ tab.drop (tab.length - e), r.length = tab.length - e + 1
  nonzero : NonZero tab
  enough : e ≤ tab.length

theorem isStages_length {rows : Tableau K} {f : K → S → S} {t : K} {y : S} {dt : K} {k0 : S} {ks : List S}
    (h : IsStages rows f t y dt k0 ks) : ks.length = rows.length + 1 := by
  rw [h]; simp

theorem isStages_unique {rows : Tableau K} {f : K → S → S} {t : K} {y : S} {dt : K} {k0 : S} {ks ks' : List S}
    (hex : Explicit 0 rows) (h : IsStages rows f t y dt k0 ks) (h' : IsStages rows f t y dt k0 ks') : ks = ks' := by
  obtain ⟨k1, e1, _⟩ := stagesA_ok f t y dt rows 0 ⟨[k0], []⟩ rfl hex
  have key : ∀ (rows : Tableau K) (n : ℕ) (st : Stages K S) (ks : List S), st.ks.length = n + 1 → Explicit n rows →
      ks = st.ks ++ newKs f t y dt rows ks → ∃ ev, stagesA f t y dt rows st = .ok ⟨ks, ev⟩ := by
    intro rows
    induction rows with
    | nil => intro n st ks _ _ h; simp [newKs] at h; exact ⟨st.evals, by rw [stagesA, h]⟩
    | cons r rows ih =>
      intro n st ks hn hex h
      obtain ⟨hr, hex'⟩ := hex
      cases r with
      | nil => simp at hr
      | cons c as =>
        have hlen : as.length = n + 1 := by simpa using hr
        have hpre : wsum as ks = wsum as st.ks := by
          rw [h, wsum_append_right as st.ks _ (by omega)]
        have hcomb : linComb as st.ks = .ok (wsum as st.ks) := by
          apply linComb_ok
          · intro h; rw [h] at hlen; simp at hlen
          · omega
        rw [newKs, List.map_cons] at h
        dsimp only [List.headD_cons, List.tail_cons] at h
        rw [hpre] at h
        obtain ⟨ev, hev⟩ := ih (n + 1) ⟨st.ks ++ [f (t + dt * c) (y + dt • wsum as st.ks)],
          st.evals ++ [(t + dt * c, y + dt • wsum as st.ks)]⟩ ks (by simp [hn]) hex' (by
            rw [List.append_assoc]; exact h)
        exact ⟨ev, by rw [stagesA]; simp only [hcomb]; exact hev⟩
  obtain ⟨ev, he⟩ := key rows 0 ⟨[k0], []⟩ ks rfl hex h
  obtain ⟨ev', he'⟩ := key rows 0 ⟨[k0], []⟩ ks' rfl hex h'
  rw [he] at he'
  injection he' with he'
  injection he'

theorem take_dropLast (tab : Tableau K) : tab.dropLast = tab.take (tab.length - 1) := List.dropLast_eq_take

theorem getLast_mem_drop {tab : Tableau K} (h : 1 ≤ tab.length) :
    ∃ b, tab.getLast? = some b ∧ tab.drop (tab.length - 1) = [b] := by
  have hne : tab ≠ [] := by rintro rfl; simp at h
  refine ⟨tab.getLast hne, List.getLast?_eq_some_getLast hne, ?_⟩
  rw [List.drop_length_sub_one hne]

/-- **C20.** A fixed step evaluates the textbook formula: the stages of the tableau at the right times and states, and
`y + dt ∑ bᵢ kᵢ`. The right-hand side is evaluated once per stage, at exactly those points. -/
theorem rkStep_spec (tab : Tableau K) (hs : Shape 1 tab) (f : K → S → S) (t : K) (y : S) (dt : K) (hdt : dt ≠ 0) :
    ∃ r ks b, rkStep tab f t y dt = .ok r ∧ tab.getLast? = some b ∧ IsStages tab.dropLast f t y dt (f t y) ks ∧
      r.newValue = y + dt • wsum b ks ∧ r.derivative = wsum b ks ∧
      r.evals = (t, y) :: newEvals t y dt tab.dropLast ks := by
  obtain ⟨b, hb, hbd⟩ := getLast_mem_drop hs.enough
  have hbl : b.length = tab.length - 1 + 1 := hs.result b (by rw [hbd]; simp)
  have hex := hs.explicit
  rw [← take_dropLast] at hex
  obtain ⟨ks, h1, h2⟩ := stages_ok f t y dt hdt tab.dropLast 0 ⟨[f t y], [(t, y)]⟩ rfl hex
    (fun r hr => hs.nonzero r (List.dropLast_subset _ hr))
  have hkl : ks.length = tab.length - 1 + 1 := by rw [h2]; simp [newKs]
  have hc : combine (1 : K) b ks = .ok ((1 : K) • wsum b ks) := by
    apply combine_ok 1 one_ne_zero
    · rintro rfl; simp at hbl
    · omega
    · exact hs.nonzero b (List.mem_of_getLast? hb)
  refine ⟨⟨y + dt • wsum b ks, wsum b ks, (t, y) :: newEvals t y dt tab.dropLast ks⟩, ks, b, ?_, hb, h2, rfl, rfl, rfl⟩
  unfold rkStep
  rw [h1]
  dsimp only
  rw [hb, Option.getD_some, hc, one_smul]
  rfl

theorem dropLast_dropLast (tab : Tableau K) : tab.dropLast.dropLast = tab.take (tab.length - 2) := by
  rw [List.dropLast_eq_take, List.dropLast_eq_take, List.take_take, List.length_take]
  congr 1
  omega

/-- **C20.** An adaptive attempt computes the two textbook results of its tableau, returns the more accurate one (the
second last row) and the size of their difference. -/
theorem attempt_spec (mag : S → K) (tab : Tableau K) (hs : Shape 2 tab) (cache : Option S) (f : K → S → S) (t : K) (y : S)
    (dt : K) :
    ∃ a ks b bc, attempt mag tab cache f t y dt = .ok a ∧ tab.dropLast.getLast? = some b ∧ tab.getLast? = some bc ∧
      IsStages tab.dropLast.dropLast f t y dt (cache.getD (f t y)) ks ∧
      a.newValue = y + dt • wsum b ks ∧ a.derivative = wsum b ks ∧
      a.error = mag (dt • wsum b ks - dt • wsum bc ks) ∧ ks.getLast? = some a.last ∧
      a.evals = (if cache.isSome then [] else [(t, y)]) ++ newEvals t y dt tab.dropLast.dropLast ks := by
  have h2 := hs.enough
  obtain ⟨bc, hbc, hbcd⟩ := getLast_mem_drop (tab := tab) (by omega)
  obtain ⟨b, hb, hbd⟩ := getLast_mem_drop (tab := tab.dropLast) (by simp; omega)
  have hmem : ∀ r, (r = b ∨ r = bc) → r ∈ tab.drop (tab.length - 2) := by
    have : tab.drop (tab.length - 2) = [b, bc] := by
      have e1 : tab = tab.dropLast ++ [bc] := by
        have hne : tab ≠ [] := by rintro rfl; simp at h2
        rw [List.getLast?_eq_some_getLast hne] at hbc
        injection hbc with hbc
        rw [← hbc]; exact (List.dropLast_append_getLast hne).symm
      have hne' : tab.dropLast ≠ [] := by intro h; rw [h] at hb; simp at hb
      have e2 : tab.dropLast = tab.dropLast.dropLast ++ [b] := by
        rw [List.getLast?_eq_some_getLast hne'] at hb
        injection hb with hb
        rw [← hb]; exact (List.dropLast_append_getLast hne').symm
      have hlen : tab.dropLast.dropLast.length = tab.length - 2 := by simp; omega
      nth_rewrite 2 [e1]
      rw [e2, List.append_assoc, List.drop_append_of_le_length (by omega), List.drop_eq_nil_of_le (by omega)]
      rfl
    rintro r (rfl | rfl) <;> rw [this] <;> simp
  have hbl : b.length = tab.length - 2 + 1 := hs.result b (hmem b (.inl rfl))
  have hbcl : bc.length = tab.length - 2 + 1 := hs.result bc (hmem bc (.inr rfl))
  have hex := hs.explicit
  rw [← dropLast_dropLast] at hex
  set ini : Stages K S := initStages cache f t y with hini
  have hks0 : ini.ks = [cache.getD (f t y)] := by rw [hini]; cases cache <;> rfl
  have hev0 : ini.evals = (if cache.isSome then [] else [(t, y)]) := by rw [hini]; cases cache <;> rfl
  obtain ⟨ks, h1, h2'⟩ := stagesA_ok f t y dt tab.dropLast.dropLast 0 ini (by rw [hks0]; rfl) hex
  rw [hks0] at h2'
  have hkl : ks.length = tab.length - 2 + 1 := by rw [h2']; simp [newKs]; omega
  have hcomb : ∀ r, (r = b ∨ r = bc) → combine (1 : K) r ks = .ok ((1 : K) • wsum r ks) := by
    intro r hr
    have hrl : r.length = tab.length - 2 + 1 := hs.result r (hmem r hr)
    apply combine_ok 1 one_ne_zero
    · rintro rfl; simp at hrl
    · omega
    · exact hs.nonzero r (List.drop_subset _ _ (hmem r hr))
  have hlast : ∃ z, ks.getLast? = some z := by
    cases hk : ks.getLast? with
    | none => rw [List.getLast?_eq_none_iff] at hk; rw [hk] at hkl; simp at hkl
    | some z => exact ⟨z, rfl⟩
  obtain ⟨z, hz⟩ := hlast
  refine ⟨⟨y + dt • wsum b ks, wsum b ks, mag (dt • wsum b ks - dt • wsum bc ks), z, _⟩, ks, b, bc, ?_, hb, hbc, h2', rfl, rfl,
    rfl, hz, rfl⟩
  unfold attempt
  rw [← hini, h1]
  dsimp only
  rw [hb, hbc, Option.getD_some, Option.getD_some, hcomb b (.inl rfl), hcomb bc (.inr rfl), one_smul, one_smul]
  dsimp only
  rw [hev0]
  have e1 : ks.getLastD (f t y) = z := by rw [List.getLastD_eq_getLast?, hz]; rfl
  rw [e1, show -(y + dt • wsum bc ks) + (y + dt • wsum b ks) = dt • wsum b ks - dt • wsum bc ks by abel]

/-! ## Right-hand sides depending on time only -/

theorem wsum_map_const_fun (b : List K) (cs : List K) (g : K → K) (a : K) :
    a * wsum b (cs.map g) = wsum b (cs.map (fun c => a * g c)) := by
  induction b generalizing cs with
  | nil => simp [wsum]
  | cons w ws ih =>
    cases cs with
    | nil => simp [wsum]
    | cons c cs =>
      rw [List.map_cons, List.map_cons, wsum_cons, wsum_cons, mul_add, ih]
      simp only [smul_eq_mul]; ring

theorem wsum_sum (b cs : List K) (s : Finset ℕ) (g : ℕ → K → K) :
    wsum b (cs.map (fun c => ∑ j ∈ s, g j c)) = ∑ j ∈ s, wsum b (cs.map (g j)) := by
  induction b generalizing cs with
  | nil => simp [wsum]
  | cons w ws ih =>
    cases cs with
    | nil => simp [wsum]
    | cons c cs =>
      simp only [List.map_cons, wsum_cons, ih, smul_eq_mul, Finset.mul_sum, Finset.sum_add_distrib]

/-- Error of a Runge-Kutta quadrature of a polynomial: the residuals of the order conditions weighted with the Taylor
coefficients at the start of the step. -/
theorem quadrature_error (b cs : List K) (P : Polynomial K) (t dt : K) :
    dt * wsum b (cs.map (fun c => (Polynomial.derivative P).eval (t + dt * c))) - (P.eval (t + dt) - P.eval t) =
      ∑ j ∈ Finset.range P.natDegree,
        (Polynomial.taylor t P).coeff (j + 1) * ((j : K) + 1) * dt ^ (j + 1) * (moment b cs j - 1 / ((j : K) + 1)) := by
  set Q := Polynomial.taylor t P with hQ
  have hdeg : Q.natDegree = P.natDegree := Polynomial.natDegree_taylor P t
  have hP : ∀ x, P.eval (t + x) = Q.eval x := by
    intro x; rw [hQ, Polynomial.taylor_eval, add_comm]
  have hP' : ∀ x, (Polynomial.derivative P).eval (t + x) = (Polynomial.derivative Q).eval x := by
    intro x
    rw [hQ, add_comm, ← Polynomial.taylor_eval, Polynomial.taylor_apply, Polynomial.taylor_apply, Polynomial.derivative_comp]
    simp
  have hQe : ∀ x, Q.eval x = Q.coeff 0 + ∑ j ∈ Finset.range P.natDegree, Q.coeff (j + 1) * x ^ (j + 1) := by
    intro x
    rw [Polynomial.eval_eq_sum_range' (n := P.natDegree + 1) (by omega), Finset.sum_range_succ']
    simp [add_comm]
  have hQd : ∀ x, (Polynomial.derivative Q).eval x
      = ∑ j ∈ Finset.range P.natDegree, Q.coeff (j + 1) * ((j : K) + 1) * x ^ j := by
    intro x
    rw [Polynomial.eval_eq_sum_range' (n := P.natDegree + 1)
      (lt_of_le_of_lt (Polynomial.natDegree_derivative_le Q) (by omega))]
    simp only [Polynomial.coeff_derivative]
    rw [Finset.sum_range_succ, Polynomial.coeff_eq_zero_of_natDegree_lt (p := Q) (n := P.natDegree + 1) (by omega)]
    simp
  have h0 : P.eval t = Q.coeff 0 := by
    have := hP 0
    rw [add_zero] at this
    rw [this, hQe]; simp
  rw [hP, hQe, h0]
  simp only [hP', hQd]
  rw [wsum_sum, Finset.mul_sum, add_sub_cancel_left, ← Finset.sum_sub_distrib]
  apply Finset.sum_congr rfl
  intro j _
  have hj : ((j : K) + 1) ≠ 0 := by positivity
  rw [show (cs.map (fun c => Q.coeff (j + 1) * ((j : K) + 1) * (dt * c) ^ j))
    = cs.map (fun c => (Q.coeff (j + 1) * ((j : K) + 1) * dt ^ j) * c ^ j) by
      apply List.map_congr_left; intro c _; rw [mul_pow]; ring]
  rw [← wsum_map_const_fun]
  unfold moment
  field_simp
  ring

theorem isStages_time {rows : Tableau K} {g : K → S} {t : K} {y : S} {dt : K} {ks : List S}
    (h : IsStages rows (fun t _ => g t) t y dt (g t) ks) : ks = (nodes rows).map (fun c => g (t + dt * c)) := by
  rw [h]; simp [nodes]

/-! ## Linear right-hand sides -/

/-- `∑ cⱼ Aʲ v` -/
def evalPoly (A : S →ₗ[K] S) (v : S) : List K → S
  | [] => 0
  | c :: cs => c • v + A (evalPoly A v cs)

def addL : List K → List K → List K
  | [], b => b
  | a, [] => a
  | x :: a, y :: b => (x + y) :: addL a b

def lcombL : List K → List (List K) → List K
  | w :: ws, p :: ps => addL (p.map (w * ·)) (lcombL ws ps)
  | _, _ => []

/-- The stage polynomials: the state of stage `i` for `y' = L y` is `Yᵢ(dt L) y` with `Yᵢ(z) = 1 + z ∑ aᵢⱼ Yⱼ(z)`. -/
def stagePolys : Tableau K → List (List K) → List (List K)
  | [], ps => ps
  | r :: rows, ps => stagePolys rows (ps ++ [1 :: lcombL r.tail ps])

/-- The stability polynomial `1 + z ∑ bᵢ Yᵢ(z)`. -/
def stability (rows : Tableau K) (b : List K) : List K := 1 :: lcombL b (stagePolys rows [[1]])

theorem evalPoly_addL (A : S →ₗ[K] S) (v : S) (a b : List K) : evalPoly A v (addL a b) = evalPoly A v a + evalPoly A v b := by
  induction a generalizing b with
  | nil => simp [addL, evalPoly]
  | cons x a ih =>
    cases b with
    | nil => simp [addL, evalPoly]
    | cons y b => simp only [addL, evalPoly, ih, map_add, add_smul]; abel

theorem evalPoly_smulL (A : S →ₗ[K] S) (v : S) (w : K) (a : List K) : evalPoly A v (a.map (w * ·)) = w • evalPoly A v a := by
  induction a with
  | nil => simp [evalPoly]
  | cons x a ih => simp only [List.map_cons, evalPoly, ih, map_smul, smul_add, smul_smul]

theorem evalPoly_lcombL (A : S →ₗ[K] S) (v : S) (ws : List K) (ps : List (List K)) :
    evalPoly A v (lcombL ws ps) = wsum ws (ps.map (evalPoly A v)) := by
  induction ws generalizing ps with
  | nil => simp [lcombL, evalPoly, wsum]
  | cons w ws ih =>
    cases ps with
    | nil => simp [lcombL, evalPoly, wsum]
    | cons p ps => rw [lcombL, evalPoly_addL, evalPoly_smulL, ih, List.map_cons, wsum_cons]

theorem wsum_map_linear (L : S →ₗ[K] S) (ws : List K) (ks : List S) : wsum ws (ks.map L) = L (wsum ws ks) := by
  induction ws generalizing ks with
  | nil => simp [wsum]
  | cons w ws ih =>
    cases ks with
    | nil => simp [wsum]
    | cons k ks => rw [List.map_cons, wsum_cons, wsum_cons, ih, map_add, map_smul]

theorem stages_linear (L : S →ₗ[K] S) (t : K) (y : S) (dt : K) (rows : Tableau K) (n : ℕ) (hex : Explicit n rows)
    (ps : List (List K)) (hn : ps.length = n + 1) (ks : List S)
    (hks : ks = ps.map (fun p => L (evalPoly (dt • L) y p)) ++ newKs (fun _ v => L v) t y dt rows ks) :
    ks = (stagePolys rows ps).map (fun p => L (evalPoly (dt • L) y p)) := by
  induction rows generalizing n ps with
  | nil => simpa [newKs, stagePolys] using hks
  | cons r rows ih =>
    obtain ⟨hr, hex'⟩ := hex
    rw [stagePolys]
    apply ih (n + 1) hex' (ps ++ [1 :: lcombL r.tail ps]) (by simp [hn])
    have htl : r.tail.length = n + 1 := by rw [List.length_tail]; omega
    have hw : wsum r.tail ks = L (wsum r.tail (ps.map (evalPoly (dt • L) y))) := by
      rw [hks, wsum_append_right _ _ _ (by simp [hn, htl]), ← wsum_map_linear, List.map_map]
      rfl
    nth_rewrite 1 [hks]
    rw [newKs, List.map_cons, hw, List.map_append]
    simp only [List.map_cons, List.map_nil, evalPoly, evalPoly_lcombL, one_smul, LinearMap.smul_apply, List.append_assoc,
      List.singleton_append]
    rfl

/-- For `y' = L y` a step multiplies by the stability polynomial of the tableau at `dt L`. -/
theorem step_linear (L : S →ₗ[K] S) (t : K) (y : S) (dt : K) (rows : Tableau K) (hex : Explicit 0 rows) (b : List K)
    (ks : List S) (hks : IsStages rows (fun _ v => L v) t y dt (L y) ks) :
    y + dt • wsum b ks = evalPoly (dt • L) y (stability rows b) := by
  have h := stages_linear L t y dt rows 0 hex [[1]] rfl ks (by
    have h := hks
    unfold IsStages at h
    nth_rewrite 1 [h]
    simp [evalPoly, newKs])
  rw [stability, evalPoly, evalPoly_lcombL, one_smul, LinearMap.smul_apply, ← wsum_map_linear, List.map_map, h]
  rfl

end spec
end Mapleaf.Motion.RK
