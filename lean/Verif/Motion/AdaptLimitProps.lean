import Verif.Motion.CachedStepProps
import Verif.Motion.AdaptTabProps
import Verif.Motion.AdaptFlightModel
import Verif.Motion.AdaptProps

/-! # C103: flights with adaptive steps converge to the true motion -/

namespace Mapleaf.Motion.Lim
open Set Mapleaf.Motion.RK

/-! ## The attempts -/

/-- What an adaptive call returns is the attempt with the step size it returns, which is at least the minimum. -/
theorem loop_result {S : Type} (s : Settings ℝ) (try_ : ℝ → Except PyErr (Attempt ℝ S)) (fuel : ℕ) (dt err : ℝ) (prev : Option (Attempt ℝ S)) (tried : List ℝ)
    (disc : ℕ) (hp : ∀ a, prev = some a → try_ dt = .ok a ∧ s.minTimeStep ≤ dt) (r : Loop ℝ S) (h : attemptLoop s try_ fuel dt err prev tried disc = .ok r) :
    try_ r.dt = .ok r.result ∧ s.minTimeStep ≤ r.dt := by
  induction fuel generalizing dt err prev tried disc with
  | zero =>
    rw [attemptLoop.eq_def] at h
    dsimp only at h
    split at h
    · cases h
    · cases prev with
      | none => cases h
      | some a => cases h; exact hp a rfl
  | succ fuel ih =>
    rw [attemptLoop.eq_def] at h
    dsimp only at h
    split at h
    · generalize hd : max s.minTimeStep (dt / 3) = d at h
      have hmin : s.minTimeStep ≤ d := hd ▸ le_max_left _ _
      cases ht : try_ d with
      | error e => rw [ht] at h; cases h
      | ok a =>
        rw [ht] at h
        dsimp only at h
        split at h
        · cases h; exact ⟨ht, hmin⟩
        · exact ih _ _ _ _ _ (fun a' ha' => by cases ha'; exact ⟨ht, hmin⟩) h
    · cases prev with
      | none => cases h
      | some a => cases h; exact hp a rfl

section link
variable {E : Type} [NormedAddCommGroup E] [NormedSpace ℝ E]

/-- the method that gives the values of an adaptive tableau: its last row but one has the weights -/
noncomputable def coefA (tab : Tableau ℝ) : Coef := coefOf tab.dropLast.dropLast (tab.dropLast.getLast?.getD [])

theorem attempt_rkK (mag : E → ℝ) (tab : Tableau ℝ) (hs : Shape 2 tab) (cache : Option E) (f : ℝ → E → E) (t : ℝ) (x : E) (h : ℝ) :
    ∃ a, attempt mag tab cache f t x h = .ok a ∧ a.newValue = rkK (coefA tab) f t x h (cache.getD (f t x)) ∧
      a.last = stageK (coefA tab) f t x h (cache.getD (f t x)) ((coefA tab).s - 1) := by
  obtain ⟨a, ks, b, bc, h1, h2, h3, h4, h5, _, _, h8, _⟩ := attempt_spec mag tab hs cache f t x h
  have hex : Explicit 0 tab.dropLast.dropLast := by rw [dropLast_dropLast]; exact hs.explicit
  have hks := isStagesK_iff tab.dropLast.dropLast b hex f t x h _ ks h4
  have hlen : tab.dropLast.dropLast.length + 1 = tab.length - 2 + 1 := by simp; omega
  have hbl : b.length = tab.dropLast.dropLast.length + 1 := by
    rw [hlen]
    apply hs.result
    have h2' : tab.dropLast.length - 1 = tab.length - 2 := by simp; omega
    have hne : tab.dropLast ≠ [] := by intro h0; rw [h0] at h2; simp at h2
    have e1 : tab.dropLast.drop (tab.dropLast.length - 1) = [b] := by
      rw [List.drop_length_sub_one hne]
      rw [List.getLast?_eq_some_getLast hne] at h2
      injection h2 with h2
      rw [h2]
    have e2 : tab.drop (tab.length - 2) = tab.dropLast.drop (tab.length - 2) ++ [bc] := by
      have hne' : tab ≠ [] := by intro h0; rw [h0] at h3; simp at h3
      rw [List.getLast?_eq_some_getLast hne'] at h3
      injection h3 with h3
      have e3 : tab = tab.dropLast ++ [bc] := by rw [← h3]; exact (List.dropLast_append_getLast hne').symm
      have e4 : ∀ n ≤ tab.dropLast.length, tab.drop n = tab.dropLast.drop n ++ [bc] := fun n hn => by
        conv_lhs => rw [e3]
        rw [List.drop_append_of_le_length hn]
      exact e4 _ (by rw [List.length_dropLast]; omega)
    rw [e2, ← h2', e1]
    simp
  have hcoef : coefA tab = coefOf tab.dropLast.dropLast b := by unfold coefA; rw [h2]; rfl
  refine ⟨a, h1, ?_, ?_⟩
  · rw [h5, hks, hcoef]
    exact wsum_rkK _ b hbl f t x h _
  · rw [hks] at h8
    rw [hcoef]
    have : (coefOf tab.dropLast.dropLast b).s - 1 = tab.dropLast.dropLast.length := by simp [coefOf]
    rw [this]
    rw [List.range_succ, List.map_append, List.map_singleton, List.getLast?_concat] at h8
    exact (Option.some.inj h8).symm

/-- **C103.** Whatever step sizes are requested and whatever attempts are discarded, a flight visits the states of the method for the steps taken,
which are at least the minimum. -/
theorem adapt_marchK (s : Settings ℝ) (mag : E → ℝ) (tab : Tableau ℝ) (hs : Shape 2 tab) (fsal : Bool) (f : ℝ → E → E) (fuel : ℕ) (dts : List ℝ) (b b' : Adapted E)
    (hs' : List ℝ) (h : adaptSteps s mag tab fsal f fuel b dts = .ok (hs', b')) :
    b'.time = b.time + hs'.sum ∧ b'.state = marchK (coefA tab) f fsal b.time b.state b.cache hs' ∧ hs'.length = dts.length ∧ ∀ x ∈ hs', s.minTimeStep ≤ x := by
  induction dts generalizing b hs' with
  | nil =>
    cases h
    simp [marchK]
  | cons dt dts ih =>
    unfold adaptSteps adaptStep at h
    cases hr : adaptiveCall s (fun h => attempt mag tab b.cache f b.time b.state h) fuel dt with
    | error e => rw [hr] at h; cases h
    | ok r =>
      rw [hr] at h
      dsimp only at h
      generalize hb1 : (⟨b.time + r.dt, r.result.newValue, newCache fsal b.cache r.result⟩ : Adapted E) = b₁ at h
      cases hn : adaptSteps s mag tab fsal f fuel b₁ dts with
      | error e => rw [hn] at h; cases h
      | ok p =>
        obtain ⟨hs₁, b₂⟩ := p
        rw [hn] at h
        dsimp only at h
        cases h
        obtain ⟨i1, i2, i3, i4⟩ := ih b₁ hs₁ hn
        obtain ⟨l1, l2⟩ := loop_result s _ fuel (dt * 3) 10000000 none [] 0 (fun a ha => by cases ha) r hr
        obtain ⟨a, a1, a2, a3⟩ := attempt_rkK mag tab hs b.cache f b.time b.state r.dt
        have ha : a = r.result := by
          have := a1.symm.trans l1
          injection this
        rw [ha] at a2 a3
        subst hb1
        refine ⟨by rw [i1, List.sum_cons]; ring, ?_, by simp [i3], fun x hx => ?_⟩
        · rw [i2]
          dsimp only
          rw [marchK, a2, newCache, a3]
        · rcases List.mem_cons.1 hx with rfl | hx
          · exact l2
          · exact i4 x hx

end link

/-! ## The tableaus of the code -/

/-- A tableau is within `ε` of the exact tableau of a method, with the same times of the stages. -/
structure NearTab (m : String) (fsal : Bool) (ε : ℝ) (tab : Tableau ℝ) : Prop where
  shape : Shape 2 tab
  s : (coefA tab).s = (coefI (ideal m)).s
  c : (coefA tab).c = (coefI (ideal m)).c
  A : ∀ i j, |(coefA tab).A i j - (coefI (ideal m)).A i j| ≤ ε
  b : ∀ i, |(coefA tab).b i - (coefI (ideal m)).b i| ≤ ε
  fsal : fsal = true → (coefA tab).Fsal ε

/-- the comparison of two rational tableaus, the second with two rows of weights -/
def nearB (ide tab : Tableau ℚ) (ε : ℚ) : Bool :=
  decide (tab.length = ide.length + 1) &&
  (List.range (ide.length + 1)).all (fun i => decide (qc (tab.take (tab.length - 2)) i = qc (ide.take (ide.length - 1)) i) &&
    (List.range (ide.length + 1)).all (fun j => decide (|qA (tab.take (tab.length - 2)) i j - qA (ide.take (ide.length - 1)) i j| ≤ ε)) &&
    decide (|qb (tab.dropLast.getLast?.getD []) i - qb (ide.getLast?.getD []) i| ≤ ε)) &&
  (tab.take (tab.length - 2)).all (fun r => decide (r.length ≤ ide.length + 1)) && (ide.take (ide.length - 1)).all (fun r => decide (r.length ≤ ide.length + 1)) &&
  decide ((tab.dropLast.getLast?.getD []).length ≤ ide.length + 1) && decide ((ide.getLast?.getD []).length ≤ ide.length + 1)

def fsalB (tab : Tableau ℚ) (ε : ℚ) : Bool :=
  let n := tab.length - 2
  decide (1 ≤ n) && decide (qc (tab.take n) n = 1) && (List.range n).all (fun i => decide (qb (tab.dropLast.getLast?.getD []) i = qA (tab.take n) n i)) &&
  decide (|qb (tab.dropLast.getLast?.getD []) n| ≤ ε)

theorem coefA_cast (tab : Tableau ℚ) : coefA (castT tab) = coefOf (castT (tab.take (tab.length - 2))) (castL (tab.dropLast.getLast?.getD [])) := by
  unfold coefA
  congr 1
  · rw [dropLast_dropLast, castT_length, castT_take]
  · rw [castT, ← List.map_dropLast, List.getLast?_map]
    cases tab.dropLast.getLast? <;> simp [castL]

theorem getD_beyond {α : Type} (l : List α) (d : α) (n : ℕ) (h : l.length ≤ n) : l.getD n d = d := by
  rw [List.getD_eq_getElem?_getD, List.getElem?_eq_none h]; rfl

theorem qA_big (rows : Tableau ℚ) (n i j : ℕ) (h : ∀ r ∈ rows, r.length ≤ n) (hl : rows.length < n) (hij : n ≤ i ∨ n ≤ j) : qA rows i j = 0 := by
  unfold qA
  rcases hij with hi | hj
  · rw [getD_beyond ([0] :: rows) _ _ (by simp; omega)]; simp
  · have : ∀ r ∈ ([0] :: rows : Tableau ℚ), r.tail.length ≤ n := by
      intro r hr
      rcases List.mem_cons.1 hr with rfl | hr
      · simp
      · have := h r hr; simp; omega
    rw [List.getD_eq_getElem?_getD (l := ([0] :: rows))]
    cases hr : ([0] :: rows : Tableau ℚ)[i]? with
    | none => simp
    | some r =>
      simp only [Option.getD_some]
      rw [getD_beyond _ _ _ ((this r (List.mem_of_getElem? hr)).trans hj)]

theorem near_of_B (m : String) (fsal : Bool) (tab : Tableau ℚ) (ε : ℚ) (hε : 0 ≤ ε) (hshape : shapeB 2 tab = true) (h : nearB (ideal m) tab ε = true)
    (hf : fsal = true → fsalB tab ε = true) : NearTab m fsal ε (castT tab) := by
  have hε' : (0 : ℝ) ≤ ε := by exact_mod_cast hε
  simp only [nearB, Bool.and_eq_true, List.all_eq_true, List.mem_range, decide_eq_true_eq] at h
  obtain ⟨⟨⟨⟨⟨h1, h2⟩, h3⟩, h4⟩, h5⟩, h6⟩ := h
  set ide := ideal m with hide
  have hI : coefI ide = coefOf (castT (ide.take (ide.length - 1))) (castL (ide.getLast?.getD [])) := rfl
  have hlen : (tab.take (tab.length - 2)).length = (ide.take (ide.length - 1)).length := by simp only [List.length_take]; omega
  have hlt : (ide.take (ide.length - 1)).length < ide.length + 1 := by simp only [List.length_take]; omega
  have hA : ∀ i j, |qA (tab.take (tab.length - 2)) i j - qA (ide.take (ide.length - 1)) i j| ≤ ε := fun i j => by
    by_cases hij : ide.length + 1 ≤ i ∨ ide.length + 1 ≤ j
    · rw [qA_big _ (ide.length + 1) i j h3 (by omega) hij, qA_big _ (ide.length + 1) i j h4 hlt hij]
      simpa using hε
    · push Not at hij
      exact (h2 i hij.1).1.2 j hij.2
  have hb : ∀ i, |qb (tab.dropLast.getLast?.getD []) i - qb (ide.getLast?.getD []) i| ≤ ε := fun i => by
    by_cases hi : ide.length + 1 ≤ i
    · unfold qb
      rw [getD_beyond _ _ _ (h5.trans hi), getD_beyond _ _ _ (h6.trans hi)]
      simpa using hε
    · exact (h2 i (by omega)).2
  have hc : ∀ i, qc (tab.take (tab.length - 2)) i = qc (ide.take (ide.length - 1)) i := fun i => by
    by_cases hi : ide.length + 1 ≤ i
    · unfold qc
      rw [getD_beyond ([0] :: tab.take (tab.length - 2)) _ _ (by rw [List.length_cons]; omega),
        getD_beyond ([0] :: ide.take (ide.length - 1)) _ _ (by rw [List.length_cons]; omega)]
    · exact (h2 i (by omega)).1.1
  refine ⟨shape_cast 2 tab hshape, ?_, ?_, fun i j => ?_, fun i => ?_, fun hff => ?_⟩
  · rw [coefA_cast, hI, coef_s, coef_s, hlen]
  · funext i
    rw [coefA_cast, hI, coef_c, coef_c, hc]
  · rw [coefA_cast, hI, coef_A, coef_A]
    exact_mod_cast hA i j
  · rw [coefA_cast, hI, coef_b, coef_b]
    exact_mod_cast hb i
  · have := hf hff
    simp only [fsalB, Bool.and_eq_true, List.all_eq_true, List.mem_range, decide_eq_true_eq] at this
    obtain ⟨⟨⟨g1, g2⟩, g3⟩, g4⟩ := this
    have hs : (coefA (castT tab)).s - 1 = tab.length - 2 := by
      rw [coefA_cast, coef_s, List.length_take]
      omega
    have hs2 : (coefA (castT tab)).s = tab.length - 2 + 1 := by
      rw [coefA_cast, coef_s, List.length_take]
      omega
    refine ⟨by omega, ?_, fun i hi => ?_, ?_⟩
    · rw [hs, coefA_cast, coef_c, g2]; norm_num
    · rw [hs] at hi ⊢
      rw [coefA_cast, coef_b, coef_A, g3 i hi]
    · rw [hs, coefA_cast, coef_b]
      exact_mod_cast g4

set_option maxRecDepth 100000 in
/-- **C103.** The tableau the code works with is within `1e-16` of the exact one. -/
theorem code_near (mp : String × ℕ) (h : mp ∈ adaptiveOrders) : ∃ tab fsal, adaptiveWorking mp.1 = .ok (tab, fsal) ∧ NearTab mp.1 fsal (1 / 10 ^ 16) tab := by
  have key (m : String) (tab : Tableau ℚ) (fsal : Bool) (hm : adaptiveTableau m = .ok (tab, fsal)) (hc : rowsConsistent 0 tab = true)
      (hs : shapeB 2 (patch tab) = true) (hn : nearB (ideal m) (patch tab) (1 / 10 ^ 16) = true) (hf : fsal = true → fsalB (patch tab) (1 / 10 ^ 16) = true) :
      ∃ tab fsal, adaptiveWorking m = .ok (tab, fsal) ∧ NearTab m fsal (1 / 10 ^ 16) tab := by
    refine ⟨castT (patch tab), fsal, ?_, ?_⟩
    · unfold adaptiveWorking; rw [hm]; dsimp only; rw [checkTableau_cast tab hc]
    · have := near_of_B m fsal (patch tab) (1 / 10 ^ 16) (by norm_num) hs hn hf
      push_cast at this
      exact this
  simp only [adaptiveOrders, List.mem_cons, List.not_mem_nil, or_false] at h
  rcases h with rfl | rfl | rfl | rfl
  · exact key _ tabRK12 false (by simp [adaptiveTableau]) (by decide +kernel) (by decide +kernel) (by decide +kernel) (by simp)
  · exact key _ tabRK23 true (by simp [adaptiveTableau]) (by decide +kernel) (by decide +kernel) (by decide +kernel) (fun _ => by decide +kernel)
  · exact key _ tabRK45 true (by simp [adaptiveTableau]) (by decide +kernel) (by decide +kernel) (by decide +kernel) (fun _ => by decide +kernel)
  · exact key _ tabRK78 false (by simp [adaptiveTableau]) (by decide +kernel) (by decide +kernel) (by decide +kernel) (by simp)

end Mapleaf.Motion.Lim
