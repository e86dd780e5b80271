import Verif.SimDef.ResampleModel
import Mathlib.Tactic.Tauto

/-! # C08: repeated Monte Carlo sampling does not drift -/

namespace Mapleaf.SimDef
open Str

variable {K : Type} [Add K] [Mul K]

/-! ## Specification -/

/-- A probabilistic value of a definition: a key that has a standard deviation. -/
def Prob (D : Dict Str Str) (k : Str) : Prop := k ∈ Dict.keys D ∧ (k ++ "_stdDev".toList) ∈ Dict.keys D

/-- Neither standard deviations nor means are themselves given a standard deviation. -/
def Flat (D : Dict Str Str) : Prop :=
  ∀ k, Prob D k → ¬ Prob D (k ++ "_stdDev".toList) ∧ (k ++ "_mean".toList ++ "_stdDev".toList) ∉ Dict.keys D

/-- The mean of a key as written by the user: `key_mean`, or the value of `key`. -/
def userMean (D : Dict Str Str) (k : Str) : Option Str :=
  match Dict.get? D (k ++ "_mean".toList) with
  | some m => some m
  | none => Dict.get? D k

/-- `v` is a sample of `k` (mean and deviation as in `D0`) made from the draws starting at number `i`; `w` is the
number of draws used. -/
def IsSample (T : NumText K) (z : Nat → K) (D0 : Dict Str Str) (k : Str) (i w : Nat) (v : Str) : Prop :=
  ∃ m s, userMean D0 k = some m ∧ Dict.get? D0 (k ++ "_stdDev".toList) = some s ∧
    ((∃ mu sg, T.parse m = some mu ∧ T.parse s = some sg ∧ w = 1 ∧ v = T.print (mu + z i * sg)) ∨
     ((T.parse m = none ∨ T.parse s = none) ∧ ∃ a b c p q r, T.parseVec m = some (a, b, c) ∧ T.parseVec s = some (p, q, r) ∧ w = 3 ∧
       v = T.printVec (a + z i * p, b + z (i + 1) * q, c + z (i + 2) * r)))

/-- `D` differs from the user's definition `D0` only in the values of probabilistic keys and in recorded means. -/
structure Faithful (D0 D : Dict Str Str) : Prop where
  wf : Dict.WF D
  mean : ∀ k, Prob D0 k → userMean D k = userMean D0 k
  other : ∀ x, ¬ Prob D0 x → (¬ ∃ k, Prob D0 k ∧ x = k ++ "_mean".toList) → Dict.get? D x = Dict.get? D0 x
  means : ∀ k, Prob D0 k → ∀ m, Dict.get? D (k ++ "_mean".toList) = some m → userMean D0 k = some m
  present : ∀ k, Prob D0 k → k ∈ Dict.keys D

/-! ## Proof -/

theorem sd_ne_mean (a b : Str) : a ++ "_stdDev".toList ≠ b ++ "_mean".toList := by
  intro h
  have := congrArg List.getLast? h
  rw [List.getLast?_append, List.getLast?_append] at this
  have e1 : "_stdDev".toList.getLast? = some 'v' := by decide
  have e2 : "_mean".toList.getLast? = some 'n' := by decide
  rw [e1, e2] at this
  simp at this

theorem suffix_ne (a b : Str) (h : b ≠ []) : a ++ b ≠ a := by
  intro hh
  have := congrArg List.length hh
  cases b with
  | nil => exact h rfl
  | cons x xs => simp at this

theorem Faithful.refl {D0 : Dict Str Str} (h : Dict.WF D0) : Faithful D0 D0 :=
  ⟨h, fun _ _ => rfl, fun _ _ _ => rfl, fun k _ m hm => by unfold userMean; rw [hm], fun _ h => h.1⟩

theorem Faithful.sd {D0 D : Dict Str Str} (hf : Flat D0) (h : Faithful D0 D) {k : Str} (hk : Prob D0 k) :
    Dict.get? D (k ++ "_stdDev".toList) = Dict.get? D0 (k ++ "_stdDev".toList) := by
  apply h.other
  · exact (hf k hk).1
  · rintro ⟨j, _, hj⟩; exact sd_ne_mean _ _ hj

theorem Faithful.prob {D0 D : Dict Str Str} (hf : Flat D0) (h : Faithful D0 D) (k : Str) : Prob D k ↔ Prob D0 k := by
  constructor
  · rintro ⟨h1, h2⟩
    by_contra hn
    -- the deviation key is untouched
    have hsd : (k ++ "_stdDev".toList) ∈ Dict.keys D0 := by
      by_cases hp : Prob D0 (k ++ "_stdDev".toList)
      · exact hp.1
      · have := h.other (k ++ "_stdDev".toList) hp (by rintro ⟨j, _, hj⟩; exact sd_ne_mean _ _ hj)
        rw [← Dict.get?_isSome_iff] at h2 ⊢
        rwa [this] at h2
    by_cases hm : ∃ j, Prob D0 j ∧ k = j ++ "_mean".toList
    · obtain ⟨j, hj, rfl⟩ := hm
      exact (hf j hj).2 hsd
    · have := h.other k hn hm
      apply hn
      refine ⟨?_, hsd⟩
      rw [← Dict.get?_isSome_iff] at h1 ⊢
      rwa [this] at h1
  · intro hk
    refine ⟨h.present k hk, ?_⟩
    have := hk.2
    rw [← Dict.get?_isSome_iff] at this ⊢
    rwa [h.sd hf hk]

/-- Effect of one loop iteration on a probabilistic key. -/
theorem resampleKey_prob (T : NumText K) (z : Nat → K) {D0 D D' : Dict Str Str} {k : Str} {n n' : Nat} (hf : Flat D0)
    (h : Faithful D0 D) (hk : Prob D0 k) (hr : resampleKey T z k D n = .ok (D', n')) :
    Faithful D0 D' ∧ (∃ w v, n' = n + w ∧ 1 ≤ w ∧ Dict.get? D' k = some v ∧ IsSample T z D0 k n w v) ∧
    Dict.get? D' (k ++ "_mean".toList) = userMean D0 k ∧
    ∀ j, Prob D0 j → j ≠ k → Dict.get? D' j = Dict.get? D j ∧
      Dict.get? D' (j ++ "_mean".toList) = Dict.get? D (j ++ "_mean".toList) := by
  have hprob := (h.prob hf k).2 hk
  have hhas : Dict.has D (k ++ sdSuffix) = true := by
    rw [Dict.has_iff]; exact hprob.2
  unfold resampleKey at hr
  rw [if_pos hhas] at hr
  -- the mean
  have hmean := h.mean k hk
  obtain ⟨m, D1, hm, hwf1, hget1, hr1⟩ : ∃ m D1, userMean D0 k = some m ∧ Dict.WF D1 ∧
      (∀ x, Dict.get? D1 x = if k ++ "_mean".toList = x then some m else Dict.get? D x) ∧
      meanStep D k = some (m, D1) := by
    unfold meanStep
    cases hd : Dict.get? D (k ++ meanSuffix) with
    | some m =>
      refine ⟨m, D, ?_, h.wf, ?_, rfl⟩
      · rw [← hmean]; unfold userMean; rw [show "_mean".toList = meanSuffix from rfl, hd]
      · intro x
        split
        · rename_i e; rw [← e]; exact hd
        · rfl
    | none =>
      have := hprob.1
      rw [← Dict.get?_isSome_iff] at this
      obtain ⟨m, hm⟩ := Option.isSome_iff_exists.1 this
      rw [hm]
      refine ⟨m, _, ?_, Dict.WF_set h.wf _ _, ?_, rfl⟩
      · rw [← hmean]; unfold userMean; rw [show "_mean".toList = meanSuffix from rfl, hd]; exact hm
      · intro x; exact Dict.get?_set _ _ _ _
  rw [hr1] at hr
  simp only at hr
  -- the deviation
  have hsd1 : Dict.get? D1 (k ++ sdSuffix) = Dict.get? D0 (k ++ "_stdDev".toList) := by
    rw [hget1, if_neg (fun e => sd_ne_mean _ _ e.symm)]; exact h.sd hf hk
  obtain ⟨s, hs⟩ := Option.isSome_iff_exists.1 ((Dict.get?_isSome_iff D0 _).2 hk.2)
  rw [hsd1, hs] at hr
  simp only at hr
  -- common tail
  have tail : ∀ v w, IsSample T z D0 k n w v → 1 ≤ w →
      Faithful D0 (Dict.set D1 k v) ∧ (∃ w' v', n + w = n + w' ∧ 1 ≤ w' ∧ Dict.get? (Dict.set D1 k v) k = some v' ∧
        IsSample T z D0 k n w' v') ∧ Dict.get? (Dict.set D1 k v) (k ++ "_mean".toList) = userMean D0 k ∧
      ∀ j, Prob D0 j → j ≠ k → Dict.get? (Dict.set D1 k v) j = Dict.get? D j ∧
        Dict.get? (Dict.set D1 k v) (j ++ "_mean".toList) = Dict.get? D (j ++ "_mean".toList) := by
    intro v w hv hw
    have hg : ∀ x, Dict.get? (Dict.set D1 k v) x =
        if k = x then some v else if k ++ "_mean".toList = x then some m else Dict.get? D x := by
      intro x; rw [Dict.get?_set, hget1]
    have hnm : ∀ j, Prob D0 j → ∀ i, j ≠ i ++ "_mean".toList ∨ ¬ Prob D0 i := by
      intro j hj i
      by_cases hi : Prob D0 i
      · left; rintro rfl; exact (hf i hi).2 hj.2
      · right; exact hi
    have hothers : ∀ j, Prob D0 j → j ≠ k → Dict.get? (Dict.set D1 k v) j = Dict.get? D j ∧
        Dict.get? (Dict.set D1 k v) (j ++ "_mean".toList) = Dict.get? D (j ++ "_mean".toList) := by
      intro j hj hjk
      constructor
      · rw [hg, if_neg (fun e => hjk e.symm), if_neg]
        intro e
        rcases hnm j hj k with h | h
        · exact h e.symm
        · exact h hk
      · rw [hg, if_neg, if_neg]
        · intro e; exact hjk (List.append_cancel_right e).symm
        · intro e
          rcases hnm k hk j with h | h
          · exact h e
          · exact h hj
    have hkm : Dict.get? (Dict.set D1 k v) (k ++ "_mean".toList) = some m := by
      rw [hg, if_neg (fun e => suffix_ne k "_mean".toList (by decide) e.symm), if_pos rfl]
    refine ⟨⟨Dict.WF_set hwf1 _ _, ?_, ?_, ?_, ?_⟩, ⟨w, v, rfl, hw, Dict.get?_set_self _ _ _, hv⟩, by rw [hkm, hm], hothers⟩
    · intro j hj
      by_cases hjk : j = k
      · subst hjk; unfold userMean; rw [hkm]; exact hm.symm
      · rw [← h.mean j hj]
        unfold userMean
        rw [(hothers j hj hjk).1, (hothers j hj hjk).2]
    · intro x hx hx2
      rw [hg, if_neg, if_neg]
      · exact h.other x hx hx2
      · intro e; exact hx2 ⟨k, hk, e.symm⟩
      · rintro rfl; exact hx hk
    · intro j hj m' hm'
      by_cases hjk : j = k
      · subst hjk; rw [hkm] at hm'; cases hm'; exact hm
      · rw [(hothers j hj hjk).2] at hm'; exact h.means j hj m' hm'
    · intro j hj
      rw [← Dict.get?_isSome_iff]
      by_cases hjk : j = k
      · subst hjk; rw [Dict.get?_set_self]; rfl
      · rw [(hothers j hj hjk).1, Dict.get?_isSome_iff]; exact h.present j hj
  -- the branches
  have vec : ∀ (_ : T.parse m = none ∨ T.parse s = none), vecStep T z k m s D1 n = Except.ok (D', n') →
      ∃ v w, D' = Dict.set D1 k v ∧ n' = n + w ∧ IsSample T z D0 k n w v ∧ 1 ≤ w := by
    intro hp hr
    unfold vecStep at hr
    cases hv1 : T.parseVec m with
    | none => rw [hv1] at hr; cases hr
    | some abc =>
      obtain ⟨a, b, c⟩ := abc
      cases hv2 : T.parseVec s with
      | none => rw [hv1, hv2] at hr; cases hr
      | some pqr =>
        obtain ⟨p, q, r⟩ := pqr
        rw [hv1, hv2] at hr
        cases hr
        exact ⟨_, 3, rfl, rfl, ⟨m, s, hm, hs, Or.inr ⟨hp, a, b, c, p, q, r, hv1, hv2, rfl, rfl⟩⟩, by omega⟩
  have main : ∃ v w, D' = Dict.set D1 k v ∧ n' = n + w ∧ IsSample T z D0 k n w v ∧ 1 ≤ w := by
    cases hp1 : T.parse m with
    | none => rw [hp1] at hr; exact vec (Or.inl hp1) hr
    | some mu =>
      cases hp2 : T.parse s with
      | none => rw [hp1, hp2] at hr; exact vec (Or.inr hp2) hr
      | some sg =>
        rw [hp1, hp2] at hr
        cases hr
        exact ⟨_, 1, rfl, rfl, ⟨m, s, hm, hs, Or.inl ⟨mu, sg, hp1, hp2, rfl, rfl⟩⟩, by omega⟩
  obtain ⟨v, w, rfl, rfl, hv, hw⟩ := main
  exact tail v w hv hw

theorem resampleKey_other (T : NumText K) (z : Nat → K) {D0 D : Dict Str Str} {k : Str} {n : Nat} (hf : Flat D0)
    (h : Faithful D0 D) (hk : ¬ Prob D0 k) (hin : k ∈ Dict.keys D) : resampleKey T z k D n = .ok (D, n) := by
  have : ¬ Dict.has D (k ++ sdSuffix) = true := by
    rw [Dict.has_iff]
    intro hh
    exact hk ((h.prob hf k).1 ⟨hin, hh⟩)
  unfold resampleKey
  rw [if_neg this]

/-- All probabilistic keys in `ks` hold samples made from draws in `[lo, hi)`, no two of them sharing a draw. -/
def SampledIn (T : NumText K) (z : Nat → K) (D0 D : Dict Str Str) (ks : List Str) (lo hi : Nat) : Prop :=
  ∃ idx wid : Str → Nat,
    (∀ k ∈ ks, Prob D0 k → lo ≤ idx k ∧ 1 ≤ wid k ∧ idx k + wid k ≤ hi ∧
      ∃ v, Dict.get? D k = some v ∧ IsSample T z D0 k (idx k) (wid k) v) ∧
    ∀ j ∈ ks, ∀ k ∈ ks, Prob D0 j → Prob D0 k → j ≠ k → idx j + wid j ≤ idx k ∨ idx k + wid k ≤ idx j

theorem resampleKeys_spec (T : NumText K) (z : Nat → K) {D0 : Dict Str Str} (hf : Flat D0) :
    ∀ (ks : List Str) (D D' : Dict Str Str) (n n' : Nat), ks.Nodup → (∀ k ∈ ks, k ∈ Dict.keys D) → Faithful D0 D →
      resampleKeys T z ks D n = .ok (D', n') →
      Faithful D0 D' ∧ n ≤ n' ∧ SampledIn T z D0 D' ks n n' ∧
      (∀ k ∈ ks, Prob D0 k → Dict.get? D' (k ++ "_mean".toList) = userMean D0 k) ∧
      (∀ j, Prob D0 j → j ∉ ks → Dict.get? D' j = Dict.get? D j ∧
        Dict.get? D' (j ++ "_mean".toList) = Dict.get? D (j ++ "_mean".toList)) ∧
      (∀ x ∈ Dict.keys D, x ∈ Dict.keys D') := by
  intro ks
  induction ks with
  | nil =>
    intro D D' n n' _ _ h hr
    cases hr
    exact ⟨h, le_refl _, ⟨fun _ => 0, fun _ => 0, by simp, by simp⟩, by simp, fun _ _ _ => ⟨rfl, rfl⟩, fun _ hx => hx⟩
  | cons k ks ih =>
    intro D D' n n' hnd hin h hr
    have hk_not : k ∉ ks := (List.nodup_cons.1 hnd).1
    unfold resampleKeys at hr
    cases hk1 : resampleKey T z k D n with
    | error e => rw [hk1] at hr; cases hr
    | ok r =>
      obtain ⟨D1, n1⟩ := r
      rw [hk1] at hr
      simp only at hr
      by_cases hk : Prob D0 k
      · obtain ⟨f1, ⟨w, v, hn1, hw, hv, hs⟩, hmk, hoth⟩ := resampleKey_prob T z hf h hk hk1
        have hkeys1 : ∀ x ∈ Dict.keys D, x ∈ Dict.keys D1 := by
          intro x hx
          by_cases hp : Prob D0 x
          · exact f1.present x hp
          · by_cases hmx : ∃ j, Prob D0 j ∧ x = j ++ "_mean".toList
            · obtain ⟨j, hj, rfl⟩ := hmx
              rw [← Dict.get?_isSome_iff]
              by_cases hjk : j = k
              · subst hjk; rw [hmk]
                have := (Dict.get?_isSome_iff D0 j).2 hj.1
                unfold userMean
                cases hx : Dict.get? D0 (j ++ "_mean".toList) <;> simp [this]
              · rw [(hoth j hj hjk).2, Dict.get?_isSome_iff]; exact hx
            · rw [← Dict.get?_isSome_iff] at hx ⊢
              rw [f1.other x hp hmx, ← h.other x hp hmx]; exact hx
        obtain ⟨i1, i2, ⟨idx, wid, i3, i4⟩, i5, i6, i7⟩ :=
          ih D1 D' n1 n' (List.nodup_cons.1 hnd).2 (fun x hx => hkeys1 x (hin x (by simp [hx]))) f1 hr
        refine ⟨i1, by omega, ⟨fun x => if x = k then n else idx x, fun x => if x = k then w else wid x, ?_, ?_⟩, ?_, ?_, fun x hx => i7 x (hkeys1 x hx)⟩
        · intro j hj hpj
          by_cases hjk : j = k
          · subst hjk
            simp only [if_true]
            exact ⟨le_refl _, hw, by omega, v, by rw [(i6 j hpj hk_not).1]; exact hv, hs⟩
          · simp only [hjk, if_false]
            have hj' : j ∈ ks := (List.mem_cons.1 hj).resolve_left hjk
            obtain ⟨a, b, c, d⟩ := i3 j hj' hpj
            exact ⟨by omega, b, c, d⟩
        · intro j hj l hl hpj hpl hjl
          by_cases hjk : j = k
          · subst hjk
            have hl' : l ∈ ks := (List.mem_cons.1 hl).resolve_left (fun e => hjl e.symm)
            have := (i3 l hl' hpl).1
            simp only [if_true, if_neg (fun e : l = j => hjl e.symm)]
            left; omega
          · have hj' : j ∈ ks := (List.mem_cons.1 hj).resolve_left hjk
            by_cases hlk : l = k
            · subst hlk
              have := (i3 j hj' hpj).1
              simp only [if_true, if_neg hjk]
              right; omega
            · have hl' : l ∈ ks := (List.mem_cons.1 hl).resolve_left hlk
              simp only [if_neg hjk, if_neg hlk]
              exact i4 j hj' l hl' hpj hpl hjl
        · intro j hj hpj
          by_cases hjk : j = k
          · subst hjk; rw [(i6 j hpj hk_not).2]; exact hmk
          · exact i5 j ((List.mem_cons.1 hj).resolve_left hjk) hpj
        · intro j hpj hj
          simp only [List.mem_cons, not_or] at hj
          obtain ⟨a, b⟩ := i6 j hpj hj.2
          obtain ⟨c, d⟩ := hoth j hpj hj.1
          exact ⟨a.trans c, b.trans d⟩
      · have := resampleKey_other T z (n := n) hf h hk (hin k (by simp))
        rw [this] at hk1
        cases hk1
        obtain ⟨i1, i2, ⟨idx, wid, i3, i4⟩, i5, i6, i7⟩ :=
          ih D D' n n' (List.nodup_cons.1 hnd).2 (fun x hx => hin x (by simp [hx])) h hr
        have hmem : ∀ j ∈ k :: ks, Prob D0 j → j ∈ ks := by
          intro j hj hpj
          rcases List.mem_cons.1 hj with rfl | hj
          · exact absurd hpj hk
          · exact hj
        refine ⟨i1, i2, ⟨idx, wid, fun j hj hpj => i3 j (hmem j hj hpj) hpj,
          fun j hj l hl hpj hpl => i4 j (hmem j hj hpj) l (hmem l hl hpl) hpj hpl⟩,
          fun j hj hpj => i5 j (hmem j hj hpj) hpj, ?_, i7⟩
        intro j hpj hj
        exact i6 j hpj (fun e => hj (by simp [e]))

theorem resample_round (T : NumText K) (z : Nat → K) {D0 D D' : Dict Str Str} {n n' : Nat} (hf : Flat D0)
    (h : Faithful D0 D) (hr : resample T z false D n = .ok (D', n')) :
    Faithful D0 D' ∧ n ≤ n' ∧ SampledIn T z D0 D' (Dict.keys D) n n' ∧
    ∀ k, Prob D0 k → Dict.get? D' (k ++ "_mean".toList) = userMean D0 k := by
  unfold resample at hr
  simp only [Bool.false_eq_true, if_false] at hr
  obtain ⟨a, b, c, d, _, _⟩ := resampleKeys_spec T z hf _ D D' n n' h.wf (fun _ h => h) h hr
  exact ⟨a, b, c, fun k hk => d k (h.present k hk) hk⟩

/-- **C08** However often a definition is re-sampled, every probabilistic value is a sample around the *user's* mean
with the user's deviation, made only from random numbers drawn in the last round (`[lo, n')`), different values using
different random numbers; the user's means are recorded unchanged; and every other entry is as the user wrote it. -/
theorem resample_no_drift (T : NumText K) (z : Nat → K) (m : Nat) (D0 D' : Dict Str Str) (n n' : Nat)
    (hwf : Dict.WF D0) (hf : Flat D0) (hr : resampleRounds T z (m + 1) D0 n = .ok (D', n')) :
    (∃ lo Dl, resampleRounds T z m D0 n = .ok (Dl, lo) ∧ lo ≤ n' ∧
      ∃ idx wid : Str → Nat,
        (∀ k, Prob D0 k → lo ≤ idx k ∧ 1 ≤ wid k ∧ idx k + wid k ≤ n' ∧
          ∃ v, Dict.get? D' k = some v ∧ IsSample T z D0 k (idx k) (wid k) v) ∧
        ∀ j k, Prob D0 j → Prob D0 k → j ≠ k → idx j + wid j ≤ idx k ∨ idx k + wid k ≤ idx j) ∧
    (∀ k, Prob D0 k → Dict.get? D' (k ++ "_mean".toList) = userMean D0 k) ∧
    (∀ x, ¬ Prob D0 x → (¬ ∃ k, Prob D0 k ∧ x = k ++ "_mean".toList) → Dict.get? D' x = Dict.get? D0 x) := by
  have hfaith : ∀ m Dm nm, resampleRounds T z m D0 n = .ok (Dm, nm) → Faithful D0 Dm := by
    intro m
    induction m with
    | zero => intro Dm nm h; cases h; exact Faithful.refl hwf
    | succ m ih =>
      intro Dm nm h
      unfold resampleRounds at h
      cases hm : resampleRounds T z m D0 n with
      | error e => rw [hm] at h; cases h
      | ok r => obtain ⟨D1, n1⟩ := r; rw [hm] at h; exact (resample_round T z hf (ih D1 n1 hm) h).1
  unfold resampleRounds at hr
  cases hm : resampleRounds T z m D0 n with
  | error e => rw [hm] at hr; cases hr
  | ok r =>
    obtain ⟨D1, n1⟩ := r
    rw [hm] at hr
    have f1 := hfaith m D1 n1 hm
    obtain ⟨a, b, ⟨idx, wid, c, c2⟩, d⟩ := resample_round T z hf f1 hr
    refine ⟨⟨n1, D1, rfl, b, idx, wid, fun k hk => c k (f1.present k hk) hk,
      fun j k hj hk => c2 j (f1.present j hj) k (f1.present k hk) hj hk⟩, d, a.other⟩

/-- A probabilistic key whose mean and deviation can be read. -/
def Readable (T : NumText K) (D0 : Dict Str Str) (k : Str) : Prop :=
  ∀ m s, userMean D0 k = some m → Dict.get? D0 (k ++ "_stdDev".toList) = some s →
    (T.parse m ≠ none ∧ T.parse s ≠ none) ∨ (T.parseVec m ≠ none ∧ T.parseVec s ≠ none)

theorem resampleKey_ok_iff (T : NumText K) (z : Nat → K) {D0 D : Dict Str Str} {k : Str} {n : Nat} (hf : Flat D0)
    (h : Faithful D0 D) (hk : Prob D0 k) :
    (Readable T D0 k → ∃ r, resampleKey T z k D n = .ok r) ∧
    (¬ Readable T D0 k → resampleKey T z k D n = .error .valueError) := by
  have hprob := (h.prob hf k).2 hk
  have hhas : Dict.has D (k ++ sdSuffix) = true := by
    rw [Dict.has_iff]; exact hprob.2
  have hmean := h.mean k hk
  obtain ⟨s, hs⟩ := Option.isSome_iff_exists.1 ((Dict.get?_isSome_iff D0 _).2 hk.2)
  have hsd : Dict.get? D (k ++ sdSuffix) = some s := by rw [← hs]; exact h.sd hf hk
  obtain ⟨m, D1, hm, hsd1, hr1⟩ : ∃ m D1, userMean D0 k = some m ∧ Dict.get? D1 (k ++ sdSuffix) = some s ∧
      meanStep D k = some (m, D1) := by
    unfold meanStep
    cases hd : Dict.get? D (k ++ meanSuffix) with
    | some m =>
      refine ⟨m, D, ?_, hsd, rfl⟩
      rw [← hmean]; unfold userMean; rw [show "_mean".toList = meanSuffix from rfl, hd]
    | none =>
      have := hprob.1
      rw [← Dict.get?_isSome_iff] at this
      obtain ⟨m, hm⟩ := Option.isSome_iff_exists.1 this
      rw [hm]
      refine ⟨m, _, ?_, ?_, rfl⟩
      · rw [← hmean]; unfold userMean; rw [show "_mean".toList = meanSuffix from rfl, hd]; exact hm
      · rw [Dict.get?_set, if_neg]
        · exact hsd
        · intro e; exact sd_ne_mean _ _ e.symm
  unfold resampleKey
  rw [if_pos hhas]
  rw [hr1]
  simp only [hsd1, vecStep]
  constructor
  · intro hr
    have := hr m s hm hs
    cases h1 : T.parse m <;> cases h2 : T.parse s <;> cases h3 : T.parseVec m <;> cases h4 : T.parseVec s <;>
      first | exact ⟨_, rfl⟩ | (simp [h1, h2, h3, h4] at this)
  · intro hr
    have : ¬ ((T.parse m ≠ none ∧ T.parse s ≠ none) ∨ (T.parseVec m ≠ none ∧ T.parseVec s ≠ none)) := by
      intro hh; apply hr; intro m' s' hm' hs'
      rw [hm] at hm'; rw [hs] at hs'; cases hm'; cases hs'; exact hh
    cases h1 : T.parse m <;> cases h2 : T.parse s <;> cases h3 : T.parseVec m <;> cases h4 : T.parseVec s <;>
      first | rfl | (simp [h1, h2, h3, h4] at this)

/-- **C08** Sampling succeeds in every round exactly when all probabilistic values are readable; otherwise it stops
with `ValueError` in the first round. -/
theorem resample_succeeds (T : NumText K) (z : Nat → K) (m : Nat) (D0 : Dict Str Str) (n : Nat)
    (hwf : Dict.WF D0) (hf : Flat D0) :
    ((∀ k, Prob D0 k → Readable T D0 k) → ∃ r, resampleRounds T z m D0 n = .ok r) ∧
    ((∃ k, Prob D0 k ∧ ¬ Readable T D0 k) → resample T z false D0 n = .error .valueError) := by
  have keysOk : (∀ k, Prob D0 k → Readable T D0 k) → ∀ (ks : List Str) (D : Dict Str Str) (n : Nat),
      Faithful D0 D → (∀ k ∈ ks, k ∈ Dict.keys D) → ks.Nodup → ∃ r, resampleKeys T z ks D n = .ok r := by
    intro hall ks
    induction ks with
    | nil => intro D n _ _ _; exact ⟨_, rfl⟩
    | cons k ks ih =>
      intro D n h hin hnd
      unfold resampleKeys
      by_cases hk : Prob D0 k
      · obtain ⟨⟨D1, n1⟩, hr⟩ := (resampleKey_ok_iff T z (n := n) hf h hk).1 (hall k hk)
        rw [hr]
        have hone : resampleKeys T z [k] D n = .ok (D1, n1) := by simp [resampleKeys, hr]
        obtain ⟨f, _, _, _, _, hk7⟩ := resampleKeys_spec T z hf [k] D D1 n n1 (by simp) (by simpa using hin k (by simp)) h hone
        exact ih D1 n1 f (fun x hx => hk7 x (hin x (by simp [hx]))) (List.nodup_cons.1 hnd).2
      · rw [resampleKey_other T z hf h hk (hin k (by simp))]
        exact ih D n h (fun x hx => hin x (by simp [hx])) (List.nodup_cons.1 hnd).2
  constructor
  · intro hall
    have : ∃ D1 n1, resampleRounds T z m D0 n = .ok (D1, n1) ∧ Faithful D0 D1 := by
      induction m with
      | zero => exact ⟨D0, n, rfl, Faithful.refl hwf⟩
      | succ m ih =>
        obtain ⟨D1, n1, h1, f1⟩ := ih
        obtain ⟨⟨D2, n2⟩, h2⟩ := keysOk hall (Dict.keys D1) D1 n1 f1 (fun _ h => h) f1.wf
        have hres : resample T z false D1 n1 = .ok (D2, n2) := by simp [resample, h2]
        refine ⟨D2, n2, ?_, (resample_round T z hf f1 hres).1⟩
        unfold resampleRounds
        rw [h1]; exact hres
    obtain ⟨D1, n1, h, _⟩ := this
    exact ⟨_, h⟩
  · rintro ⟨k, hk, hbad⟩
    have : ∀ (ks : List Str) (D : Dict Str Str) (n : Nat),
        Faithful D0 D → (∀ k ∈ ks, k ∈ Dict.keys D) → ks.Nodup → k ∈ ks →
        resampleKeys T z ks D n = .error .valueError := by
      intro ks
      induction ks with
      | nil => intro D n _ _ _ h; cases h
      | cons j ks ih =>
        intro D n h hin hnd hkm
        unfold resampleKeys
        by_cases hjk : j = k
        · subst hjk; rw [(resampleKey_ok_iff T z (n := n) hf h hk).2 hbad]
        · have hk' : k ∈ ks := (List.mem_cons.1 hkm).resolve_left (fun e => hjk e.symm)
          by_cases hj : Prob D0 j
          · by_cases hrd : Readable T D0 j
            · obtain ⟨⟨D1, n1⟩, hr⟩ := (resampleKey_ok_iff T z (n := n) hf h hj).1 hrd
              rw [hr]
              have hone : resampleKeys T z [j] D n = .ok (D1, n1) := by simp [resampleKeys, hr]
              obtain ⟨f, _, _, _, _, hk7⟩ :=
                resampleKeys_spec T z hf [j] D D1 n n1 (by simp) (by simpa using hin j (by simp)) h hone
              exact ih D1 n1 f (fun x hx => hk7 x (hin x (by simp [hx]))) (List.nodup_cons.1 hnd).2 hk'
            · rw [(resampleKey_ok_iff T z (n := n) hf h hj).2 hrd]
          · rw [resampleKey_other T z hf h hj (hin j (by simp))]
            exact ih D n h (fun x hx => hin x (by simp [hx])) (List.nodup_cons.1 hnd).2 hk'
    have := this (Dict.keys D0) D0 n (Faithful.refl hwf) (fun _ h => h) hwf hk.1
    simp [resample, this]

/-- **C08** With sampling disabled nothing changes. -/
theorem resample_disabled (T : NumText K) (z : Nat → K) (D : Dict Str Str) (n : Nat) :
    resample T z true D n = .ok (D, n) := by simp [resample]

/-! ### Witnesses -/

/-- A toy text format: a number is written as that many `1`s. -/
def unary : NumText Nat where
  parse s := if s.all (· = '1') then some s.length else none
  print n := List.replicate n '1'
  parseVec _ := none
  printVec _ := []

-- The hypotheses of `resample_no_drift` hold for a definition with one probabilistic value, and a second round does
-- succeed; with draws 1, 2, … the value after round two is 11 + 2·1 (not (11 + 1·1) + 2·1).
example :
    let D0 : Dict Str Str := [("a".toList, "11".toList), ("a_stdDev".toList, "1".toList), ("b".toList, "x".toList)]
    Dict.WF D0 ∧ Prob D0 "a".toList ∧
    (resampleRounds unary (· + 1) 2 D0 0).toOption.map (fun r => Dict.get? r.1 "a".toList) = some (some "1111".toList) :=
  ⟨by show List.Nodup _; decide +kernel, ⟨by decide +kernel, by decide +kernel⟩, by decide +kernel⟩

example : Flat [("a".toList, "11".toList), ("a_stdDev".toList, "1".toList), ("b".toList, "x".toList)] := by
  rintro k ⟨h1, h2⟩
  simp only [Dict.keys, List.map_cons, List.map_nil, List.mem_cons, List.not_mem_nil, or_false] at h1
  rcases h1 with rfl | rfl | rfl
  · constructor
    · rintro ⟨_, h⟩; revert h; decide +kernel
    · decide +kernel
  · exact absurd h2 (by decide +kernel)
  · exact absurd h2 (by decide +kernel)

/-- The restriction `Flat` is needed: when the mean itself is given a deviation, the recorded user mean changes from
round to round. -/
theorem resample_nested_violated :
    let D0 : Dict Str Str := [("a".toList, "1".toList), ("a_stdDev".toList, "1".toList), ("a_mean".toList, "11".toList),
      ("a_mean_stdDev".toList, "1".toList)]
    (resampleRounds unary (· + 1) 1 D0 0).toOption.map (fun r => Dict.get? r.1 "a_mean".toList) ≠
      some (userMean D0 "a".toList) := by decide +kernel

end Mapleaf.SimDef
