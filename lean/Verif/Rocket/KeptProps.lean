import Verif.Rocket.MissionModel

/-!
# C60: which derivative a flight keeps for its next step
-/

namespace Mapleaf.Rocket.Keep
open Mapleaf.Motion

section
variable {S D : Type} {A : Body.Arith S D} {f : ℝ → S → Except PyErr D} {t : ℝ} {y : S} {dt : ℝ}

/-- the last derivative of the stages is what the right-hand side answered at the time of the last row -/
theorem stagesA_last (rows : RK.Tableau ℝ) (ks : List D) (ev : List (ℝ × S)) (out : List D × List (ℝ × S)) (row : List ℝ)
    (h : Body.stagesA A f t y dt rows ks ev = .ok out) (hr : rows.getLast? = some row) :
    ∃ y' k, f (t + dt * row.headD 0) y' = .ok k ∧ out.1.getLast? = some k := by
  induction rows generalizing ks ev with
  | nil => cases hr
  | cons r rest ih =>
    unfold Body.stagesA at h
    cases r with
    | nil => cases h
    | cons c as =>
      dsimp only at h
      split at h
      · cases h
      split at h
      · cases h
      rename_i y' _ _ k hk
      cases rest with
      | nil =>
        obtain rfl := Option.some.inj hr
        unfold Body.stagesA at h
        obtain rfl := Except.ok.inj h
        exact ⟨y', k, hk, by simp⟩
      | cons r2 rest2 =>
        rw [List.getLast?_cons_cons] at hr
        exact ih _ _ h hr

theorem attempt_last {tab : RK.Tableau ℝ} {cache : Option D} {a : Body.Attempt S D} {row : List ℝ}
    (h : Body.attempt A tab cache f t y dt = .ok a) (hr : tab.dropLast.dropLast.getLast? = some row) :
    ∃ y', f (t + dt * row.headD 0) y' = .ok a.last := by
  unfold Body.attempt at h
  split at h
  · cases h
  split at h
  · cases h
  rename_i ks evals hs
  obtain ⟨y', k, h1, h2⟩ := stagesA_last _ _ _ _ row hs hr
  have hl : ∀ d0, ks.getLastD d0 = k := by
    intro d0
    rw [List.getLastD_eq_getLast?, show ks.getLast? = some k from h2]
    rfl
  unfold Body.finish at h
  split at h
  · split at h
    · split at h
      · cases h
      split at h
      · cases h
      split at h
      · cases h
      obtain rfl := Except.ok.inj h
      dsimp only
      rw [hl]
      exact ⟨y', h1⟩
    · cases h
    · cases h
  · cases h
  · cases h

end

theorem bind_okay' {X Y : Type} {x : Except PyErr X} {g : X → Except PyErr Y} {y : Y} (h : (x >>= g) = .ok y) : ∃ v, x = .ok v ∧ g v = .ok y := by
  cases x with
  | error e => cases h
  | ok v => exact ⟨v, rfl, h⟩

/-- the last stage of the methods that keep its derivative is at the end of the step -/
theorem last_node (m : String) (hm : m = "RK23Adaptive" ∨ m = "RK45Adaptive") {tab : RK.Tableau ℚ} {fsal : Bool} {tab' : RK.Tableau ℝ}
    (h : RK.adaptiveTableau m = .ok (tab, fsal)) (h' : RK.checkTableau (tab.map (fun r : List ℚ => r.map (fun q : ℚ => (q : ℝ)))) = .ok tab') :
    fsal = true ∧ ∃ row, tab'.dropLast.dropLast.getLast? = some row ∧ row.headD 0 = 1 := by
  have hp : tab' = RK.patch (tab.map (fun r : List ℚ => r.map (fun q : ℚ => (q : ℝ)))) := by
    unfold RK.checkTableau at h'
    split at h'
    · exact (Except.ok.inj h').symm
    · cases h'
  subst hp
  rcases hm with rfl | rfl
  · obtain ⟨rfl, rfl⟩ := Prod.mk.inj (Except.ok.inj (show Except.ok (RK.tabRK23, true) = _ from h))
    refine ⟨rfl, (Option.map_eq_some_iff (f := fun r : List ℝ => r.headD 0)).1 ?_⟩
    norm_num [RK.tabRK23, RK.patch]
  · obtain ⟨rfl, rfl⟩ := Prod.mk.inj (Except.ok.inj (show Except.ok (RK.tabRK45, true) = _ from h))
    refine ⟨rfl, (Option.map_eq_some_iff (f := fun r : List ℝ => r.headD 0)).1 ?_⟩
    norm_num [RK.tabRK45, RK.patch]

/-- **C60** for flights: after a step with RK23Adaptive or RK45Adaptive the body keeps what the equations of motion answered for the time at the
end of the step. With RK12Adaptive and RK78Adaptive it keeps what it had (nothing, in a flight that began with nothing), and with other methods
nothing. -/
theorem kept_slope {m : String} {f : ℝ → RBState → Except PyErr RBDeriv} {w : InFlight} {dt : ℝ} {s : RBState} {k : Option RBDeriv}
    (h : integrateStep m f w dt = .ok (s, k)) :
    ((m = "RK23Adaptive" ∨ m = "RK45Adaptive") → ∃ y' d, k = some d ∧ f (w.time + dt) y' = .ok d) ∧
    ((m = "RK12Adaptive" ∨ m = "RK78Adaptive") → k = w.kept) ∧
    (m ∉ ["RK12Adaptive", "RK23Adaptive", "RK45Adaptive", "RK78Adaptive"] → k = none) := by
  unfold integrateStep at h
  rcases ht : RK.adaptiveTableau m with e | ⟨tab, fsal⟩
  · rw [ht] at h
    dsimp only at h
    obtain ⟨r, -, h⟩ := bind_okay' h
    obtain ⟨rfl, rfl⟩ := Prod.mk.inj (Except.ok.inj h)
    refine ⟨?_, ?_, fun _ => rfl⟩
    · rintro (rfl | rfl) <;> cases ht
    · rintro (rfl | rfl) <;> cases ht
  · rw [ht] at h
    dsimp only at h
    obtain ⟨tab', h1, h⟩ := bind_okay' h
    obtain ⟨a, h2, h⟩ := bind_okay' h
    obtain ⟨rfl, rfl⟩ := Prod.mk.inj (Except.ok.inj h)
    refine ⟨fun hm => ?_, ?_, ?_⟩
    · obtain ⟨rfl, row, hr, h1'⟩ := last_node m hm ht h1
      obtain ⟨y', hy⟩ := attempt_last h2 hr
      rw [h1', mul_one] at hy
      exact ⟨y', a.last, rfl, hy⟩
    · rintro (rfl | rfl)
      · obtain ⟨rfl, rfl⟩ := Prod.mk.inj (Except.ok.inj (show Except.ok (RK.tabRK12, false) = _ from ht)); rfl
      · obtain ⟨rfl, rfl⟩ := Prod.mk.inj (Except.ok.inj (show Except.ok (RK.tabRK78, false) = _ from ht)); rfl
    · intro hm
      simp only [List.mem_cons, List.not_mem_nil, or_false, not_or] at hm
      unfold RK.adaptiveTableau at ht
      rw [if_neg hm.1, if_neg hm.2.1, if_neg hm.2.2.1, if_neg hm.2.2.2] at ht
      cases ht

/-- **C60** under a parachute: see `kept_slope` -/
theorem kept_slope3 {m : String} {f : ℝ → RBState3 → Except PyErr Stepper.RBDeriv3} {w : InFlight3} {dt : ℝ} {s : RBState3} {k : Option Stepper.RBDeriv3}
    (h : integrateStep3 m f w dt = .ok (s, k)) :
    ((m = "RK23Adaptive" ∨ m = "RK45Adaptive") → ∃ y' d, k = some d ∧ f (w.time + dt) y' = .ok d) ∧
    ((m = "RK12Adaptive" ∨ m = "RK78Adaptive") → k = w.kept) ∧
    (m ∉ ["RK12Adaptive", "RK23Adaptive", "RK45Adaptive", "RK78Adaptive"] → k = none) := by
  unfold integrateStep3 at h
  rcases ht : RK.adaptiveTableau m with e | ⟨tab, fsal⟩
  · rw [ht] at h
    dsimp only at h
    obtain ⟨r, -, h⟩ := bind_okay' h
    obtain ⟨rfl, rfl⟩ := Prod.mk.inj (Except.ok.inj h)
    refine ⟨?_, ?_, fun _ => rfl⟩
    · rintro (rfl | rfl) <;> cases ht
    · rintro (rfl | rfl) <;> cases ht
  · rw [ht] at h
    dsimp only at h
    obtain ⟨tab', h1, h⟩ := bind_okay' h
    obtain ⟨a, h2, h⟩ := bind_okay' h
    obtain ⟨rfl, rfl⟩ := Prod.mk.inj (Except.ok.inj h)
    refine ⟨fun hm => ?_, ?_, ?_⟩
    · obtain ⟨rfl, row, hr, h1'⟩ := last_node m hm ht h1
      obtain ⟨y', hy⟩ := attempt_last h2 hr
      rw [h1', mul_one] at hy
      exact ⟨y', a.last, rfl, hy⟩
    · rintro (rfl | rfl)
      · obtain ⟨rfl, rfl⟩ := Prod.mk.inj (Except.ok.inj (show Except.ok (RK.tabRK12, false) = _ from ht)); rfl
      · obtain ⟨rfl, rfl⟩ := Prod.mk.inj (Except.ok.inj (show Except.ok (RK.tabRK78, false) = _ from ht)); rfl
    · intro hm
      simp only [List.mem_cons, List.not_mem_nil, or_false, not_or] at hm
      unfold RK.adaptiveTableau at ht
      rw [if_neg hm.1, if_neg hm.2.1, if_neg hm.2.2.1, if_neg hm.2.2.2] at ht
      cases ht

/-- a step that keeps its last derivative: free fall at the rate of 1, whatever the state -/
example : ∃ s d, integrateStep3 "RK23Adaptive" (fun _ _ => .ok ⟨⟨0, 0, 0⟩, ⟨0, 0, -1⟩⟩) ⟨0, ⟨⟨0, 0, 0⟩, ⟨0, 0, 0⟩⟩, none, none⟩ 1 = .ok (s, some d) := by
  unfold integrateStep3
  rw [show RK.adaptiveTableau "RK23Adaptive" = .ok (RK.tabRK23, true) from rfl]
  dsimp only
  have hc : RK.checkTableau (RK.tabRK23.map (fun r : List ℚ => r.map (fun q : ℚ => (q : ℝ)))) =
      .ok (RK.patch (RK.tabRK23.map (fun r : List ℚ => r.map (fun q : ℚ => (q : ℝ))))) := by
    unfold RK.checkTableau
    rw [if_pos (by norm_num [RK.tabRK23, RK.rowsConsistent, RK.isclose])]
  rw [hc]
  simp only [bind, Except.bind]
  norm_num [RK.tabRK23, RK.patch, Body.attempt, Body.firstK, Body.stagesA, Body.stageState, Body.finish, Body.combine, Body.accum, Body.plus,
    Body.divInv, Body.change, Body.changeGo, arith3, Stepper.dDiv3]

end Mapleaf.Rocket.Keep
