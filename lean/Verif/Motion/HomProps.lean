import Verif.Motion.BodyStepModel

/-!
# Integration commutes with maps between states that respect the operators (used for C96)

One pass over the integrators of `BodyStepModel`: if maps of states, changes of state, negated states and derivatives respect the operators,
and the right-hand sides correspond, then the steps correspond. The right-hand side may be allowed to raise on one side only.
-/

namespace Mapleaf.Motion.Body

/-- two outcomes agree; unless `strict`, the first may be an exception whatever the second is -/
def Sim (strict : Bool) {X : Type} (x y : Except PyErr X) : Prop := x = y ∨ (strict = false ∧ ∃ e, x = .error e)

theorem Sim.strict {X : Type} {x y : Except PyErr X} (h : Sim true x y) : x = y := by
  rcases h with h | ⟨h, -⟩
  · exact h
  · cases h

theorem Sim.ok {b : Bool} {X : Type} {x y : Except PyErr X} {v : X} (h : Sim b x y) (hx : x = .ok v) : y = .ok v := by
  rcases h with h | ⟨-, e, h⟩
  · rw [← h, hx]
  · rw [hx] at h; cases h

theorem Sim.refl (b : Bool) {X : Type} (x : Except PyErr X) : Sim b x x := Or.inl rfl

theorem Sim.bind {b : Bool} {X Y X' Y' : Type} {x : Except PyErr X} {x' : Except PyErr X'} {m : X → X'} {f : X → Except PyErr Y}
    {f' : X' → Except PyErr Y'} {n : Y → Y'} (h : Sim b (x.map m) x') (hf : ∀ v, x = .ok v → Sim b ((f v).map n) (f' (m v))) :
    Sim b ((x.bind f).map n) (x'.bind f') := by
  cases x with
  | error e =>
    rcases h with h | ⟨hb, -⟩
    · rw [← h]; exact Or.inl rfl
    · exact Or.inr ⟨hb, e, rfl⟩
  | ok v =>
    have hx := h.ok (v := m v) rfl
    rw [hx]
    exact hf v rfl

section
variable {S D S' D' : Type} (A : Arith S D) (B : Arith S' D') (p r n : S → S') (q : D → D')

/-- maps `p` of states, `r` of changes of state, `n` of negated states and `q` of derivatives that respect the operators -/
structure Hom : Prop where
  add : ∀ a b, B.add (p a) (r b) = (A.add a b).map p
  aug : ∀ a b, B.aug (r a) (r b) = (A.aug a b).map r
  smul : ∀ a k, B.smul (r a) k = (A.smul a k).map r
  neg : ∀ a, B.neg (p a) = (A.neg a).map n
  diff : ∀ a b, B.add (n a) (p b) = (A.add a b).map r
  mag : ∀ a, B.mag (r a) = A.mag a
  dmul : ∀ d k, B.dmul (q d) k = (A.dmul d k).map r
  ddiv : ∀ d k, B.ddiv (q d) k = (A.ddiv d k).map q
  dadd : ∀ a b, B.dadd (q a) (q b) = (A.dadd a b).map q
  daug : ∀ a b, B.daug (q a) (q b) = (A.daug a b).map q

variable {A B p r n q}

theorem Hom.divInv (h : Hom A B p r n q) (k : D) (w : ℝ) : divInv B (q k) w = (divInv A k w).map q := by
  unfold Body.divInv
  split
  · rfl
  · exact h.ddiv _ _

theorem Hom.accum (h : Hom A B p r n q) {plus : D → D → Except PyErr D} {plus' : D' → D' → Except PyErr D'}
    (hp : ∀ a b, plus' (q a) (q b) = (plus a b).map q) (dt : ℝ) (ws : List ℝ) (ks : List D) (acc : D) :
    accum B plus' dt (q acc) ws (ks.map q) = (accum A plus dt acc ws ks).map q := by
  induction ws generalizing ks acc with
  | nil => cases ks <;> rfl
  | cons w ws ih =>
    cases ks with
    | nil => rfl
    | cons k ks =>
      rw [List.map_cons]
      unfold Body.accum
      rw [h.divInv]
      cases Body.divInv A k (w * dt) with
      | error e => rfl
      | ok x =>
        dsimp only [Except.map]
        rw [hp]
        cases plus acc x with
        | error e => rfl
        | ok y => exact ih ks y

theorem Hom.combine (h : Hom A B p r n q) {plus : D → D → Except PyErr D} {plus' : D' → D' → Except PyErr D'}
    (hp : ∀ a b, plus' (q a) (q b) = (plus a b).map q) (dt : ℝ) (ws : List ℝ) (ks : List D) :
    combine B plus' dt ws (ks.map q) = (combine A plus dt ws ks).map q := by
  cases ws with
  | nil => cases ks <;> rfl
  | cons w ws =>
    cases ks with
    | nil => rfl
    | cons k ks =>
      rw [List.map_cons]
      unfold Body.combine
      dsimp only
      rw [h.divInv]
      cases Body.divInv A k (w * dt) with
      | error e => rfl
      | ok x => exact h.accum hp dt ws ks x

theorem Hom.plus (h : Hom A B p r n q) (y : S) (d : D) (s : ℝ) : plus B (p y) (q d) s = (plus A y d s).map p := by
  unfold Body.plus
  rw [h.dmul]
  cases A.dmul d s with
  | error e => rfl
  | ok c => exact h.add y c

/-- the points asked, mapped -/
def evMap (p : S → S') (ev : List (ℝ × S)) : List (ℝ × S') := ev.map fun x => (x.1, p x.2)

theorem evMap_append (p : S → S') (ev : List (ℝ × S)) (t : ℝ) (y : S) : evMap p (ev ++ [(t, y)]) = evMap p ev ++ [(t, p y)] := by
  simp [evMap]

variable {b : Bool} {f : ℝ → S → Except PyErr D} {f' : ℝ → S' → Except PyErr D'}

theorem Hom.stages (h : Hom A B p r n q) (hf : ∀ t y, Sim b ((f t y).map q) (f' t (p y))) (t : ℝ) (y : S) (dt : ℝ) (tab : RK.Tableau ℝ)
    (ks : List D) (ev : List (ℝ × S)) :
    Sim b ((stages A f t y dt tab ks ev).map fun x => (x.1.map q, evMap p x.2)) (stages B f' t (p y) dt tab (ks.map q) (evMap p ev)) := by
  induction tab generalizing ks ev with
  | nil => exact Or.inl rfl
  | cons row rows ih =>
    cases row with
    | nil => exact Or.inl rfl
    | cons c as =>
      unfold Body.stages
      dsimp only
      rw [h.combine h.dadd]
      cases Body.combine A A.dadd dt as ks with
      | error e => exact Or.inl rfl
      | ok evalK =>
        dsimp only [Except.map]
        rw [h.plus]
        cases Body.plus A y evalK 1 with
        | error e => exact Or.inl rfl
        | ok evalY =>
          dsimp only [Except.map]
          have := hf (t + dt * c) evalY
          cases hk : f (t + dt * c) evalY with
          | error e =>
            rw [hk] at this
            rcases this with h1 | ⟨hb, -⟩
            · rw [← h1]; exact Or.inl rfl
            · exact Or.inr ⟨hb, e, rfl⟩
          | ok k =>
            rw [hk] at this
            rw [this.ok rfl]
            dsimp only
            have h2 := ih (ks ++ [k]) (ev ++ [(t + dt * c, evalY)])
            rw [evMap_append, List.map_append] at h2
            exact h2

/-- a step, mapped -/
def Step.map (p : S → S') (q : D → D') (x : Step S D) : Step S' D' := ⟨p x.newValue, q x.derivative, evMap p x.evals⟩

theorem Hom.rkStep (h : Hom A B p r n q) (hf : ∀ t y, Sim b ((f t y).map q) (f' t (p y))) (tab : RK.Tableau ℝ) (t : ℝ) (y : S) (dt : ℝ) :
    Sim b ((rkStep A tab f t y dt).map (Step.map p q)) (rkStep B tab f' t (p y) dt) := by
  unfold Body.rkStep
  have h0 := hf t y
  cases hk : f t y with
  | error e =>
    rw [hk] at h0
    rcases h0 with h1 | ⟨hb, -⟩
    · rw [← h1]; exact Or.inl rfl
    · exact Or.inr ⟨hb, e, rfl⟩
  | ok k0 =>
    rw [hk] at h0
    rw [h0.ok rfl]
    dsimp only
    have hs := h.stages hf t y dt tab.dropLast [k0] [(t, y)]
    rw [List.map_singleton, show evMap p [(t, y)] = [(t, p y)] from rfl] at hs
    cases hst : Body.stages A f t y dt tab.dropLast [k0] [(t, y)] with
    | error e =>
      rw [hst] at hs
      rcases hs with h1 | ⟨hb, -⟩
      · rw [← h1]; exact Or.inl rfl
      · exact Or.inr ⟨hb, e, rfl⟩
    | ok x =>
      rw [hst] at hs
      rw [hs.ok rfl]
      dsimp only
      rw [h.combine h.dadd]
      cases Body.combine A A.dadd 1 (tab.getLast?.getD []) x.1 with
      | error e => exact Or.inl rfl
      | ok d =>
        dsimp only [Except.map]
        rw [h.plus]
        cases Body.plus A y d dt <;> exact Or.inl rfl

theorem Hom.eulerStep (h : Hom A B p r n q) (hf : ∀ t y, Sim b ((f t y).map q) (f' t (p y))) (t : ℝ) (y : S) (dt : ℝ) :
    Sim b ((eulerStep A f t y dt).map (Step.map p q)) (eulerStep B f' t (p y) dt) := by
  unfold Body.eulerStep
  have h0 := hf t y
  cases hk : f t y with
  | error e =>
    rw [hk] at h0
    rcases h0 with h1 | ⟨hb, -⟩
    · rw [← h1]; exact Or.inl rfl
    · exact Or.inr ⟨hb, e, rfl⟩
  | ok k0 =>
    rw [hk] at h0
    rw [h0.ok rfl]
    dsimp only
    rw [h.plus]
    cases Body.plus A y k0 dt <;> exact Or.inl rfl

theorem Hom.classicalStep (h : Hom A B p r n q) (hf : ∀ t y, Sim b ((f t y).map q) (f' t (p y))) (m : String) (t : ℝ) (y : S) (dt : ℝ) :
    Sim b ((classicalStep A m f t y dt).map (Step.map p q)) (classicalStep B m f' t (p y) dt) := by
  unfold Body.classicalStep
  cases RK.classicalTableau m with
  | error e => exact Or.inl rfl
  | ok o =>
    cases o with
    | none => exact h.eulerStep hf t y dt
    | some tab =>
      dsimp only
      cases RK.checkTableau (tab.map (fun r : List ℚ => r.map (fun q : ℚ => (q : ℝ)))) with
      | error e => exact Or.inl rfl
      | ok tab' => exact h.rkStep hf tab' t y dt

theorem Hom.changeGo (h : Hom A B p r n q) (ws : List ℝ) (ks : List D) (acc : S) :
    changeGo B (r acc) ws (ks.map q) = (changeGo A acc ws ks).map r := by
  induction ws generalizing ks acc with
  | nil => cases ks <;> rfl
  | cons w ws ih =>
    cases ks with
    | nil => rfl
    | cons k ks =>
      rw [List.map_cons]
      unfold Body.changeGo
      rw [h.dmul]
      cases A.dmul k w with
      | error e => rfl
      | ok x =>
        dsimp only [Except.map]
        rw [h.aug]
        cases A.aug acc x with
        | error e => rfl
        | ok y => exact ih ks y

theorem Hom.stageState (h : Hom A B p r n q) (y : S) (dt : ℝ) (ws : List ℝ) (ks : List D) :
    stageState B (p y) dt ws (ks.map q) = (stageState A y dt ws ks).map p := by
  have hc : change B ws (ks.map q) = (change A ws ks).map r := by
    cases ws with
    | nil => cases ks <;> rfl
    | cons w ws =>
      cases ks with
      | nil => rfl
      | cons k ks =>
        rw [List.map_cons]
        unfold change
        dsimp only
        rw [h.dmul]
        cases A.dmul k w with
        | error e => rfl
        | ok x => exact h.changeGo ws ks x
  unfold Body.stageState
  rw [hc]
  cases change A ws ks with
  | error e => rfl
  | ok c =>
    dsimp only [Except.map]
    rw [h.smul]
    cases A.smul c dt with
    | error e => rfl
    | ok c' => exact h.add y c'

theorem Hom.stagesA (h : Hom A B p r n q) (hf : ∀ t y, Sim b ((f t y).map q) (f' t (p y))) (t : ℝ) (y : S) (dt : ℝ) (tab : RK.Tableau ℝ)
    (ks : List D) (ev : List (ℝ × S)) :
    Sim b ((stagesA A f t y dt tab ks ev).map fun x => (x.1.map q, evMap p x.2)) (stagesA B f' t (p y) dt tab (ks.map q) (evMap p ev)) := by
  induction tab generalizing ks ev with
  | nil => exact Or.inl rfl
  | cons row rows ih =>
    cases row with
    | nil => exact Or.inl rfl
    | cons c as =>
      unfold Body.stagesA
      dsimp only
      rw [h.stageState]
      cases Body.stageState A y dt as ks with
      | error e => exact Or.inl rfl
      | ok evalY =>
        dsimp only [Except.map]
        have := hf (t + dt * c) evalY
        cases hk : f (t + dt * c) evalY with
        | error e =>
          rw [hk] at this
          rcases this with h1 | ⟨hb, -⟩
          · rw [← h1]; exact Or.inl rfl
          · exact Or.inr ⟨hb, e, rfl⟩
        | ok k =>
          rw [hk] at this
          rw [this.ok rfl]
          dsimp only
          have h2 := ih (ks ++ [k]) (ev ++ [(t + dt * c, evalY)])
          rw [evMap_append, List.map_append] at h2
          exact h2

/-- an attempt, mapped: the error estimate is the same number -/
def Attempt.map (p : S → S') (q : D → D') (x : Attempt S D) : Attempt S' D' :=
  ⟨p x.newValue, q x.derivative, x.error, q x.last, evMap p x.evals⟩

theorem Hom.finish (h : Hom A B p r n q) (tab : RK.Tableau ℝ) (y : S) (dt : ℝ) (ks : List D) (last : D) (ev : List (ℝ × S)) :
    finish B tab (p y) dt (ks.map q) (q last) (evMap p ev) = (finish A tab y dt ks last ev).map (Attempt.map p q) := by
  unfold Body.finish
  rw [h.combine h.daug, h.combine h.daug]
  cases Body.combine A A.daug 1 (tab.dropLast.getLast?.getD []) ks with
  | error e => cases Body.combine A A.daug 1 (tab.getLast?.getD []) ks <;> rfl
  | ok fine =>
    cases Body.combine A A.daug 1 (tab.getLast?.getD []) ks with
    | error e => rfl
    | ok coarse =>
      dsimp only [Except.map]
      rw [h.plus, h.plus]
      cases Body.plus A y fine dt with
      | error e => cases Body.plus A y coarse dt <;> rfl
      | ok fp =>
        cases Body.plus A y coarse dt with
        | error e => rfl
        | ok cp =>
          dsimp only [Except.map]
          rw [h.neg]
          cases A.neg cp with
          | error e => rfl
          | ok m =>
            dsimp only [Except.map]
            rw [h.diff]
            cases A.add m fp with
            | error e => rfl
            | ok d =>
              dsimp only [Except.map]
              rw [h.mag]
              cases A.mag d <;> rfl

theorem Hom.attempt (h : Hom A B p r n q) (hf : ∀ t y, Sim b ((f t y).map q) (f' t (p y))) (tab : RK.Tableau ℝ) (cache : Option D) (t : ℝ)
    (y : S) (dt : ℝ) :
    Sim b ((attempt A tab cache f t y dt).map (Attempt.map p q)) (attempt B tab (cache.map q) f' t (p y) dt) := by
  have h0 : Sim b ((firstK cache f t y).map fun x => (q x.1, evMap p x.2)) (firstK (cache.map q) f' t (p y)) := by
    cases cache with
    | some k => exact Or.inl rfl
    | none =>
      unfold firstK
      have h0 := hf t y
      cases hk : f t y with
      | error e =>
        rw [hk] at h0
        rcases h0 with h1 | ⟨hb, -⟩
        · dsimp only [Option.map]; rw [← h1]; exact Or.inl rfl
        · exact Or.inr ⟨hb, e, rfl⟩
      | ok k0 =>
        rw [hk] at h0
        dsimp only [Option.map]
        rw [h0.ok rfl]
        exact Or.inl rfl
  unfold Body.attempt
  cases hk : firstK cache f t y with
  | error e =>
    rw [hk] at h0
    rcases h0 with h1 | ⟨hb, -⟩
    · rw [← h1]; exact Or.inl rfl
    · exact Or.inr ⟨hb, e, rfl⟩
  | ok x =>
    rw [hk] at h0
    rw [h0.ok rfl]
    dsimp only
    have hs := h.stagesA hf t y dt tab.dropLast.dropLast [x.1] x.2
    rw [List.map_singleton] at hs
    cases hst : Body.stagesA A f t y dt tab.dropLast.dropLast [x.1] x.2 with
    | error e =>
      rw [hst] at hs
      rcases hs with h1 | ⟨hb, -⟩
      · rw [← h1]; exact Or.inl rfl
      · exact Or.inr ⟨hb, e, rfl⟩
    | ok z =>
      rw [hst] at hs
      rw [hs.ok rfl]
      dsimp only
      have hl : (z.1.map q).getLastD (q x.1) = q (z.1.getLastD x.1) := by
        rw [List.getLastD_eq_getLast?, List.getLastD_eq_getLast?, List.getLast?_map]
        cases z.1.getLast? <;> rfl
      rw [hl, h.finish]
      exact Or.inl rfl

end
end Mapleaf.Motion.Body
