import Verif.Motion.SpinAttemptProps

/-! # Integration of rockets whose components have state variables -/

namespace Mapleaf.Motion.Body
open Mapleaf Mapleaf.Motion
open Mapleaf.Motion.RK (Tableau wsum Explicit NonZero Shape wsum_cons wsum_append_right castT castL patch shapeB rowsConsistent classicalTableau
  adaptiveTableau checkTableau shape_cast checkTableau_cast castT_def castT_dropLast castT_getLast castT_take castT_length
  castL_tail sum_castL adaptiveWorking adaptiveMethods classical_good)

section lists
variable {E : Type} [AddCommGroup E] [Module ℝ E] {n : ℕ} (size : E → ℝ)

/-- the state list of a rocket: its rigid-body state, then `n` values of components -/
def pack (s : RBState × (Fin n → E)) : List (Val E) := .body s.1 :: List.ofFn fun i => .lin (s.2 i)

/-- the list of the derivatives -/
def packD (d : RBDeriv × (Fin n → E)) : List (DVal E) := .body d.1 :: List.ofFn fun i => .lin (d.2 i)

open Classical in
/-- the rocket and the values of the components in a state list -/
noncomputable def unpack (y : List (Val E)) : RBState × (Fin n → E) :=
  ((match y.head? with | some (.body s) => s | _ => ⟨0, 0, ⟨1, 0, 0, 0⟩, 0⟩), fun i => match y[(i : ℕ) + 1]? with | some (.lin x) => x | _ => 0)

theorem unpack_pack (s : RBState × (Fin n → E)) : unpack (pack s) = s := by
  unfold unpack pack
  apply Prod.ext
  · simp
  · funext i
    simp

/-- the state reached by a change: the rocket's as in `advance`, the values of the components are added to -/
noncomputable def move (s : RBState × (Fin n → E)) (d : RBDeriv × (Fin n → E)) : RBState × (Fin n → E) := (advance s.1 d.1, s.2 + d.2)

theorem mapE_ok {X Y : Type} (f : X → Except PyErr Y) (g : X → Y) (l : List X) (h : ∀ x ∈ l, f x = .ok (g x)) : mapE f l = .ok (l.map g) := by
  induction l with
  | nil => rfl
  | cons x l ih =>
    unfold mapE
    rw [h x (by simp)]
    dsimp only
    rw [ih (fun x hx => h x (by simp [hx]))]
    rfl

theorem mapE_ofFn {X Y : Type} (f : X → Except PyErr Y) (u : Fin n → X) (v : Fin n → Y) (h : ∀ i, f (u i) = .ok (v i)) :
    mapE f (List.ofFn u) = .ok (List.ofFn v) := by
  induction n with
  | zero => simp [mapE]
  | succ n ih =>
    rw [List.ofFn_succ, List.ofFn_succ]
    unfold mapE
    rw [h 0]
    dsimp only
    rw [ih (fun i => u i.succ) (fun i => v i.succ) (fun i => h i.succ)]

theorem zipE_ofFn {X : Type} (f : X → X → Except PyErr X) (u v w : Fin n → X) (rest : List X) (h : ∀ i, f (u i) (v i) = .ok (w i)) :
    zipE f (List.ofFn u) (List.ofFn v ++ rest) = .ok (List.ofFn w) := by
  induction n with
  | zero =>
    simp only [List.ofFn_zero]
    unfold zipE
    rfl
  | succ n ih =>
    rw [List.ofFn_succ, List.ofFn_succ, List.ofFn_succ, List.cons_append]
    unfold zipE
    rw [h 0]
    dsimp only
    rw [ih (fun i => u i.succ) (fun i => v i.succ) (fun i => w i.succ) (fun i => h i.succ)]

theorem list_ddiv (d : RBDeriv × (Fin n → E)) (s : ℝ) (hs : s ≠ 0) : (rocketArith size).ddiv (packD d) s = .ok (packD ((1 / s) • d)) := by
  show mapE (fun x => DVal.div x s) (packD d) = _
  unfold packD mapE
  have hb : DVal.div (E := E) (.body d.1) s = .ok (.body ((1 / s) • d.1)) := by
    unfold DVal.div
    dsimp only
    have := body_lawful.ddiv d.1 s hs
    rw [show RBDeriv.div d.1 s = .ok ((1 / s) • d.1) from this]
  rw [hb]
  dsimp only
  rw [mapE_ofFn _ _ (fun i => .lin ((1 / s) • d.2 i)) (fun i => by simp [DVal.div, hs])]
  rfl

theorem list_dadd_rest (a b : RBDeriv × (Fin n → E)) (rest : List (DVal E)) :
    (rocketArith size).dadd (packD a) (packD b ++ rest) = .ok (packD (a + b)) := by
  show zipE DVal.add (packD a) (packD b ++ rest) = _
  unfold packD
  rw [List.cons_append]
  unfold zipE
  simp only [DVal.add]
  rw [zipE_ofFn _ _ _ (fun i => .lin (a.2 i + b.2 i)) rest (fun i => by simp [DVal.add])]
  rfl

/-- the change of a derivative times a number -/
theorem list_dmul_rest (d : RBDeriv × (Fin n → E)) (s : ℝ) (rest : List (DVal E)) (rest' : List (Val E))
    (hr : mapE (fun x => DVal.mul x s) rest = .ok rest') :
    (rocketArith size).dmul (packD d ++ rest) s =
      .ok (pack (⟨s • d.1.vel, s • d.1.acc, Quat.ofRotationVector (s • d.1.angVel), s • d.1.angAcc⟩, s • d.2) ++ rest') := by
  show mapE (fun x => DVal.mul x s) (packD d ++ rest) = _
  have happ : ∀ (l l' : List (DVal E)) (m m' : List (Val E)), mapE (fun x => DVal.mul x s) l = .ok m →
      mapE (fun x => DVal.mul x s) l' = .ok m' → mapE (fun x => DVal.mul x s) (l ++ l') = .ok (m ++ m') := by
    intro l
    induction l with
    | nil => intro l' m m' h h'; cases h; exact h'
    | cons x l ih =>
      intro l' m m' h h'
      rw [List.cons_append]
      unfold mapE at h ⊢
      cases hx : DVal.mul x s with
      | error e => rw [hx] at h; cases h
      | ok z =>
        rw [hx] at h
        dsimp only at h ⊢
        cases hl : mapE (fun x => DVal.mul x s) l with
        | error e => rw [hl] at h; cases h
        | ok zs =>
          rw [hl] at h
          cases h
          rw [ih l' zs m' hl h']
          rfl
  refine happ _ _ _ _ ?_ hr
  unfold packD mapE
  have hb : DVal.mul (E := E) (.body d.1) s =
      .ok (.body ⟨s • d.1.vel, s • d.1.acc, Quat.ofRotationVector (s • d.1.angVel), s • d.1.angAcc⟩) := by
    unfold DVal.mul
    dsimp only
    rw [deriv_mul_ok]
  rw [hb]
  dsimp only
  rw [mapE_ofFn _ _ (fun i => .lin (s • d.2 i)) (fun i => by simp [DVal.mul])]
  rfl

/-- adding a change to a state; items of the change beyond those of the state are left out -/
theorem list_add_rest (s c : RBState × (Fin n → E)) (hs : Quat.Unit s.1.ori) (hc : Quat.Unit c.1.ori) (rest : List (Val E)) :
    (rocketArith size).add (pack s) (pack c ++ rest) =
      .ok (pack (⟨s.1.pos + c.1.pos, s.1.vel + c.1.vel, c.1.ori.mul s.1.ori, s.1.angVel + c.1.angVel⟩, s.2 + c.2)) := by
  show zipE Val.add (pack s) (pack c ++ rest) = _
  unfold pack
  rw [List.cons_append]
  unfold zipE
  have hb : Val.add (E := E) (.body s.1) (.body c.1) =
      .ok (.body ⟨s.1.pos + c.1.pos, s.1.vel + c.1.vel, c.1.ori.mul s.1.ori, s.1.angVel + c.1.angVel⟩) := by
    unfold Val.add RBState.add
    dsimp only
    rw [hs.normalize]
    dsimp only
    rw [(hc.mul hs).normalize]
  rw [hb]
  dsimp only
  rw [zipE_ofFn _ _ _ (fun i => .lin (s.2 i + c.2 i)) rest (fun i => by simp [Val.add])]
  rfl

theorem list_plus_rest (s : RBState × (Fin n → E)) (hs : Quat.Unit s.1.ori) (d : RBDeriv × (Fin n → E)) (x : ℝ) (rest : List (DVal E))
    (rest' : List (Val E)) (hr : mapE (fun z => DVal.mul z x) rest = .ok rest') :
    plus (rocketArith size) (pack s) (packD d ++ rest) x = .ok (pack (move s (x • d))) := by
  unfold plus
  rw [list_dmul_rest size d x rest rest' hr]
  dsimp only
  rw [list_add_rest size s _ hs (ofRotationVector_unit _)]
  rfl

theorem list_lawful : Lawful (rocketArith size) (packD (E := E) (n := n)) (fun y d => pack (move (unpack y) d))
    (fun y => ∃ s : RBState × (Fin n → E), y = pack s ∧ Quat.Unit s.1.ori) where
  ddiv d s hs := list_ddiv size d s hs
  dadd a b := by have := list_dadd_rest size a b []; rwa [List.append_nil] at this
  plus y d x hy := by
    obtain ⟨s, rfl, hs⟩ := hy
    have := list_plus_rest size s hs d x [] [] rfl
    rw [List.append_nil] at this
    rw [this, unpack_pack]

/-! ## Fixed steps -/

/-- **C91.** Every fixed-step method, for every rocket with any number of component state variables: rigid-body state and component
values are integrated together. The stages are evaluated at times `t + cᵢ dt` at the states reached by `dt ∑ⱼ aᵢⱼ kⱼ` and the result
is the state reached by `dt ∑ᵢ bᵢ kᵢ`: component values are added to, the rocket moves as one without state variables. -/
theorem state_list_step (m : String) (tab : Tableau ℚ) (hm : classicalTableau m = .ok (some tab))
    (f : ℝ → List (Val E) → Except PyErr (List (DVal E))) (g : ℝ → RBState × (Fin n → E) → RBDeriv × (Fin n → E))
    (hf : ∀ t s, Quat.Unit s.1.ori → f t (pack s) = .ok (packD (g t s))) (t : ℝ) (s : RBState × (Fin n → E)) (hs : Quat.Unit s.1.ori)
    (dt : ℝ) (hdt : dt ≠ 0) :
    ∃ r ks rows b, classicalStep (rocketArith size) m f t (pack s) dt = .ok r ∧
      (patch tab).map (fun r => r.map (fun q : ℚ => (q : ℝ))) = rows ++ [b] ∧ ks.length = b.length ∧
      ks = g t s :: rows.map (fun r => g (t + dt * r.headD 0) (move s (dt • wsum r.tail ks))) ∧
      r.newValue = pack (move s (dt • wsum b ks)) ∧ r.derivative = packD (wsum b ks) ∧
      r.evals = (t, pack s) :: rows.map (fun r => (t + dt * r.headD 0, pack (move s (dt • wsum r.tail ks)))) := by
  have hgood : rowsConsistent 0 tab = true ∧ shapeB 1 (patch tab) = true := tableau_checks m tab hm
  have hshape : Shape 1 (castT (patch tab) : Tableau ℝ) := shape_cast 1 (patch tab) hgood.2
  obtain ⟨r, ks, b, h1, h2, h3, h4, _, h6, h7, h8⟩ := rkStep_gen (list_lawful (n := n) size) (castT (patch tab)) hshape f
    (fun t y => g t (unpack y)) (fun y => ∃ s : RBState × (Fin n → E), y = pack s ∧ Quat.Unit s.1.ori) (fun _ => True)
    (fun t y hy => by obtain ⟨s, rfl, hs⟩ := hy; rw [unpack_pack]; exact ⟨hf t s hs, trivial⟩) t (pack s) ⟨s, rfl, hs⟩ ⟨s, rfl, hs⟩ dt hdt
    (fun r _ ks _ _ => ⟨_, rfl, by rw [unpack_pack]; exact advance_unit _ _ hs⟩)
  unfold StagesAt at h4
  simp only [unpack_pack] at h4 h6 h8
  refine ⟨r, ks, (castT (patch tab) : Tableau ℝ).dropLast, b, ?_, ?_, h3.symm, h4, h6, h7, h8⟩
  · unfold classicalStep
    rw [hm]
    dsimp only
    rw [← castT_def, checkTableau_cast tab hgood.1]
    exact h1
  · rw [← castT_def]
    have hne : (castT (patch tab) : Tableau ℝ) ≠ [] := by intro h; rw [h] at h2; simp at h2
    rw [List.getLast?_eq_some_getLast hne] at h2
    injection h2 with h2
    rw [← h2]
    exact (List.dropLast_append_getLast hne).symm

/-! ## Adaptive steps -/

theorem mapE_append {X Y : Type} (f : X → Except PyErr Y) {l l' : List X} {m m' : List Y} (h : mapE f l = .ok m) (h' : mapE f l' = .ok m') :
    mapE f (l ++ l') = .ok (m ++ m') := by
  induction l generalizing m with
  | nil => cases h; exact h'
  | cons x l ih =>
    rw [List.cons_append]
    unfold mapE at h ⊢
    cases hx : f x with
    | error e => rw [hx] at h; cases h
    | ok z =>
      rw [hx] at h
      dsimp only at h ⊢
      cases hl : mapE f l with
      | error e => rw [hl] at h; cases h
      | ok zs =>
        rw [hl] at h
        cases h
        rw [ih hl]
        rfl

/-- the change of state from a derivative over a time -/
noncomputable def chg (k : RBDeriv × (Fin n → E)) (w : ℝ) : RBState × (Fin n → E) :=
  (⟨w • k.1.vel, w • k.1.acc, Quat.ofRotationVector (w • k.1.angVel), w • k.1.angAcc⟩, w • k.2)

theorem list_dmul (d : RBDeriv × (Fin n → E)) (w : ℝ) : (rocketArith size).dmul (packD d) w = .ok (pack (chg d w)) := by
  have := list_dmul_rest size d w [] [] rfl
  simpa [chg] using this

theorem list_changeGo (acc : List (Val E)) (ws : List ℝ) (ks : List (RBDeriv × (Fin n → E))) (h : ws.length ≤ ks.length) :
    changeGo (rocketArith size) acc ws (ks.map packD) = .ok (acc ++ (ws.zip ks).flatMap fun p => pack (chg p.2 p.1)) := by
  induction ws generalizing acc ks with
  | nil => simp [changeGo]
  | cons w ws ih => cases ks with
    | nil => simp at h
    | cons k ks =>
      rw [List.map_cons]
      unfold changeGo
      rw [list_dmul]
      dsimp only
      have haug : (rocketArith size).aug acc (pack (chg k w)) = .ok (acc ++ pack (chg k w)) := rfl
      rw [haug]
      dsimp only
      rw [ih _ ks (by simpa using h)]
      simp

theorem list_change (ws : List ℝ) (ks : List (RBDeriv × (Fin n → E))) (h0 : ws ≠ []) (h : ws.length ≤ ks.length) :
    change (rocketArith size) ws (ks.map packD) = .ok ((ws.zip ks).flatMap fun p => pack (chg p.2 p.1)) := by
  cases ws with
  | nil => exact absurd rfl h0
  | cons w ws => cases ks with
    | nil => simp at h
    | cons k ks =>
      rw [List.map_cons]
      unfold change
      dsimp only
      rw [list_dmul]
      dsimp only
      rw [list_changeGo size _ ws ks (by simpa using h)]
      simp

/-- a change times a number -/
noncomputable def part (c : RBState × (Fin n → E)) (x : ℝ) : RBState × (Fin n → E) :=
  (⟨x • c.1.pos, x • c.1.vel, partTurn c.1.ori x, x • c.1.angVel⟩, x • c.2)

theorem list_smul (c : RBState × (Fin n → E)) (hc : Quat.Unit c.1.ori) (hne : c.1.ori ≠ ⟨-1, 0, 0, 0⟩) (x : ℝ) :
    mapE (fun z => Val.smul z x) (pack c) = .ok (pack (part c x)) := by
  unfold pack mapE
  have hb : Val.smul (E := E) (.body c.1) x = .ok (.body ⟨x • c.1.pos, x • c.1.vel, partTurn c.1.ori x, x • c.1.angVel⟩) := by
    unfold Val.smul
    dsimp only
    unfold RBState.mul
    rw [((scaleRotation_unit hc x).2 hne).1]
  rw [hb]
  dsimp only
  rw [mapE_ofFn _ _ (fun i => .lin (x • c.2 i)) (fun i => by simp [Val.smul])]
  rfl

theorem list_smul_all (ps : List (ℝ × (RBDeriv × (Fin n → E)))) (x : ℝ)
    (hne : ∀ p ∈ ps, Quat.ofRotationVector (p.1 • p.2.1.angVel) ≠ ⟨-1, 0, 0, 0⟩) :
    (rocketArith size).smul (ps.flatMap fun p => pack (chg p.2 p.1)) x = .ok (ps.flatMap fun p => pack (part (chg p.2 p.1) x)) := by
  show mapE (fun z => Val.smul z x) _ = _
  induction ps with
  | nil => rfl
  | cons p ps ih =>
    rw [List.flatMap_cons, List.flatMap_cons]
    exact mapE_append _ (list_smul (chg p.2 p.1) (ofRotationVector_unit _) (hne p (by simp)) x) (ih (fun p hp => hne p (by simp [hp])))

/-- the state of a stage: only the first derivative counts -/
noncomputable def stageL (s : RBState × (Fin n → E)) (dt a : ℝ) (k₀ : RBDeriv × (Fin n → E)) : RBState × (Fin n → E) :=
  (⟨s.1.pos + dt • a • k₀.1.vel, s.1.vel + dt • a • k₀.1.acc, (partTurn (Quat.ofRotationVector (a • k₀.1.angVel)) dt).mul s.1.ori,
    s.1.angVel + dt • a • k₀.1.angAcc⟩, s.2 + dt • a • k₀.2)

theorem stageL_unit (s : RBState × (Fin n → E)) (hs : Quat.Unit s.1.ori) (dt a : ℝ) (k₀ : RBDeriv × (Fin n → E))
    (h : Quat.ofRotationVector (a • k₀.1.angVel) ≠ ⟨-1, 0, 0, 0⟩) : Quat.Unit (stageL s dt a k₀).1.ori :=
  ((scaleRotation_unit (ofRotationVector_unit _) dt).2 h).2.mul hs

/-- **C91.** The state of a stage of an adaptive method for a rocket with state variables: the first derivative with the first
coefficient, the others have no effect. -/
theorem list_stage (s : RBState × (Fin n → E)) (hs : Quat.Unit s.1.ori) (dt a : ℝ) (as : List ℝ) (k₀ : RBDeriv × (Fin n → E))
    (ks : List (RBDeriv × (Fin n → E))) (hl : as.length ≤ ks.length)
    (hne : ∀ p ∈ (a :: as).zip (k₀ :: ks), Quat.ofRotationVector (p.1 • p.2.1.angVel) ≠ ⟨-1, 0, 0, 0⟩) :
    stageState (rocketArith size) (pack s) dt (a :: as) ((k₀ :: ks).map packD) = .ok (pack (stageL s dt a k₀)) := by
  unfold stageState
  rw [list_change size (a :: as) (k₀ :: ks) (by simp) (by simpa using hl)]
  dsimp only
  rw [list_smul_all size _ dt hne]
  dsimp only
  rw [List.zip_cons_cons, List.flatMap_cons]
  have h1 := hne (a, k₀) (by simp)
  rw [list_add_rest size s (part (chg k₀ a) dt) hs ((scaleRotation_unit (ofRotationVector_unit _) dt).2 h1).2]
  rfl

theorem zip_append_left {X Y : Type} (l : List X) (m m' : List Y) (h : l.length ≤ m.length) : l.zip (m ++ m') = l.zip m := by
  induction l generalizing m with
  | nil => simp
  | cons x l ih => cases m with
    | nil => simp at h
    | cons y m => rw [List.cons_append, List.zip_cons_cons, List.zip_cons_cons, ih m (by simpa using h)]

theorem list_stages (f : ℝ → List (Val E) → Except PyErr (List (DVal E))) (g : ℝ → RBState × (Fin n → E) → RBDeriv × (Fin n → E))
    (hf : ∀ t s, Quat.Unit s.1.ori → f t (pack s) = .ok (packD (g t s))) (t : ℝ) (s : RBState × (Fin n → E)) (hs : Quat.Unit s.1.ori)
    (dt : ℝ) (rows : Tableau ℝ) (m : ℕ) (k₀ : RBDeriv × (Fin n → E)) (tl : List (RBDeriv × (Fin n → E))) (ev : List (ℝ × List (Val E)))
    (hm : tl.length = m) (hex : Explicit m rows)
    (hne : ∀ r ∈ rows, ∀ p ∈ r.tail.zip (k₀ :: tl ++ rows.map fun r => g (t + dt * r.headD 0) (stageL s dt (r.tail.headD 0) k₀)),
      Quat.ofRotationVector (p.1 • p.2.1.angVel) ≠ ⟨-1, 0, 0, 0⟩) :
    stagesA (rocketArith size) f t (pack s) dt rows ((k₀ :: tl).map packD) ev =
      .ok ((k₀ :: tl ++ rows.map fun r => g (t + dt * r.headD 0) (stageL s dt (r.tail.headD 0) k₀)).map packD,
        ev ++ rows.map fun r => (t + dt * r.headD 0, pack (stageL s dt (r.tail.headD 0) k₀))) := by
  induction rows generalizing m tl ev with
  | nil => simp [stagesA]
  | cons r rows ih =>
    obtain ⟨hr, hex'⟩ := hex
    match r, hr with
    | [], hr => simp at hr
    | [c], hr => simp at hr
    | c :: a :: as, hr =>
      have hlen : as.length = m := by simpa using hr
      have hz := hne (c :: a :: as) (by simp)
      rw [List.tail_cons, zip_append_left _ _ _ (by simp; omega)] at hz
      have hst := list_stage size s hs dt a as k₀ tl (by omega) hz
      have hunit := stageL_unit s hs dt a k₀ (hz (a, k₀) (by simp))
      have := ih (m + 1) (tl ++ [g (t + dt * c) (stageL s dt a k₀)]) (ev ++ [(t + dt * c, pack (stageL s dt a k₀))]) (by simp [hm]) hex'
        (fun r hr p hp => hne r (by simp [hr]) p (by simpa using hp))
      rw [stagesA]
      simp only [hst, hf _ _ hunit]
      rw [show (k₀ :: tl).map packD ++ [packD (g (t + dt * c) (stageL s dt a k₀))] =
        (k₀ :: (tl ++ [g (t + dt * c) (stageL s dt a k₀)])).map packD by simp, this]
      simp

theorem list_accum (acc : List (DVal E)) (ws : List ℝ) (ks : List (RBDeriv × (Fin n → E))) (hl : ws.length ≤ ks.length) (hn : ∀ w ∈ ws, w ≠ 0) :
    accum (rocketArith size) (rocketArith size).daug 1 acc ws (ks.map packD) = .ok (acc ++ (ws.zip ks).flatMap fun p => packD (p.1 • p.2)) := by
  induction ws generalizing acc ks with
  | nil => simp [accum]
  | cons w ws ih => cases ks with
    | nil => simp at hl
    | cons k ks =>
      have hw := hn w (by simp)
      rw [List.map_cons]
      unfold accum
      rw [divInv_ok (list_lawful size) k (w * 1) (by simpa using hw)]
      dsimp only
      have haug : ∀ a b, (rocketArith (E := E) size).daug a b = .ok (a ++ b) := fun _ _ => rfl
      rw [haug]
      dsimp only
      rw [ih _ ks (by simpa using hl) (fun w hw => hn w (by simp [hw]))]
      simp

theorem list_combine (w : ℝ) (ws : List ℝ) (k : RBDeriv × (Fin n → E)) (ks : List (RBDeriv × (Fin n → E))) (hl : ws.length ≤ ks.length)
    (hn : ∀ x ∈ w :: ws, x ≠ 0) :
    combine (rocketArith size) (rocketArith size).daug 1 (w :: ws) ((k :: ks).map packD) =
      .ok (packD (w • k) ++ (ws.zip ks).flatMap fun p => packD (p.1 • p.2)) := by
  rw [List.map_cons]
  unfold combine
  dsimp only
  rw [divInv_ok (list_lawful size) k (w * 1) (by simpa using hn w (by simp))]
  dsimp only
  rw [list_accum size _ ws ks hl (fun x hx => hn x (by simp [hx]))]
  simp

theorem dval_mul_all (x : ℝ) (l : List (DVal E)) : ∃ m, mapE (fun z => DVal.mul z x) l = .ok m := by
  induction l with
  | nil => exact ⟨[], rfl⟩
  | cons d l ih =>
    obtain ⟨m, hm⟩ := ih
    have hd : ∃ y, DVal.mul d x = .ok y := by
      cases d with
      | body d => exact ⟨_, by unfold DVal.mul; dsimp only; rw [deriv_mul_ok]⟩
      | lin v => exact ⟨_, rfl⟩
    obtain ⟨y, hy⟩ := hd
    exact ⟨y :: m, by unfold mapE; rw [hy]; dsimp only; rw [hm]⟩

theorem list_finish (tab : Tableau ℝ) (b₁ c₁ : ℝ) (bs cs : List ℝ) (hb : tab.dropLast.getLast? = some (b₁ :: bs)) (hbc : tab.getLast? = some (c₁ :: cs))
    (s : RBState × (Fin n → E)) (hs : Quat.Unit s.1.ori) (dt : ℝ) (k₀ : RBDeriv × (Fin n → E)) (ks : List (RBDeriv × (Fin n → E)))
    (l1 : bs.length ≤ ks.length) (l2 : cs.length ≤ ks.length) (n1 : ∀ w ∈ b₁ :: bs, w ≠ 0) (n2 : ∀ w ∈ c₁ :: cs, w ≠ 0)
    (last : List (DVal E)) (evals : List (ℝ × List (Val E))) :
    finish (rocketArith size) tab (pack s) dt ((k₀ :: ks).map packD) last evals =
      .ok ⟨pack (move s (dt • b₁ • k₀)), packD (b₁ • k₀) ++ (bs.zip ks).flatMap fun p => packD (p.1 • p.2),
        apart (move s (dt • b₁ • k₀)).1 (move s (dt • c₁ • k₀)).1 + ∑ i, size ((dt * b₁ - dt * c₁) • k₀.2 i), last, evals⟩ := by
  obtain ⟨r1, hr1⟩ := dval_mul_all dt ((bs.zip ks).flatMap fun p => packD (p.1 • p.2))
  obtain ⟨r2, hr2⟩ := dval_mul_all dt ((cs.zip ks).flatMap fun p => packD (p.1 • p.2))
  have p1 := list_plus_rest size s hs (b₁ • k₀) dt _ r1 hr1
  have p2 := list_plus_rest size s hs (c₁ • k₀) dt _ r2 hr2
  set F := move s (dt • b₁ • k₀) with hF
  set C := move s (dt • c₁ • k₀) with hC
  have uF : Quat.Unit F.1.ori := advance_unit _ _ hs
  have uC : Quat.Unit C.1.ori := advance_unit _ _ hs
  have hneg : (rocketArith size).neg (pack C) = .ok (pack (C.1.neg, -C.2)) := by
    show mapE Val.neg (pack C) = _
    unfold pack mapE
    simp only [Val.neg]
    rw [mapE_ofFn _ _ (fun i => .lin (-C.2 i)) (fun i => by simp [Val.neg])]
    rfl
  have hadd := list_add_rest size (C.1.neg, -C.2) F uC.conj uF []
  rw [List.append_nil] at hadd
  set D : RBState × (Fin n → E) := (⟨C.1.neg.pos + F.1.pos, C.1.neg.vel + F.1.vel, F.1.ori.mul C.1.neg.ori, C.1.neg.angVel + F.1.angVel⟩, -C.2 + F.2) with hD
  have hmag : (rocketArith size).mag (pack D) = .ok (apart F.1 C.1 + ∑ i, size ((dt * b₁ - dt * c₁) • k₀.2 i)) := by
    show sumE (mapE (Val.mag size) (pack D)) = _
    have hb' : Val.mag size (.body D.1) = .ok (apart F.1 C.1) := by
      unfold Val.mag
      dsimp only
      unfold RBState.abs
      rw [Quat.rotationAngle_unit (show Quat.Unit D.1.ori from uF.mul uC.conj)]
      dsimp only
      rw [abs_of_nonneg (by have := Real.arccos_nonneg D.1.ori.q0; linarith)]
      unfold apart
      have e1 : D.1.angVel = F.1.angVel - C.1.angVel := by show (-1 : ℝ) • _ + _ = _; module
      have e2 : D.1.pos = F.1.pos - C.1.pos := by show (-1 : ℝ) • _ + _ = _; module
      have e3 : D.1.vel = F.1.vel - C.1.vel := by show (-1 : ℝ) • _ + _ = _; module
      rw [e1, e2, e3]
      rfl
    unfold pack mapE
    rw [hb']
    dsimp only
    rw [mapE_ofFn _ _ (fun i => size ((dt * b₁ - dt * c₁) • k₀.2 i)) (fun i => by
      show Except.ok (size (D.2 i)) = _
      congr 2
      rw [hD, hF, hC]
      simp only [move, Pi.add_apply, Pi.neg_apply, Prod.smul_snd, Pi.smul_apply]
      module)]
    simp [sumE, List.sum_ofFn]
  have c1 := list_combine size b₁ bs k₀ ks l1 n1
  have c2 := list_combine size c₁ cs k₀ ks l2 n2
  unfold finish
  rw [hb, hbc]
  simp only [Option.getD_some, c1, c2, p1, p2, hneg, hadd, hmag]

/-- **C91 violated.** Every attempt of an adaptive method for a rocket with component state variables: `+=` of the list of
derivatives lengthens the list instead of adding derivatives, and what is beyond the length of the state is dropped. The result is
`dt b₁ k₀`, the first derivative with the first weight only; the returned derivative has `n + 1` items for every weight; and the
error estimate, from which the next time step is chosen, compares the first weights only. -/
theorem state_list_attempt_violated (tab : Tableau ℝ) (hsh : Shape 2 tab) (f : ℝ → List (Val E) → Except PyErr (List (DVal E)))
    (g : ℝ → RBState × (Fin n → E) → RBDeriv × (Fin n → E)) (hf : ∀ t s, Quat.Unit s.1.ori → f t (pack s) = .ok (packD (g t s)))
    (t : ℝ) (s : RBState × (Fin n → E)) (hs : Quat.Unit s.1.ori) (dt : ℝ)
    (hne : ∀ r ∈ tab.dropLast.dropLast, ∀ p ∈ r.tail.zip (g t s :: tab.dropLast.dropLast.map fun r => g (t + dt * r.headD 0)
      (stageL s dt (r.tail.headD 0) (g t s))), Quat.ofRotationVector (p.1 • p.2.1.angVel) ≠ ⟨-1, 0, 0, 0⟩) :
    ∃ A b₁ bs c₁ cs, attempt (rocketArith size) tab none f t (pack s) dt = .ok A ∧ tab = tab.dropLast.dropLast ++ [b₁ :: bs, c₁ :: cs] ∧
      A.newValue = pack (move s ((dt * b₁) • g t s)) ∧ A.derivative.length = (bs.length + 1) * (n + 1) ∧
      A.error = apart (move s ((dt * b₁) • g t s)).1 (move s ((dt * c₁) • g t s)).1 + ∑ i, size ((dt * b₁ - dt * c₁) • (g t s).2 i) ∧
      A.evals = (t, pack s) :: tab.dropLast.dropLast.map fun r => (t + dt * r.headD 0, pack (stageL s dt (r.tail.headD 0) (g t s))) := by
  obtain ⟨b, bc, hb, hbc, l1, l2, n1, n2⟩ := result_rows tab hsh
  have h2' := hsh.enough
  have hsplit : tab = tab.dropLast.dropLast ++ [b, bc] := by
    have hne : tab ≠ [] := by rintro rfl; simp at h2'
    have e1 := hbc
    rw [List.getLast?_eq_some_getLast hne] at e1
    injection e1 with e1
    have hne' : tab.dropLast ≠ [] := by intro h; rw [h] at hb; simp at hb
    have e2 := hb
    rw [List.getLast?_eq_some_getLast hne'] at e2
    injection e2 with e2
    conv_lhs => rw [← List.dropLast_append_getLast hne, e1, ← List.dropLast_append_getLast hne', e2]
    simp
  cases b with
  | nil => simp at l1
  | cons b₁ bs => cases bc with
    | nil => simp at l2
    | cons c₁ cs =>
      have hex : Explicit 0 tab.dropLast.dropLast := by
        have := hsh.explicit
        rwa [← RK.dropLast_dropLast] at this
      have hst := list_stages size f g hf t s hs dt tab.dropLast.dropLast 0 (g t s) [] [(t, pack s)] rfl hex (by simpa using hne)
      simp only [List.map_cons, List.map_nil] at hst
      have hfin := list_finish size tab b₁ c₁ bs cs hb hbc s hs dt (g t s)
        (tab.dropLast.dropLast.map fun r => g (t + dt * r.headD 0) (stageL s dt (r.tail.headD 0) (g t s)))
        (by simp at l1 ⊢; omega) (by simp at l2 ⊢; omega) n1 n2
      have hatt : ∃ last, attempt (rocketArith size) tab none f t (pack s) dt = finish (rocketArith size) tab (pack s) dt
          ((g t s :: tab.dropLast.dropLast.map fun r => g (t + dt * r.headD 0) (stageL s dt (r.tail.headD 0) (g t s))).map packD) last
          ([(t, pack s)] ++ tab.dropLast.dropLast.map fun r => (t + dt * r.headD 0, pack (stageL s dt (r.tail.headD 0) (g t s)))) := by
        refine ⟨?_, ?_⟩
        rotate_left
        · unfold attempt firstK
          dsimp only
          rw [hf t s hs]
          dsimp only
          rw [hst]
          dsimp only
          rfl
      obtain ⟨last, hatt⟩ := hatt
      rw [hfin] at hatt
      refine ⟨_, b₁, bs, c₁, cs, hatt, hsplit, ?_, ?_, ?_, ?_⟩
      · simp only [smul_smul]
      · have hcount : ∀ (ws : List ℝ) (ks : List (RBDeriv × (Fin n → E))), ws.length ≤ ks.length →
            ((ws.zip ks).flatMap fun p => packD (p.1 • p.2)).length = ws.length * (n + 1) := by
          intro ws
          induction ws with
          | nil => intro ks _; simp
          | cons w ws ih =>
            intro ks hl
            cases ks with
            | nil => simp at hl
            | cons k ks =>
              rw [List.zip_cons_cons, List.flatMap_cons, List.length_append, ih ks (by simpa using hl)]
              simp [packD]
              ring
        dsimp only
        rw [List.length_append, hcount _ _ (by simp at l1 ⊢; omega)]
        simp [packD]
        ring
      · simp only [smul_smul]
      · simp

end lists

end Mapleaf.Motion.Body
