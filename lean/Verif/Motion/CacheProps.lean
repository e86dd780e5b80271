import Verif.Motion.CacheModel
import Verif.Motion.QuatProps

/-!
# C25, C26: memoisation and aerodynamic queries
-/

namespace Mapleaf.Motion

section memo
variable {A R : Type}

theorem memoRun_correct (eqv : A → A → Bool) (f : A → Except PyErr R)
    (h : ∀ a b r, eqv a b = true → f a = .ok r → f b = .ok r) (as : List A) :
    ∀ cell : Option (A × R), (∀ a r, cell = some (a, r) → f a = .ok r) → memoRun eqv f cell as = as.map f := by
  induction as with
  | nil => intro cell _; rfl
  | cons a as ih =>
    intro cell hc
    have compute : ∀ cell : Option (A × R), (∀ a r, cell = some (a, r) → f a = .ok r) →
        let p : Except PyErr R × Option (A × R) := match f a with
          | .error e => (.error e, cell)
          | .ok r => (.ok r, some (a, r))
        p.1 = f a ∧ ∀ a r, p.2 = some (a, r) → f a = .ok r := by
      intro cell hc
      cases hf : f a with
      | error e => exact ⟨rfl, hc⟩
      | ok r => exact ⟨rfl, fun a' r' he => by cases he; exact hf⟩
    have key : (memoCall eqv f cell a).1 = f a ∧ ∀ a' r, (memoCall eqv f cell a).2 = some (a', r) → f a' = .ok r := by
      cases cell with
      | none => exact compute none hc
      | some p =>
        obtain ⟨a', r⟩ := p
        by_cases he : eqv a' a = true
        · have hr : memoCall eqv f (some (a', r)) a = (.ok r, some (a', r)) := by simp [memoCall, he]
          rw [hr]
          exact ⟨(h a' a r he (hc a' r rfl)).symm, hc⟩
        · have hr : memoCall eqv f (some (a', r)) a = (match f a with
              | .error e => (.error e, some (a', r))
              | .ok r => (.ok r, some (a, r))) := by
            simp only [memoCall, he]
            cases f a <;> rfl
          rw [hr]
          exact compute _ hc
    rw [memoRun, key.1, List.map_cons, ih _ key.2]

/-- **C25.** A memoised function answers every history of calls like the plain function exactly if arguments that compare
equal give equal results. Functions of values with value equality qualify; failures are never cached. -/
theorem memo_transparent_iff (eqv : A → A → Bool) (f : A → Except PyErr R) :
    (∀ as, memoRun eqv f none as = as.map f) ↔ ∀ a b r, eqv a b = true → f a = .ok r → f b = .ok r := by
  constructor
  · intro h a b r he hf
    have := h [a, b]
    simp only [memoRun, memoCall, hf, he, if_true, List.map_cons, List.map_nil, List.cons.injEq, and_true] at this
    exact this.2.symm
  · intro h as
    exact memoRun_correct eqv f h as none (by simp)

example : memoRun (fun a b : ℕ => a == b) (fun n => if n = 3 then .error .valueError else .ok (n * n)) none [2, 2, 3, 3, 2]
    = [.ok 4, .ok 4, .error .valueError, .error .valueError, .ok 4] := by decide +kernel

/-- **C25 (partial: objects that do not change in what the function reads).** With objects behind the arguments the
memoised function still answers like the plain one, as long as no change alters the value for any arguments. -/
theorem memo_world_partial {W : Type} (eqv : A → A → Bool) (f : W → A → Except PyErr R) (w : W) (ops : List (WorldOp W A))
    (h : ∀ a b r, eqv a b = true → f w a = .ok r → f w b = .ok r)
    (hch : ∀ g, .change g ∈ ops → ∀ w' : W, f w' = f w → f (g w') = f w) :
    worldRun eqv f w none ops = worldPlain f w ops := by
  have gen : ∀ (ops : List (WorldOp W A)), (∀ g, .change g ∈ ops → ∀ w' : W, f w' = f w → f (g w') = f w) →
      ∀ (w' : W) (cell : Option (A × R)), f w' = f w → (∀ a r, cell = some (a, r) → f w a = .ok r) →
      worldRun eqv f w' cell ops = worldPlain f w' ops := by
    intro ops
    induction ops with
    | nil => intro _ w' cell _ _; rfl
    | cons op ops ih =>
      intro hg w' cell hw hcell
      have hg' : ∀ g, .change g ∈ ops → ∀ w' : W, f w' = f w → f (g w') = f w :=
        fun g hm => hg g (List.mem_cons_of_mem _ hm)
      cases op with
      | change g =>
        rw [worldRun, worldPlain]
        exact ih hg' (g w') cell (hg g List.mem_cons_self w' hw) hcell
      | call a =>
        have hmc : (memoCall eqv (f w') cell a).1 = f w a ∧
            ∀ a' r, (memoCall eqv (f w') cell a).2 = some (a', r) → f w a' = .ok r := by
          rw [hw]
          have h1 := memoRun_correct eqv (f w) h [a] cell hcell
          simp only [memoRun, List.map_cons, List.map_nil, List.cons.injEq, and_true] at h1
          refine ⟨h1, ?_⟩
          intro a' r he
          have h2 := memoRun_correct eqv (f w) h [a, a'] cell hcell
          cases cell with
          | none =>
            simp only [memoCall] at he
            cases hf : f w a with
            | error e => rw [hf] at he; simp at he
            | ok r' => rw [hf] at he; simp at he; obtain ⟨rfl, rfl⟩ := he; exact hf
          | some p =>
            obtain ⟨a0, r0⟩ := p
            simp only [memoCall] at he
            split at he
            · exact hcell a' r he
            · cases hf : f w a with
              | error e => rw [hf] at he; exact hcell a' r he
              | ok r' => rw [hf] at he; simp at he; obtain ⟨rfl, rfl⟩ := he; exact hf
        rw [worldRun, worldPlain, hmc.1, hw]
        rw [hw] at hmc
        congr 1
        have := ih hg' w' (memoCall eqv (f w) cell a).2 hw hmc.2
        exact this
  exact gen ops hch w none rfl (by simp)

/-- **C25 violated.** In general a change is not noticed: whenever the arguments compare equal to themselves (the same
object), a value that has been returned once is returned again after any change of the object, whatever the function
would now compute. -/
theorem memo_stale_violated {W : Type} (eqv : A → A → Bool) (f : W → A → Except PyErr R) (w : W) (g : W → W) (a : A)
    (r : R) (he : eqv a a = true) (hf : f w a = .ok r) :
    worldRun eqv f w none [.call a, .change g, .call a] = [.ok r, .ok r] ∧
    worldPlain f w [.call a, .change g, .call a] = [.ok r, f (g w) a] := by
  simp [worldRun, worldPlain, memoCall, hf, he]

/-- The mass of a rocket with stage masses 5 and 3, asked twice at the same time with the last stage dropped in between
(CompositeObject.py:101 caches on `self`, time and state; rocket.py:477-480 changes the stages): the memoised function still
answers 8. -/
example : worldRun (fun (a b : ℕ) => a == b) (fun (stages : List ℕ) (_ : ℕ) => (Except.ok stages.sum : Except PyErr ℕ)) [5, 3] none
    [.call 0, .change List.dropLast, .call 0] = [.ok 8, .ok 8] := by decide +kernel

end memo

/-! ## Aerodynamic queries -/

namespace Aero

/-- What a query means: computed from its own state and environment. -/
noncomputable def value : Query → Except PyErr Ans
  | .altitude _ e => .ok (.num e.altitude)
  | .mach s e _ => (machOf s e).map .num
  | .reynolds s e l => (airVel s e).bind fun v => (reynoldsOf e l v).map .num
  | .totalAOA s e _ => (airVel s e).bind fun v => (totalAOAOf v).map .num
  | .aoa s e => (airVel s e).bind fun v => if v.length = 0 then .ok (.num 0) else (aoaOf ⟨v.x, 0, v.z⟩).map .num
  | .aoss s e => (airVel s e).bind fun v => if v.length = 0 then .ok (.num 0) else (aossOf ⟨0, v.y, v.z⟩).map .num
  | .roll s e _ => (airVel s e).map fun v => .num (rollOf (normalOf v))
  | .airVel s e => (airVel s e).map .vec
  | .normal s e => (airVel s e).map fun v => .vec (normalOf v)
  | .dynP s e => (airVel s e).map fun v => .num (v.length * v.length * e.density / 2)

/-- Every cell holds the value of the function at its key. -/
structure Good (c : Caches) : Prop where
  lfav : ∀ k v, c.lfav = some (k, v) → airVel k.1 k.2 = .ok v
  normal : ∀ k n, c.normal = some (k, n) → (airVel k.1 k.2).map normalOf = .ok n
  dynP : ∀ k r, c.dynP = some (k, r) → (airVel k.1 k.2).map (fun v => v.length * v.length * k.2.density / 2) = .ok r
  mach : ∀ k r, c.mach = some (k, r) → machOf k.1 k.2.1 = .ok r
  reynolds : ∀ k r, c.reynolds = some (k, r) → (airVel k.1 k.2.1).bind (reynoldsOf k.2.1 k.2.2) = .ok r
  totalAOA : ∀ k r, c.totalAOA = some (k, r) → (airVel k.1 k.2.1).bind totalAOAOf = .ok r
  roll : ∀ k r, c.roll = some (k, r) → (airVel k.1 k.2.1).map (fun v => rollOf (normalOf v)) = .ok r

theorem good_empty : Good empty := by
  constructor <;> intro k v h <;> simp [empty] at h

theorem lookup_some {K R : Type} {cell : Option (K × R)} {k : K} {r : R} (h : lookup cell k = some r) :
    cell = some (k, r) := by
  unfold lookup at h
  cases cell with
  | none => simp at h
  | some p =>
    obtain ⟨k', r'⟩ := p
    simp only at h
    split at h
    · rename_i hk; subst hk; simpa using h
    · simp at h

/-- `memoVia` around a correct inner query is correct and keeps the caches correct. -/
theorem memoVia_good {K R T : Type} {get : Caches → Option (K × R)} {set : Caches → Option (K × R) → Caches} {k : K}
    {inner : Caches → Except PyErr T × Caches} {f : T → Except PyErr R} {c : Caches} {t : Except PyErr T}
    (hcell : ∀ r, get c = some (k, r) → t.bind f = .ok r)
    (hinner : (inner c).1 = t ∧ Good (inner c).2)
    (hset : ∀ r c', Good c' → t.bind f = .ok r → Good (set c' (some (k, r)))) (hc : Good c) :
    (memoVia get set k inner f c).1 = t.bind f ∧ Good (memoVia get set k inner f c).2 := by
  unfold memoVia
  cases hl : lookup (get c) k with
  | some r => exact ⟨(hcell r (lookup_some hl)).symm, hc⟩
  | none =>
    obtain ⟨h1, h2⟩ := hinner
    rcases hi : inner c with ⟨ti, ci⟩
    rw [hi] at h1 h2
    simp only at h1 h2
    subst h1
    cases ti with
    | error e => exact ⟨rfl, h2⟩
    | ok t' =>
      cases hf : f t' with
      | error e => simp only [hf]; exact ⟨by simp [Except.bind, hf], h2⟩
      | ok r =>
        simp only [hf]
        have : (Except.ok t' : Except PyErr T).bind f = .ok r := by simp [Except.bind, hf]
        exact ⟨this.symm, hset r ci h2 this⟩

theorem lfav_good (s : RBState) (e : EnvCond) (c : Caches) (hc : Good c) :
    (getLocalFrameAirVel s e c).1 = airVel s e ∧ Good (getLocalFrameAirVel s e c).2 := by
  have := memoVia_good (get := Caches.lfav) (set := fun c x => { c with lfav := x }) (k := (s, e))
    (inner := fun c => (.ok (), c)) (f := fun _ => airVel s e) (c := c) (t := .ok ())
    (fun r h => by simpa [Except.bind] using hc.lfav _ _ h) ⟨rfl, hc⟩
    (fun r c' hc' h => by
      have h' : airVel s e = .ok r := by simpa [Except.bind] using h
      constructor
      · intro k v hk; simp at hk; obtain ⟨rfl, rfl⟩ := hk; exact h'
      · exact hc'.normal
      · exact hc'.dynP
      · exact hc'.mach
      · exact hc'.reynolds
      · exact hc'.totalAOA
      · exact hc'.roll) hc
  exact this

theorem map_as_bind {α β : Type} (x : Except PyErr α) (f : α → β) : x.map f = x.bind (fun a => .ok (f a)) := by
  cases x <;> rfl

theorem normal_good (s : RBState) (e : EnvCond) (c : Caches) (hc : Good c) :
    (getNormal s e c).1 = (airVel s e).map normalOf ∧ Good (getNormal s e c).2 := by
  rw [map_as_bind]
  refine memoVia_good (fun r h => ?_) (lfav_good s e c hc) (fun r c' hc' h => ?_) hc
  · rw [← map_as_bind]; exact hc.normal _ _ h
  · rw [← map_as_bind] at h
    constructor
    · exact hc'.lfav
    · intro k v hk; simp at hk; obtain ⟨rfl, rfl⟩ := hk; exact h
    · exact hc'.dynP
    · exact hc'.mach
    · exact hc'.reynolds
    · exact hc'.totalAOA
    · exact hc'.roll

/-- The query writes to the cached vector. -/
def Query.writes : Query → Bool
  | .aoa _ _ => true
  | .aoss _ _ => true
  | _ => false

theorem map_bind_num (x : Except PyErr (V3 ℝ)) (f : V3 ℝ → Except PyErr ℝ) :
    (x.bind f).map Ans.num = x.bind (fun v => (f v).map Ans.num) := by
  cases x <;> rfl

theorem ask_good (c : Caches) (hc : Good c) (q : Query) :
    (ask c q).1 = value q ∧ (q.writes = false → Good (ask c q).2) := by
  cases q with
  | altitude s e => exact ⟨rfl, fun _ => hc⟩
  | mach s e x =>
    have := memoVia_good (get := Caches.mach) (set := fun c x => { c with mach := x }) (k := (s, e, x))
      (inner := fun c => (.ok (), c)) (f := fun _ => machOf s e) (c := c) (t := .ok ())
      (fun r h => by simpa [Except.bind] using hc.mach _ _ h) ⟨rfl, hc⟩
      (fun r c' hc' h => by
        have h' : machOf s e = .ok r := by simpa [Except.bind] using h
        exact ⟨hc'.lfav, hc'.normal, hc'.dynP, fun k v hk => by simp at hk; obtain ⟨rfl, rfl⟩ := hk; exact h',
          hc'.reynolds, hc'.totalAOA, hc'.roll⟩) hc
    refine ⟨?_, fun _ => this.2⟩
    simp only [ask, value, getMachNumber, this.1]
    rfl
  | reynolds s e l =>
    have := memoVia_good (get := Caches.reynolds) (set := fun c x => { c with reynolds := x }) (k := (s, e, l))
      (inner := getLocalFrameAirVel s e) (f := reynoldsOf e l) (c := c) (t := airVel s e)
      (fun r h => hc.reynolds _ _ h) (lfav_good s e c hc)
      (fun r c' hc' h => ⟨hc'.lfav, hc'.normal, hc'.dynP, hc'.mach,
        fun k v hk => by simp at hk; obtain ⟨rfl, rfl⟩ := hk; exact h, hc'.totalAOA, hc'.roll⟩) hc
    refine ⟨?_, fun _ => this.2⟩
    simp only [ask, value, getReynoldsNumber, this.1]
    exact map_bind_num _ _
  | totalAOA s e x =>
    have := memoVia_good (get := Caches.totalAOA) (set := fun c x => { c with totalAOA := x }) (k := (s, e, x))
      (inner := getLocalFrameAirVel s e) (f := totalAOAOf) (c := c) (t := airVel s e)
      (fun r h => hc.totalAOA _ _ h) (lfav_good s e c hc)
      (fun r c' hc' h => ⟨hc'.lfav, hc'.normal, hc'.dynP, hc'.mach, hc'.reynolds,
        fun k v hk => by simp at hk; obtain ⟨rfl, rfl⟩ := hk; exact h, hc'.roll⟩) hc
    refine ⟨?_, fun _ => this.2⟩
    simp only [ask, value, getTotalAOA, this.1]
    exact map_bind_num _ _
  | aoa s e =>
    refine ⟨?_, by simp [Query.writes]⟩
    obtain ⟨h1, _⟩ := lfav_good s e c hc
    rcases hl : getLocalFrameAirVel s e c with ⟨v, c'⟩
    rw [hl] at h1
    simp only at h1
    subst h1
    simp only [ask, value, getAOA, hl]
    cases airVel s e with
    | error er => rfl
    | ok v =>
      simp only [Except.bind]
      split <;> rfl
  | aoss s e =>
    refine ⟨?_, by simp [Query.writes]⟩
    obtain ⟨h1, _⟩ := lfav_good s e c hc
    rcases hl : getLocalFrameAirVel s e c with ⟨v, c'⟩
    rw [hl] at h1
    simp only at h1
    subst h1
    simp only [ask, value, getAOSS, hl]
    cases airVel s e with
    | error er => rfl
    | ok v =>
      simp only [Except.bind]
      split <;> rfl
  | roll s e x =>
    have hb : ((airVel s e).map normalOf).bind (fun n => (.ok (rollOf n) : Except PyErr ℝ)) =
        (airVel s e).map (fun v => rollOf (normalOf v)) := by cases airVel s e <;> rfl
    have := memoVia_good (get := Caches.roll) (set := fun c x => { c with roll := x }) (k := (s, e, x))
      (inner := getNormal s e) (f := fun n => .ok (rollOf n)) (c := c) (t := (airVel s e).map normalOf)
      (fun r h => by rw [hb]; exact hc.roll _ _ h) (normal_good s e c hc)
      (fun r c' hc' h => ⟨hc'.lfav, hc'.normal, hc'.dynP, hc'.mach, hc'.reynolds, hc'.totalAOA,
        fun k v hk => by simp at hk; obtain ⟨rfl, rfl⟩ := hk; rw [hb] at h; exact h⟩) hc
    refine ⟨?_, fun _ => this.2⟩
    simp only [ask, value, getRollAngle, this.1, hb]
    cases airVel s e <;> rfl
  | airVel s e =>
    obtain ⟨h1, h2⟩ := lfav_good s e c hc
    exact ⟨by simp only [ask, value, h1], fun _ => h2⟩
  | normal s e =>
    obtain ⟨h1, h2⟩ := normal_good s e c hc
    refine ⟨?_, fun _ => h2⟩
    simp only [ask, value, h1]
    cases airVel s e <;> rfl
  | dynP s e =>
    have := memoVia_good (get := Caches.dynP) (set := fun c x => { c with dynP := x }) (k := (s, e))
      (inner := getLocalFrameAirVel s e) (f := fun v => .ok (v.length * v.length * e.density / 2)) (c := c)
      (t := airVel s e)
      (fun r h => by rw [← map_as_bind]; exact hc.dynP _ _ h) (lfav_good s e c hc)
      (fun r c' hc' h => ⟨hc'.lfav, hc'.normal,
        fun k v hk => by simp at hk; obtain ⟨rfl, rfl⟩ := hk; rw [← map_as_bind] at h; exact h,
        hc'.mach, hc'.reynolds, hc'.totalAOA, hc'.roll⟩) hc
    refine ⟨?_, fun _ => this.2⟩
    simp only [ask, value, getDynamicPressure, this.1]
    cases airVel s e <;> rfl

/-- **C26 (partial: no earlier angle-of-attack or sideslip query).** From fresh caches, every query of a history is
answered by the function of its own state and environment, for all states, environments and orders, and so is one last query of any
kind, angle of attack and sideslip included. -/
theorem queries_partial (qs : List Query) (h : ∀ q ∈ qs, q.writes = false) (q : Query) :
    askAll empty (qs ++ [q]) = (qs ++ [q]).map value := by
  have gen : ∀ (qs : List Query), (∀ q ∈ qs, q.writes = false) → ∀ c, Good c →
      askAll c (qs ++ [q]) = (qs ++ [q]).map value := by
    intro qs
    induction qs with
    | nil => intro _ c hc; simp [askAll, (ask_good c hc q).1]
    | cons p qs ih =>
      intro h c hc
      obtain ⟨h1, h2⟩ := ask_good c hc p
      rw [List.cons_append, askAll, h1, List.map_cons, ih (fun q hq => h q (List.mem_cons_of_mem _ hq)) _
        (h2 (h p List.mem_cons_self))]
  exact gen qs h empty good_empty

/-- After `getAOA`, later readings of the same state and environment use the air velocity without its Y component. -/
theorem after_aoa (s : RBState) (e : EnvCond) (v : V3 ℝ) (hv : airVel s e = .ok v) (hl : v.length ≠ 0) :
    (ask (ask empty (.aoa s e)).2 (.airVel s e)).1 = .ok (.vec ⟨v.x, 0, v.z⟩) ∧
    (ask (ask empty (.aoa s e)).2 (.aoss s e)).1 = ((if (⟨v.x, 0, v.z⟩ : V3 ℝ).length = 0 then .ok 0 else
      aossOf ⟨0, 0, v.z⟩) : Except PyErr ℝ).map .num := by
  have h0 : getLocalFrameAirVel s e empty = (.ok v, { empty with lfav := some ((s, e), v) }) := by
    simp [getLocalFrameAirVel, memoVia, lookup, empty, hv]
  have h1 : (ask empty (.aoa s e)).2 = { empty with lfav := some ((s, e), ⟨v.x, 0, v.z⟩) } := by
    simp only [ask, getAOA, h0, if_neg hl]
    simp [writeCached, empty]
  have h2 : getLocalFrameAirVel s e { empty with lfav := some ((s, e), ⟨v.x, 0, v.z⟩) } =
      (.ok ⟨v.x, 0, v.z⟩, { empty with lfav := some ((s, e), ⟨v.x, 0, v.z⟩) }) := by
    simp [getLocalFrameAirVel, memoVia, lookup]
  rw [h1]
  constructor
  · simp [ask, h2, Except.map]
  · simp only [ask, getAOSS, h2]
    split <;> rfl

theorem rotate_id (v : V3 ℝ) : ∃ r, (⟨1, 0, 0, 0⟩ : Quat ℝ).rotate v = .ok (v, r) := by
  refine ⟨(⟨1, 0, 0, 0⟩ : Quat ℝ).scale (1 / (⟨1, 0, 0, 0⟩ : Quat ℝ).norm), (Quat.rotate_eq_rotF _ _ ?_).trans ?_⟩
  · intro h; have := congrArg Quat.q0 h; simp [Quat.zeroQ] at this
  · congr 2
    apply V3.ext' <;> simp [Quat.rotF, Quat.nsq, Quat.sandwich, Quat.mul, Quat.conj]

/-- **C26 violated.** A rocket with identity orientation flying at velocity (0, 1, 1) in still air has air velocity (0, −1, −1)
and sideslip π/4. Asked for the angle of attack first, it reports sideslip 0 afterwards, and an air velocity without
its Y component. -/
theorem sideslip_after_aoa_violated :
    let s : RBState := ⟨0, ⟨0, 1, 1⟩, ⟨1, 0, 0, 0⟩, 0⟩
    let e : EnvCond := ⟨0, 288, 101325, 1, 1, 0, 0, 0⟩
    askAll empty [.aoss s e] = [.ok (.num (Real.arccos (1 / Real.sqrt 2)))] ∧
    (askAll empty [.aoa s e, .aoss s e, .airVel s e])[1]? = some (.ok (.num 0)) ∧
    (askAll empty [.aoa s e, .airVel s e])[1]? = some (.ok (.vec ⟨0, 0, -1⟩)) ∧
    Real.arccos (1 / Real.sqrt 2) ≠ 0 := by
  intro s e
  have hv : airVel s e = .ok ⟨0, -1, -1⟩ := by
    obtain ⟨r, hr⟩ := rotate_id (s.vel - e.wind)
    have hc : s.ori.conj = ⟨1, 0, 0, 0⟩ := by simp [s, Quat.conj]
    unfold airVel
    rw [hc, hr]
    simp only [Except.map]
    congr 1
    apply V3.ext' <;> simp [s, e]
  have hlen : (⟨0, -1, -1⟩ : V3 ℝ).length = Real.sqrt 2 := by
    unfold V3.length; norm_num
  have hl : (⟨0, -1, -1⟩ : V3 ℝ).length ≠ 0 := by rw [hlen]; positivity
  obtain ⟨h1, h2⟩ := after_aoa s e _ hv hl
  have hz : (⟨0, 0, -1⟩ : V3 ℝ).length = 1 := by unfold V3.length; norm_num
  have h2pos : (0 : ℝ) < Real.sqrt 2 := by positivity
  have hlt : 1 / Real.sqrt 2 < 1 - 0.00000001 := by
    rw [div_lt_iff₀ h2pos]
    have : (1.4 : ℝ) < Real.sqrt 2 := by
      rw [Real.lt_sqrt (by norm_num)]; norm_num
    nlinarith
  refine ⟨?_, ?_, ?_, ?_⟩
  · have := queries_partial [] (by simp) (.aoss s e)
    simp only [List.nil_append, List.map_cons, List.map_nil] at this
    rw [this]
    simp only [value, hv, Except.bind, if_neg hl]
    congr 1
    have hw : (⟨0, -1, -1⟩ : V3 ℝ).angle ⟨0, 0, -1⟩ = .ok (Real.arccos (1 / Real.sqrt 2)) := by
      unfold V3.angle
      rw [hlen, hz, mul_one, if_neg h2pos.ne']
      have hd : V3.dot (⟨0, -1, -1⟩ : V3 ℝ) ⟨0, 0, -1⟩ = 1 := by simp [V3.dot]
      rw [hd]
      simp only
      rw [if_neg]
      rw [not_lt, le_abs]
      right
      linarith
    simp [aossOf, hw, Except.map]
  · simp only [askAll, List.getElem?_cons_succ, List.getElem?_cons_zero, Option.some.injEq]
    rw [h2, if_neg (by rw [hz]; norm_num)]
    have hw : (⟨0, 0, -1⟩ : V3 ℝ).angle ⟨0, 0, -1⟩ = .ok 0 := by
      unfold V3.angle
      rw [hz]
      have hd : V3.dot (⟨0, 0, -1⟩ : V3 ℝ) ⟨0, 0, -1⟩ = 1 := by simp [V3.dot]
      rw [hd]
      norm_num
    simp [aossOf, hw, Except.map]
  · simp only [askAll, List.getElem?_cons_succ, List.getElem?_cons_zero, Option.some.injEq]
    rw [h1]
  · rw [Ne, Real.arccos_eq_zero, not_le]
    linarith

end Aero
end Mapleaf.Motion
