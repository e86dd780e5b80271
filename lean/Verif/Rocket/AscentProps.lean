import Verif.Rocket.AscentForceProps

/-!
# C95: a symmetric rocket launched straight up in still air flies straight up
-/

namespace Mapleaf.Motion.Body

/-! ## Invariants of integration -/

section
variable {S D : Type} (A : Arith S D) (P R : S → Prop) (Q : D → Prop)

/-- operators that keep a property `P` of states, `Q` of derivatives, `R` of changes of state -/
structure Keeps : Prop where
  add : ∀ a b c, P a → R b → A.add a b = .ok c → P c
  aug : ∀ a b c, R a → R b → A.aug a b = .ok c → R c
  smul : ∀ a k c, R a → A.smul a k = .ok c → R c
  dmul : ∀ d k c, Q d → A.dmul d k = .ok c → R c
  ddiv : ∀ d k c, Q d → A.ddiv d k = .ok c → Q c
  dadd : ∀ a b c, Q a → Q b → A.dadd a b = .ok c → Q c
  daug : ∀ a b c, Q a → Q b → A.daug a b = .ok c → Q c

variable {A P R Q}

theorem Keeps.divInv (h : Keeps A P R Q) {k d : D} {w : ℝ} (hk : Q k) (e : divInv A k w = .ok d) : Q d := by
  unfold Body.divInv at e
  split at e
  · cases e
  · exact h.ddiv _ _ _ hk e

theorem Keeps.accum (h : Keeps A P R Q) {plus : D → D → Except PyErr D} (hp : ∀ a b c, Q a → Q b → plus a b = .ok c → Q c) {dt : ℝ}
    (ws : List ℝ) (ks : List D) (acc d : D) (ha : Q acc) (hk : ∀ k ∈ ks, Q k) (e : accum A plus dt acc ws ks = .ok d) : Q d := by
  induction ws generalizing ks acc with
  | nil =>
    cases ks <;> (unfold Body.accum at e; obtain rfl := Except.ok.inj e; exact ha)
  | cons w ws ih =>
    cases ks with
    | nil => cases e
    | cons k ks =>
      unfold Body.accum at e
      split at e
      · cases e
      rename_i x hx
      split at e
      · cases e
      rename_i acc' hacc
      exact ih ks acc' (hp _ _ _ ha (h.divInv (hk k (by simp)) hx) hacc) (fun j hj => hk j (by simp [hj])) e

theorem Keeps.combine (h : Keeps A P R Q) {plus : D → D → Except PyErr D} (hp : ∀ a b c, Q a → Q b → plus a b = .ok c → Q c) {dt : ℝ}
    (ws : List ℝ) (ks : List D) (d : D) (hk : ∀ k ∈ ks, Q k) (e : combine A plus dt ws ks = .ok d) : Q d := by
  unfold Body.combine at e
  split at e
  · rename_i w ws k ks
    split at e
    · rename_i x hx
      exact h.accum hp ws ks x d (h.divInv (hk k (by simp)) hx) (fun j hj => hk j (by simp [hj])) e
    · cases e
  · cases e

theorem Keeps.plus (h : Keeps A P R Q) {y z : S} {d : D} {s : ℝ} (hy : P y) (hd : Q d) (e : plus A y d s = .ok z) : P z := by
  unfold Body.plus at e
  split at e
  · cases e
  rename_i c hc
  exact h.add _ _ _ hy (h.dmul _ _ _ hd hc) e

theorem Keeps.stages (h : Keeps A P R Q) {f : ℝ → S → Except PyErr D} (hf : ∀ t y d, P y → f t y = .ok d → Q d) {t : ℝ} {y : S} {dt : ℝ}
    (hy : P y) (tab : RK.Tableau ℝ) (ks : List D) (ev : List (ℝ × S)) (r : List D × List (ℝ × S)) (hk : ∀ k ∈ ks, Q k)
    (e : stages A f t y dt tab ks ev = .ok r) : ∀ k ∈ r.1, Q k := by
  induction tab generalizing ks ev with
  | nil => unfold Body.stages at e; obtain rfl := Except.ok.inj e; exact hk
  | cons row rows ih =>
    unfold Body.stages at e
    split at e
    · cases e
    split at e
    · cases e
    rename_i evalK hK
    split at e
    · cases e
    rename_i evalY hY
    split at e
    · cases e
    rename_i k hk'
    refine ih _ _ ?_ e
    intro j hj
    rcases List.mem_append.1 hj with hj | hj
    · exact hk j hj
    · rw [List.mem_singleton.1 hj]
      exact hf _ _ _ (h.plus hy (h.combine h.dadd _ _ _ hk hK) hY) hk'

theorem Keeps.rkStep (h : Keeps A P R Q) {f : ℝ → S → Except PyErr D} (hf : ∀ t y d, P y → f t y = .ok d → Q d) {t : ℝ} {y : S} {dt : ℝ}
    (hy : P y) (tab : RK.Tableau ℝ) (r : Step S D) (e : rkStep A tab f t y dt = .ok r) : P r.newValue := by
  unfold Body.rkStep at e
  split at e
  · cases e
  rename_i k0 hk0
  split at e
  · cases e
  rename_i ks ev hks
  split at e
  · cases e
  rename_i d hd
  split at e
  · cases e
  rename_i y' hy'
  obtain rfl := Except.ok.inj e
  have := h.stages hf hy _ _ _ _ (by intro k hk; rw [List.mem_singleton.1 hk]; exact hf _ _ _ hy hk0) hks
  exact h.plus hy (h.combine h.dadd _ _ _ this hd) hy'

theorem Keeps.eulerStep (h : Keeps A P R Q) {f : ℝ → S → Except PyErr D} (hf : ∀ t y d, P y → f t y = .ok d → Q d) {t : ℝ} {y : S} {dt : ℝ}
    (hy : P y) (r : Step S D) (e : eulerStep A f t y dt = .ok r) : P r.newValue := by
  unfold Body.eulerStep at e
  split at e
  · cases e
  rename_i k0 hk0
  split at e
  · cases e
  rename_i y' hy'
  obtain rfl := Except.ok.inj e
  exact h.plus hy (hf _ _ _ hy hk0) hy'

theorem Keeps.classicalStep (h : Keeps A P R Q) {f : ℝ → S → Except PyErr D} (hf : ∀ t y d, P y → f t y = .ok d → Q d) {t : ℝ} {y : S} {dt : ℝ}
    (hy : P y) (m : String) (r : Step S D) (e : classicalStep A m f t y dt = .ok r) : P r.newValue := by
  unfold Body.classicalStep at e
  split at e
  · cases e
  · exact h.eulerStep hf hy r e
  · split at e
    · cases e
    · exact h.rkStep hf hy _ r e

theorem Keeps.changeGo (h : Keeps A P R Q) (ws : List ℝ) (ks : List D) (acc c : S) (ha : R acc) (hk : ∀ k ∈ ks, Q k)
    (e : changeGo A acc ws ks = .ok c) : R c := by
  induction ws generalizing ks acc with
  | nil => cases ks <;> (unfold Body.changeGo at e; obtain rfl := Except.ok.inj e; exact ha)
  | cons w ws ih =>
    cases ks with
    | nil => cases e
    | cons k ks =>
      unfold Body.changeGo at e
      split at e
      · cases e
      rename_i x hx
      split at e
      · cases e
      rename_i acc' hacc
      exact ih ks acc' (h.aug _ _ _ ha (h.dmul _ _ _ (hk k (by simp)) hx) hacc) (fun j hj => hk j (by simp [hj])) e

theorem Keeps.stageState (h : Keeps A P R Q) {y z : S} {dt : ℝ} (ws : List ℝ) (ks : List D) (hy : P y) (hk : ∀ k ∈ ks, Q k)
    (e : stageState A y dt ws ks = .ok z) : P z := by
  unfold Body.stageState at e
  split at e
  · cases e
  rename_i c hc
  split at e
  · cases e
  rename_i c' hc'
  refine h.add _ _ _ hy (h.smul _ _ _ ?_ hc') e
  unfold change at hc
  split at hc
  · rename_i w ws k ks
    split at hc
    · cases hc
    rename_i x hx
    exact h.changeGo ws ks x c (h.dmul _ _ _ (hk k (by simp)) hx) (fun j hj => hk j (by simp [hj])) hc
  · cases hc

theorem Keeps.stagesA (h : Keeps A P R Q) {f : ℝ → S → Except PyErr D} (hf : ∀ t y d, P y → f t y = .ok d → Q d) {t : ℝ} {y : S} {dt : ℝ}
    (hy : P y) (tab : RK.Tableau ℝ) (ks : List D) (ev : List (ℝ × S)) (r : List D × List (ℝ × S)) (hk : ∀ k ∈ ks, Q k)
    (e : stagesA A f t y dt tab ks ev = .ok r) : ∀ k ∈ r.1, Q k := by
  induction tab generalizing ks ev with
  | nil => unfold Body.stagesA at e; obtain rfl := Except.ok.inj e; exact hk
  | cons row rows ih =>
    unfold Body.stagesA at e
    split at e
    · cases e
    split at e
    · cases e
    rename_i evalY hY
    split at e
    · cases e
    rename_i k hk'
    refine ih _ _ ?_ e
    intro j hj
    rcases List.mem_append.1 hj with hj | hj
    · exact hk j hj
    · rw [List.mem_singleton.1 hj]
      exact hf _ _ _ (h.stageState _ _ hy hk hY) hk'

theorem Keeps.attempt (h : Keeps A P R Q) {f : ℝ → S → Except PyErr D} (hf : ∀ t y d, P y → f t y = .ok d → Q d) {t : ℝ} {y : S} {dt : ℝ}
    (hy : P y) (tab : RK.Tableau ℝ) (cache : Option D) (hc : ∀ k, cache = some k → Q k) (r : Attempt S D)
    (e : attempt A tab cache f t y dt = .ok r) : P r.newValue ∧ Q r.last := by
  unfold Body.attempt at e
  split at e
  · cases e
  rename_i k0 ev hk0
  split at e
  · cases e
  rename_i ks evals hks
  have h0 : Q k0 := by
    unfold firstK at hk0
    split at hk0
    · obtain ⟨rfl, -⟩ := Prod.mk.inj (Except.ok.inj hk0); exact hc _ rfl
    · split at hk0
      · cases hk0
      · rename_i hd
        obtain ⟨rfl, -⟩ := Prod.mk.inj (Except.ok.inj hk0)
        exact hf _ _ _ hy hd
  have hall := h.stagesA hf hy _ _ _ _ (by intro k hk; rw [List.mem_singleton.1 hk]; exact h0) hks
  have hlast : Q (ks.getLastD k0) := by
    rw [List.getLastD_eq_getLast?]
    cases hl : ks.getLast? with
    | none => exact h0
    | some k => exact hall k (List.mem_of_getLast? hl)
  unfold finish at e
  split at e
  · rename_i fine coarse h1 h2
    split at e
    · rename_i fp cp h3 h4
      repeat' split at e
      all_goals first
        | cases e; done
        | (obtain rfl := Except.ok.inj e
           exact ⟨h.plus hy (h.combine h.daug _ _ _ hall h1) h3, hlast⟩)
    · cases e
    · cases e
  · cases e
  · cases e

end
end Mapleaf.Motion.Body

namespace Mapleaf.Rocket
open Mapleaf.Motion V3 ENV

/-! ## Vertical states -/

/-- the rocket above the point `x`, `y` of the ground, its axis vertical, its velocity and its angular velocity along the axis -/
structure Upright (x y : ℝ) (s : RBState) : Prop where
  px : s.pos.x = x
  py : s.pos.y = y
  vel : OnAxis s.vel
  q1 : s.ori.q1 = 0
  q2 : s.ori.q2 = 0
  spin : OnAxis s.angVel

/-- a derivative without lateral components -/
structure Straight (d : RBDeriv) : Prop where
  vel : OnAxis d.vel
  acc : OnAxis d.acc
  angVel : OnAxis d.angVel
  angAcc : OnAxis d.angAcc

/-- a turn about the vertical -/
def Yaw (q : Quat ℝ) : Prop := q.q1 = 0 ∧ q.q2 = 0

theorem yaw_normalize {q r : Quat ℝ} (h : Yaw q) (e : q.normalize = .ok r) : Yaw r := by
  unfold Quat.normalize at e
  dsimp only at e
  split at e
  · obtain rfl := Except.ok.inj e; exact h
  split at e
  · cases e
  · obtain rfl := Except.ok.inj e; exact ⟨by simp [h.1], by simp [h.2]⟩

theorem yaw_mul {q r : Quat ℝ} (h : Yaw q) (h' : Yaw r) : Yaw (q.mul r) := by
  constructor <;> simp [Quat.mul, h.1, h.2, h'.1, h'.2]

theorem yaw_conj {q : Quat ℝ} (h : Yaw q) : Yaw q.conj := by
  constructor <;> simp [Quat.conj, h.1, h.2]

/-- turning about the vertical keeps vertical vectors exactly -/
theorem yaw_rotate {q r : Quat ℝ} {v w : V3 ℝ} (h : Yaw q) (hv : OnAxis v) (e : q.rotate v = .ok (w, r)) : w = v ∧ Yaw r := by
  obtain ⟨hne, rfl, rfl⟩ := Quat.rotate_ok e
  refine ⟨?_, by simp [Quat.scale, h.1, Yaw, h.2]⟩
  have hp := (Quat.nsq_pos_of_ne hne).ne'
  have e0 : q.nsq = q.q0 * q.q0 + q.q3 * q.q3 := by simp [Quat.nsq, h.1, h.2]
  unfold Quat.rotF
  apply V3.ext'
  · simp [Quat.sandwich, Quat.mul, Quat.conj, h.1, h.2, hv.1, hv.2]
  · simp [Quat.sandwich, Quat.mul, Quat.conj, h.1, h.2, hv.1, hv.2]
  · rw [e0] at hp ⊢
    simp only [Quat.sandwich, Quat.mul, Quat.conj, h.1, h.2, hv.1, hv.2, smul_z]
    generalize e1 : q.q0 * q.q0 + q.q3 * q.q3 = N at hp ⊢
    rw [show ∀ a : ℝ, a * (1 / N) = v.z ↔ a = v.z * N from fun a => by rw [mul_one_div, div_eq_iff hp]]
    rw [← e1]
    ring

theorem normalize_onAxis {v : V3 ℝ} (h : OnAxis v) : OnAxis v.normalize := by
  unfold V3.normalize
  split
  · exact ⟨by simp [h.1], by simp [h.2]⟩
  · exact ⟨rfl, rfl⟩

theorem yaw_axisAngle {v : V3 ℝ} (h : OnAxis v) (θ : ℝ) : Yaw (Quat.axisAngle v θ) := by
  have := normalize_onAxis h
  constructor <;> simp [Quat.axisAngle, this.1, this.2]

theorem yaw_scaleRotation {q r : Quat ℝ} {k : ℝ} (h : Yaw q) (e : q.scaleRotation k = .ok r) : Yaw r := by
  unfold Quat.scaleRotation Quat.rotationAngle at e
  cases hn : q.normalize with
  | error x => rw [hn] at e; cases e
  | ok n =>
    have hy := yaw_normalize h hn
    rw [hn] at e
    dsimp only at e
    split at e
    · obtain rfl := Except.ok.inj e; exact hy
    · rename_i hne
      split at e
      · cases e
      rename_i ax hax
      obtain rfl := Except.ok.inj e
      refine yaw_axisAngle ?_ _
      unfold Quat.rotationAxis Quat.rotationAngle at hax
      have hone : n.norm = 1 := by
        have hq : q ≠ Quat.zeroQ := by
          intro h0
          rw [(Quat.qnormalize_spec q).1.2 h0] at hn
          cases hn
        obtain ⟨r', h1, h2, -⟩ := (Quat.qnormalize_spec q).2 hq
        obtain rfl := Except.ok.inj (h1.symm.trans hn)
        exact h2
      have hn' : n.normalize = .ok n := by unfold Quat.normalize; simp [hone]
      rw [hn'] at hax
      dsimp only at hax
      split at hax
      · split at hax
        · cases hax
        obtain rfl := Except.ok.inj hax
        constructor <;> simp [hy.1, hy.2]
      · rename_i hpos
        exact absurd (abs_pos.2 hne) hpos

theorem onAxis_add {a b : V3 ℝ} (ha : OnAxis a) (hb : OnAxis b) : OnAxis (a + b) :=
  ⟨by simp [ha.1, hb.1], by simp [ha.2, hb.2]⟩

theorem onAxis_sub {a b : V3 ℝ} (ha : OnAxis a) (hb : OnAxis b) : OnAxis (a - b) :=
  ⟨by simp [ha.1, hb.1], by simp [ha.2, hb.2]⟩

theorem onAxis_smul (k : ℝ) {a : V3 ℝ} (ha : OnAxis a) : OnAxis (k • a) := ⟨by simp [ha.1], by simp [ha.2]⟩

/-- the operators on rigid-body states keep vertical flight -/
theorem upright_keeps (x y : ℝ) : Body.Keeps Body.bodyArith (Upright x y) (Upright 0 0) Straight where
  add a b c ha hb e := by
    change a.add b = .ok c at e
    unfold RBState.add at e
    split at e
    · cases e
    rename_i o ho
    split at e
    · cases e
    rename_i o' ho'
    obtain rfl := Except.ok.inj e
    have hy := yaw_normalize (yaw_mul ⟨hb.q1, hb.q2⟩ (yaw_normalize ⟨ha.q1, ha.q2⟩ ho)) ho'
    exact ⟨by simp [ha.px, hb.px], by simp [ha.py, hb.py], onAxis_add ha.vel hb.vel, hy.1, hy.2, onAxis_add ha.spin hb.spin⟩
  aug a b c ha hb e := by
    change a.add b = .ok c at e
    unfold RBState.add at e
    split at e
    · cases e
    rename_i o ho
    split at e
    · cases e
    rename_i o' ho'
    obtain rfl := Except.ok.inj e
    have hy := yaw_normalize (yaw_mul ⟨hb.q1, hb.q2⟩ (yaw_normalize ⟨ha.q1, ha.q2⟩ ho)) ho'
    exact ⟨by simp [ha.px, hb.px], by simp [ha.py, hb.py], onAxis_add ha.vel hb.vel, hy.1, hy.2, onAxis_add ha.spin hb.spin⟩
  smul a k c ha e := by
    change a.mul k = .ok c at e
    unfold RBState.mul at e
    split at e
    · cases e
    rename_i o ho
    obtain rfl := Except.ok.inj e
    have hy := yaw_scaleRotation ⟨ha.q1, ha.q2⟩ ho
    exact ⟨by simp [ha.px], by simp [ha.py], onAxis_smul k ha.vel, hy.1, hy.2, onAxis_smul k ha.spin⟩
  dmul d k c hd e := by
    change d.mul k = .ok c at e
    unfold RBDeriv.mul at e
    split at e
    · cases e
    rename_i o ho
    obtain rfl := Except.ok.inj e
    have hy := yaw_normalize (yaw_axisAngle (normalize_onAxis (onAxis_smul k hd.angVel)) _) ho
    exact ⟨(onAxis_smul k hd.vel).1, (onAxis_smul k hd.vel).2, onAxis_smul k hd.acc, hy.1, hy.2, onAxis_smul k hd.angAcc⟩
  ddiv d k c hd e := by
    change d.div k = .ok c at e
    unfold RBDeriv.div at e
    split at e
    · cases e
    obtain rfl := Except.ok.inj e
    exact ⟨onAxis_smul _ hd.vel, onAxis_smul _ hd.acc, onAxis_smul _ hd.angVel, onAxis_smul _ hd.angAcc⟩
  dadd a b c ha hb e := by
    obtain rfl : a.add b = c := Except.ok.inj e
    exact ⟨onAxis_add ha.vel hb.vel, onAxis_add ha.acc hb.acc, onAxis_add ha.angVel hb.angVel, onAxis_add ha.angAcc hb.angAcc⟩
  daug a b c ha hb e := by
    obtain rfl : a.add b = c := Except.ok.inj e
    exact ⟨onAxis_add ha.vel hb.vel, onAxis_add ha.acc hb.acc, onAxis_add ha.angVel hb.angVel, onAxis_add ha.angAcc hb.angAcc⟩

/-! ## Surroundings -/

/-- flat earth (or none) without lateral wind -/
structure Calm (E : Env) : Prop where
  earth : E.earth = flatEarth ∨ E.earth = noEarth
  mean : ∀ h m, E.mean h = .ok m → OnAxis m
  turb : ∀ f, E.turb = some f → ∀ h m t w, f h m t = .ok w → OnAxis w

/-- a vertical launch rail over the point `x`, `y` on an earth that does not turn -/
structure RailUp (x y : ℝ) (r : Rail) : Prop where
  dir : OnAxis r.dir
  px : r.pos.x = x
  py : r.pos.y = y
  rate : r.rate = 0

theorem calm_enu {E : Env} (h : Calm E) (v : V3 ℝ) : E.earth.enu v = .ok ⟨1, 0, 0, 0⟩ := by
  rcases h.earth with e | e <;> rw [e] <;> rfl

theorem calm_rate {E : Env} (h : Calm E) : E.earth.rate = 0 := by
  rcases h.earth with e | e <;> rw [e] <;> rfl

theorem calm_gravity {E : Env} (h : Calm E) (m : ℝ) (p g : V3 ℝ) (e : E.earth.gravity m p = .ok g) : OnAxis g := by
  rcases h.earth with e' | e' <;> rw [e'] at e
  · change flatGravity m p = .ok g at e
    unfold flatGravity at e
    split at e
    · cases e
    · obtain rfl := Except.ok.inj e; exact ⟨by simp, by simp⟩
  · obtain rfl : noGravity = g := Except.ok.inj e
    exact ⟨rfl, rfl⟩

theorem calm_wind {E : Env} (h : Calm E) (pos : V3 ℝ) (t : ℝ) (c : Conditions) (e : E.conditions false pos (some t) = .ok c) :
    OnAxis c.wind := by
  unfold Env.conditions at e
  split at e
  · cases e
  rename_i c' hc'
  obtain rfl : c' = c := by simpa using e
  unfold Env.airProperties at hc'
  split at hc'
  · cases hc'
  split at hc'
  · cases hc'
  rename_i asl _ m tw hw
  have hm : OnAxis m ∧ OnAxis tw := by
    unfold Env.getWind at hw
    split at hw
    · cases hw
    rename_i m' hm'
    split at hw
    · obtain ⟨rfl, rfl⟩ := Prod.mk.inj (Except.ok.inj hw)
      exact ⟨h.mean _ _ hm', rfl, rfl⟩
    · rename_i f hf
      split at hw
      · cases hw
      rename_i t' ht'
      obtain ⟨rfl, rfl⟩ := Prod.mk.inj (Except.ok.inj hw)
      exact ⟨h.mean _ _ hm', h.turb f hf _ _ _ _ ht'⟩
  rw [calm_enu h, calm_rate h] at hc'
  dsimp only at hc'
  split at hc'
  · cases hc'
  rename_i mG q' h1
  split at hc'
  · cases hc'
  rename_i tG q'' h2
  split at hc'
  · cases hc'
  obtain rfl := Except.ok.inj hc'
  have hm0 : OnAxis (m + ⟨0 * Real.sqrt (pos.x ^ 2 + pos.y ^ 2), 0, 0⟩) := onAxis_add hm.1 ⟨by simp, rfl⟩
  obtain ⟨rfl, hy⟩ := yaw_rotate ⟨rfl, rfl⟩ hm0 h1
  obtain ⟨rfl, -⟩ := yaw_rotate hy hm.2 h2
  exact onAxis_add hm0 hm.2

/-! ## The derivative -/

theorem flow_axial {x y : ℝ} {s : RBState} {c : Conditions} {f : Flow} (hs : Upright x y s) (hc : OnAxis c.wind) (h : flowOf s c = .ok f) :
    0 ≤ f.mach ∧ OnAxis f.v ∧ OnAxis f.omega := by
  unfold flowOf at h
  simp only [bind, Except.bind] at h
  split at h
  · cases h
  rename_i mach hmach
  split at h
  · cases h
  rename_i v hv
  split at h
  · cases h
  obtain rfl := Except.ok.inj h
  refine ⟨?_, ?_, hs.spin⟩
  · unfold Aero.machOf at hmach
    split at hmach
    · cases hmach
    split at hmach
    · cases hmach
    obtain rfl := Except.ok.inj hmach
    exact div_nonneg (V3.length_nonneg _) (Real.sqrt_nonneg _)
  · unfold Aero.airVel at hv
    cases hr : s.ori.conj.rotate (s.vel - (condOf c).wind) with
    | error e => rw [hr] at hv; cases hv
    | ok p =>
      rw [hr] at hv
      obtain rfl : (-1 : ℝ) • p.1 = v := Except.ok.inj hv
      obtain ⟨hp, -⟩ := yaw_rotate (v := s.vel - (condOf c).wind) (w := p.1) (r := p.2) (yaw_conj ⟨hs.q1, hs.q2⟩) (onAxis_sub hs.vel hc) hr
      show OnAxis ((-1 : ℝ) • p.1)
      rw [hp]
      exact onAxis_smul _ (onAxis_sub hs.vel hc)

theorem spin_still {r : Rail} (h : r.rate = 0) (t : ℝ) (v : V3 ℝ) : (r.spin t).rotate v = .ok (v, ⟨1, 0, 0, 0⟩) := by
  have e : r.spin t = ⟨1, 0, 0, 0⟩ := by simp [Rail.spin, Quat.axisAngle, h]
  have n : (⟨1, 0, 0, 0⟩ : Quat ℝ).norm = 1 := by simp [Quat.norm]
  rw [e]
  unfold Quat.rotate Quat.normalize
  rw [n]
  simp [Quat.sandwich, Quat.mul, Quat.conj]

theorem rail_position {r : Rail} (h : r.rate = 0) (t : ℝ) : r.getPosition t = .ok r.pos := by
  unfold Rail.getPosition; rw [spin_still h]; rfl

theorem rail_direction {r : Rail} (h : r.rate = 0) (t : ℝ) : r.getDirection t = .ok r.dir := by
  unfold Rail.getDirection; rw [spin_still h]; rfl

theorem Craft.applied_axial (c : Craft) (hc : c.Symmetric) (E : Env) (hE : Calm E) {x y : ℝ} (hr : ∀ r, E.rail = some r → RailUp x y r)
    (t : ℝ) (s : RBState) (hs : Upright x y s) (F : FMS ℝ) (h : c.appliedForce E t s = .ok F) : OnAxis F.force ∧ OnAxis F.moment := by
  unfold Craft.appliedForce at h
  simp only [bind, Except.bind] at h
  split at h
  · cases h
  rename_i air hair
  split at h
  · cases h
  rename_i i hi
  split at h
  · cases h
  rename_i flow hflow
  split at h
  · cases h
  split at h
  · cases h
  rename_i parts hparts
  split at h
  · cases h
  rename_i g hg
  obtain ⟨f1, f2, f3⟩ := flow_axial hs (calm_wind hE _ _ _ hair) hflow
  have hcg := c.cg_onAxis hc t i hi
  have hp := axial_getAt (c.force_axial hc _ f1 f2 f3 hcg _ hparts) i.cg hcg
  have hgr : OnAxis g.force ∧ g.loc = i.cg ∧ g.moment = ⟨0, 0, 0⟩ := by
    unfold Env.gravityForce at hg
    split at hg
    · cases hg
    rename_i gv hgv
    split at hg
    · cases hg
    rename_i gv' q' hrot
    obtain rfl := Except.ok.inj hg
    have hax := calm_gravity hE _ _ _ hgv
    obtain ⟨rfl, -⟩ := yaw_rotate (yaw_conj ⟨hs.q1, hs.q2⟩) hax hrot
    exact ⟨hax, rfl, rfl⟩
  have hF : OnAxis ((parts.getAt i.cg).add g).force ∧ OnAxis ((parts.getAt i.cg).add g).moment := by
    obtain ⟨-, m1, m2, m3⟩ := hp
    obtain ⟨g1, g2, g3⟩ := hgr
    refine ⟨onAxis_add m3 g1, ?_⟩
    refine onAxis_add m1 ?_
    show OnAxis (g.moment + cross (g.loc - (parts.getAt i.cg).loc) g.force)
    rw [g2, g3]
    have : i.cg - (parts.getAt i.cg).loc = 0 := sub_self i.cg
    rw [this]
    constructor <;> simp [cross]
  unfold envForce at h
  split at h
  · obtain rfl := Except.ok.inj h; exact hF
  · rename_i r hrail
    have hr' := hr r hrail
    unfold Rail.applyForce at h
    rw [rail_position hr'.rate, rail_direction hr'.rate] at h
    dsimp only at h
    split at h
    · obtain rfl := Except.ok.inj h
      exact ⟨onAxis_smul _ hr'.dir, rfl, rfl⟩
    · obtain rfl := Except.ok.inj h; exact hF

/-- **C95.** In still air an upright symmetric rocket accelerates along its axis and turns about it only. -/
theorem Craft.rhs_straight (c : Craft) (hc : c.Symmetric) (E : Env) (hE : Calm E) {x y : ℝ} (hr : ∀ r, E.rail = some r → RailUp x y r)
    (t : ℝ) (s : RBState) (d : RBDeriv) (hs : Upright x y s) (h : c.rhs E t s = .ok d) : Straight d := by
  unfold Craft.rhs at h
  simp only [bind, Except.bind] at h
  split at h
  · cases h
  rename_i F hF
  split at h
  · cases h
  rename_i i hi
  split at h
  · cases h
  rename_i i' hi'
  obtain ⟨hf, hm⟩ := c.applied_axial hc E hE hr t s hs F hF
  have h1 := c.cg_onAxis hc _ _ hi
  have h2 := c.cg_onAxis hc _ _ hi'
  unfold rigidBodyDerivative at h
  split at h
  · cases h
  rename_i cv o ho
  split at h
  · cases h
  rename_i fG o' ho'
  split at h
  · cases h
  split at h
  · cases h
  rename_i wG o'' ho''
  split at h
  · cases h
  obtain rfl := Except.ok.inj h
  have hcv : OnAxis ((1 / 1e-8 : ℝ) • (i'.cg - i.cg)) := onAxis_smul _ (onAxis_sub h2 h1)
  obtain ⟨rfl, hy⟩ := yaw_rotate ⟨hs.q1, hs.q2⟩ hcv ho
  obtain ⟨rfl, hy'⟩ := yaw_rotate hy hf ho'
  obtain ⟨rfl, -⟩ := yaw_rotate hy' hs.spin ho''
  exact ⟨onAxis_add hs.vel hcv, onAxis_smul _ hf, hs.spin, by simp [hm.1, hs.spin.2], by simp [hm.2, hs.spin.1]⟩

/-! ## Flights -/

/-- a flight that has been vertical so far, above the point `x`, `y` -/
structure Vertical (x y : ℝ) (w : InFlight) : Prop where
  state : Upright x y w.state
  rail : ∀ r, w.rail = some r → RailUp x y r
  kept : ∀ k, w.kept = some k → Straight k

theorem constrain_upright {x y : ℝ} {rail rail' : Option Rail} {s : RBState} {m : RBState3} {t : ℝ} (hs : Upright x y s)
    (hr : ∀ r, rail = some r → RailUp x y r) (h : envConstrain rail ⟨s.pos, s.vel⟩ t = .ok (m, rail')) :
    Upright x y { s with pos := m.pos, vel := m.vel } ∧ ∀ r, rail' = some r → RailUp x y r := by
  unfold envConstrain at h
  split at h
  · obtain ⟨rfl, rfl⟩ := Prod.mk.inj (Except.ok.inj h)
    exact ⟨hs, by simp⟩
  rename_i r
  have hr' := hr r rfl
  cases hcon : r.constrain ⟨s.pos, s.vel⟩ t with
  | error e => rw [hcon] at h; cases h
  | ok p =>
    obtain ⟨b, m'⟩ := p
    have key : Upright x y { s with pos := m'.pos, vel := m'.vel } := by
      unfold Rail.constrain at hcon
      rw [rail_position hr'.rate, rail_direction hr'.rate] at hcon
      dsimp only at hcon
      unfold Rail.getVelocity at hcon
      rw [rail_position hr'.rate, hr'.rate] at hcon
      dsimp only at hcon
      repeat' split at hcon
      all_goals obtain ⟨rfl, rfl⟩ := Prod.mk.inj (Except.ok.inj hcon)
      · exact ⟨hr'.px, hr'.py, ⟨by simp [cross], by simp [cross]⟩, hs.q1, hs.q2, hs.spin⟩
      · exact ⟨hr'.px, hr'.py, hs.vel, hs.q1, hs.q2, hs.spin⟩
      · exact hs
      · exact hs
    rw [hcon] at h
    cases b <;> obtain ⟨rfl, rfl⟩ := Prod.mk.inj (Except.ok.inj h)
    · exact ⟨key, by simp⟩
    · exact ⟨key, fun r' h' => by obtain rfl := Option.some.inj h'; exact hr'⟩

theorem integrate_upright {x y : ℝ} (method : String) (f : ℝ → RBState → Except PyErr RBDeriv) (w : InFlight) (dt : ℝ)
    (hf : ∀ t s d, Upright x y s → f t s = .ok d → Straight d) (hs : Upright x y w.state) (hk : ∀ k, w.kept = some k → Straight k)
    (r : RBState × Option RBDeriv) (h : integrateStep method f w dt = .ok r) : Upright x y r.1 ∧ ∀ k, r.2 = some k → Straight k := by
  have K := upright_keeps x y
  unfold integrateStep at h
  split at h
  · rename_i tab fsal _
    simp only [bind, Except.bind] at h
    split at h
    · cases h
    split at h
    · cases h
    rename_i a ha
    obtain rfl := Except.ok.inj h
    obtain ⟨h1, h2⟩ := K.attempt hf hs _ _ hk a ha
    refine ⟨h1, fun k hk' => ?_⟩
    dsimp only at hk'
    split at hk'
    · obtain rfl := Option.some.inj hk'; exact h2
    · exact hk k hk'
  · simp only [bind, Except.bind] at h
    split at h
    · cases h
    rename_i a ha
    obtain rfl := Except.ok.inj h
    exact ⟨K.classicalStep hf hs _ a ha, by simp⟩

theorem Craft.step_vertical (c : Craft) (hc : c.Symmetric) (E : Env) (hE : Calm E) (method : String) {x y : ℝ} (w : InFlight) (dt : ℝ)
    (hw : Vertical x y w) (w' : InFlight) (h : c.timeStep E method w dt = .ok w') : Vertical x y w' := by
  unfold Craft.timeStep at h
  simp only [bind, Except.bind] at h
  split at h
  · cases h
  rename_i p hp
  split at h
  · cases h
  rename_i r hr
  obtain rfl := Except.ok.inj h
  obtain ⟨h1, h2⟩ := constrain_upright hw.state hw.rail (show envConstrain w.rail ⟨w.state.pos, w.state.vel⟩ w.time = .ok (p.1, p.2) from hp)
  obtain ⟨h3, h4⟩ := integrate_upright (x := x) (y := y) method _
    { w with state := { w.state with pos := p.1.pos, vel := p.1.vel } } dt
    (fun t s d hs hd => c.rhs_straight hc { E with rail := p.2 } ⟨hE.earth, hE.mean, hE.turb⟩ h2 t s d hs hd) h1 hw.kept r hr
  exact ⟨h3, h2, h4⟩

/-- **C95.** A symmetric rocket that starts upright, with velocity and spin along its axis, in air without lateral wind, with or without a
vertical launch rail, on a flat earth, flies vertically for ever: with every integration method, fixed or adaptive, every sequence of step
sizes, and while it changes (stages dropped, motors burning, fins turned together), as long as it stays symmetric. It never leaves the
vertical line it started on, never tilts and never tumbles. -/
theorem fly_vertical (E : Env) (hE : Calm E) (method : String) {x y : ℝ} (steps : List (Craft × ℝ)) (hc : ∀ p ∈ steps, p.1.Symmetric)
    (w : InFlight) (hw : Vertical x y w) (w' : InFlight) (h : fly E method w steps = .ok w') : Vertical x y w' := by
  induction steps generalizing w with
  | nil => obtain rfl := Except.ok.inj h; exact hw
  | cons p rest ih =>
    obtain ⟨c, dt⟩ := p
    unfold fly at h
    split at h
    · cases h
    rename_i w1 hw1
    exact ih (fun q hq => hc q (by simp [hq])) w1 (c.step_vertical (hc (c, dt) (by simp)) E hE method w dt hw w1 hw1) h

end Mapleaf.Rocket
