import Verif.Rocket.MissionBuildProps
import Verif.Run.RunProps
import Verif.Run.FlightModel

/-!
# C99: a whole simulated flight of a symmetric rocket launched straight up

Stage separation, dropped stages, parachutes and the run loop.
-/

namespace Mapleaf.Rocket
open Mapleaf.Motion V3 ENV
open Mapleaf.Motion.Stepper (RBDeriv3 add3 mul3 neg3 abs3 dAdd3 dMul3 dDiv3)

/-! ## Motion without orientation -/

/-- above the point `x`, `y`, moving along the vertical -/
structure Above (x y : ℝ) (s : RBState3) : Prop where
  px : s.pos.x = x
  py : s.pos.y = y
  vel : OnAxis s.vel

/-- a derivative along the vertical -/
structure Hanging (d : RBDeriv3) : Prop where
  vel : OnAxis d.vel
  acc : OnAxis d.acc

theorem above_keeps (x y : ℝ) : Body.Keeps arith3 (Above x y) (Above 0 0) Hanging where
  add a b c ha hb e := by
    obtain rfl : add3 a b = c := Except.ok.inj e
    exact ⟨by simp [add3, ha.px, hb.px], by simp [add3, ha.py, hb.py], onAxis_add ha.vel hb.vel⟩
  aug a b c ha hb e := by
    obtain rfl : add3 a b = c := Except.ok.inj e
    exact ⟨by simp [add3, ha.px, hb.px], by simp [add3, ha.py, hb.py], onAxis_add ha.vel hb.vel⟩
  smul a k c ha e := by
    obtain rfl : mul3 a k = c := Except.ok.inj e
    exact ⟨by simp [mul3, ha.px], by simp [mul3, ha.py], onAxis_smul k ha.vel⟩
  dmul d k c hd e := by
    obtain rfl : dMul3 d k = c := Except.ok.inj e
    exact ⟨(onAxis_smul k hd.vel).1, (onAxis_smul k hd.vel).2, onAxis_smul k hd.acc⟩
  ddiv d k c hd e := by
    change dDiv3 d k = .ok c at e
    unfold dDiv3 at e
    split at e
    · cases e
    · obtain rfl := Except.ok.inj e
      exact ⟨onAxis_smul _ hd.vel, onAxis_smul _ hd.acc⟩
  dadd a b c ha hb e := by
    obtain rfl : dAdd3 a b = c := Except.ok.inj e
    exact ⟨onAxis_add ha.vel hb.vel, onAxis_add ha.acc hb.acc⟩
  daug a b c ha hb e := by
    obtain rfl : dAdd3 a b = c := Except.ok.inj e
    exact ⟨onAxis_add ha.vel hb.vel, onAxis_add ha.acc hb.acc⟩

theorem integrate_above {x y : ℝ} (method : String) (f : ℝ → RBState3 → Except PyErr RBDeriv3) (w : InFlight3) (dt : ℝ)
    (hf : ∀ t s d, Above x y s → f t s = .ok d → Hanging d) (hs : Above x y w.state) (hk : ∀ k, w.kept = some k → Hanging k)
    (r : RBState3 × Option RBDeriv3) (h : integrateStep3 method f w dt = .ok r) : Above x y r.1 ∧ ∀ k, r.2 = some k → Hanging k := by
  have K := above_keeps x y
  unfold integrateStep3 at h
  split at h
  · simp only [bind, Except.bind] at h
    split at h
    · cases h
    split at h
    · cases h
    rename_i a ha
    obtain rfl := Except.ok.inj h
    obtain ⟨h1, h2⟩ := K.attempt hf hs _ _ hk a ha
    refine ⟨h1, fun k hk' => ?_⟩
    dsimp only at hk'
    split at hk'
    · obtain rfl := Option.some.inj hk'; exact h2
    · exact hk k hk'
  · simp only [bind, Except.bind] at h
    split at h
    · cases h
    rename_i a ha
    obtain rfl := Except.ok.inj h
    exact ⟨K.classicalStep hf hs _ a ha, by simp⟩

theorem calm_wind_any {E : Env} (h : Calm E) (quiet : Bool) (pos : V3 ℝ) (t : ℝ) (c : Conditions)
    (e : E.conditions quiet pos (some t) = .ok c) : OnAxis c.wind := by
  cases quiet with
  | false => exact calm_wind h pos t c e
  | true =>
    unfold Env.conditions at e
    split at e
    · cases e
    rename_i c' hc'
    have hm : OnAxis c'.meanWind := by
      unfold Env.airProperties at hc'
      split at hc'
      · cases hc'
      split at hc'
      · cases hc'
      rename_i asl _ m tw hw
      have hm : OnAxis m := by
        unfold Env.getWind at hw
        split at hw
        · cases hw
        rename_i m' hm'
        split at hw
        · obtain ⟨rfl, rfl⟩ := Prod.mk.inj (Except.ok.inj hw)
          exact h.mean _ _ hm'
        · split at hw
          · cases hw
          obtain ⟨rfl, rfl⟩ := Prod.mk.inj (Except.ok.inj hw)
          exact h.mean _ _ hm'
      rw [calm_enu h, calm_rate h] at hc'
      dsimp only at hc'
      split at hc'
      · cases hc'
      rename_i mG q' h1
      split at hc'
      · cases hc'
      split at hc'
      · cases hc'
      obtain rfl := Except.ok.inj hc'
      have hm0 : OnAxis (m + ⟨0 * Real.sqrt (pos.x ^ 2 + pos.y ^ 2), 0, 0⟩) := onAxis_add hm ⟨by simp, rfl⟩
      obtain ⟨rfl, -⟩ := yaw_rotate ⟨rfl, rfl⟩ hm0 h1
      exact hm0
    rw [if_pos rfl] at e
    obtain rfl := Except.ok.inj e
    exact hm

/-- under a parachute the acceleration is vertical -/
theorem chute_plumb (v : Vessel) (hc : v.craft.Symmetric) (E : Env) (hE : Calm E) {x y : ℝ} (hr : ∀ r, E.rail = some r → RailUp x y r)
    (t : ℝ) (s : RBState3) (d : RBDeriv3) (hs : Above x y s) (h : v.chuteRhs E t s = .ok d) : Hanging d := by
  unfold Vessel.chuteRhs at h
  obtain ⟨air, h1, h⟩ := bind_ok h
  obtain ⟨i, h2, h⟩ := bind_ok h
  obtain ⟨f, h3, h⟩ := bind_ok h
  obtain ⟨g, h4, h⟩ := bind_ok h
  obtain ⟨total, h5, h⟩ := bind_ok h
  obtain ⟨p, h6, h⟩ := bind_ok h
  obtain rfl := Except.ok.inj h
  have hw := calm_wind_any hE _ _ _ _ h1
  have hg := calm_gravity hE _ _ _ h4
  have hf : OnAxis f.force := by
    split at h3
    · unfold chuteForce at h3
      split at h3
      · obtain rfl := Except.ok.inj h3
        exact ⟨rfl, rfl⟩
      · dsimp only at h3
        split at h3
        · obtain rfl := Except.ok.inj h3
          exact onAxis_smul _ (normalize_onAxis (onAxis_smul _ (onAxis_sub hs.vel hw)))
        · cases h3
    · cases h3
  have hF : OnAxis ((f.getAt i.cg).add ⟨g, i.cg, ⟨0, 0, 0⟩⟩).force := onAxis_add hf hg
  have ht : OnAxis total.force := by
    unfold envForce at h5
    split at h5
    · obtain rfl := Except.ok.inj h5; exact hF
    · rename_i r hrail
      have hr' := hr r hrail
      unfold Rail.applyForce at h5
      rw [rail_position hr'.rate, rail_direction hr'.rate] at h5
      dsimp only at h5
      split at h5
      · obtain rfl := Except.ok.inj h5
        exact onAxis_smul _ hr'.dir
      · obtain rfl := Except.ok.inj h5; exact hF
  unfold rigidBodyDerivative3 at h6
  split at h6
  · cases h6
  obtain rfl := Except.ok.inj h6
  exact ⟨hs.vel, onAxis_smul _ ht⟩

/-! ## Events -/

theorem passLoop_inv {σ K : Type} [Field K] [LinearOrder K] (W : World σ K) (I : σ → Prop) (hI : ∀ n w, I w → I (W.call n w).1) (z vz : K)
    (is : List Nat) (p p' : Pass σ K) (hp : I p.w) (h : passLoop W z vz is p = .ok p') : I p'.w := by
  induction is generalizing p with
  | nil => obtain rfl := Except.ok.inj h; exact hp
  | cons i is ih =>
    unfold passLoop at h
    split at h
    · cases h
    rename_i q hq
    refine ih q ?_ h
    unfold passBody at hq
    split at hq
    · cases hq
    dsimp only at hq
    split at hq <;> split at hq <;> (try split at hq) <;> obtain rfl := Except.ok.inj hq
    all_goals first | exact hp | exact hI _ _ hp

/-- what every callback keeps, handling the events keeps -/
theorem triggerEvents_inv {σ K : Type} [Field K] [LinearOrder K] (W : World σ K) (I : σ → Prop) (hI : ∀ n w, I w → I (W.call n w).1) (w w' : σ)
    (d d' : Detector K) (est : K) (ex : Bool) (hw : I w) (h : triggerEvents W w d = .ok (w', d', est, ex)) : I w' := by
  unfold triggerEvents at h
  dsimp only at h
  split at h
  · cases h
  rename_i p hp
  obtain ⟨rfl, -⟩ := Prod.mk.inj (Except.ok.inj h)
  exact passLoop_inv W I hI _ _ _ _ _ hw hp

/-! ## Separation -/

theorem lit_later (t off : ℝ) (i : Item) : LaterPart i.part (i.lit t off).part := by
  obtain ⟨p, b, m⟩ := i
  cases p <;> cases m <;> first | exact .same _ | exact .motor _ _ | exact .tail _ _ _ _ _ | exact .jet _ _ _ _ _

theorem ignite_ok {t : ℝ} {s s' : LiveStage} (h : s.ignite t = .ok s') :
    s'.position = s.position ∧ s'.over = s.over ∧ ∀ i' ∈ s'.items, ∃ i ∈ s.items, LaterPart i.part i'.part := by
  unfold LiveStage.ignite at h
  split at h
  · cases h
  split at h
  · cases h
  obtain rfl := Except.ok.inj h
  refine ⟨rfl, rfl, fun i' hi' => ?_⟩
  obtain ⟨i, hi, rfl⟩ := List.mem_map.1 hi'
  exact ⟨i, hi, lit_later _ _ i⟩

theorem tailLive_ok {d r : ℝ} {flag : Bool} {ss out : List LiveStage} (h : tailLive d r flag ss = .ok out) :
    ∀ s' ∈ out, ∃ s ∈ ss, s'.position = s.position ∧ s'.over = s.over ∧ ∀ i' ∈ s'.items, i' ∈ s.items ∨
      ∃ t k off, i'.part = .boatTail zeroInertia t k off ∧ t.position.x = s.position.x ∧ t.position.y = s.position.y := by
  unfold tailLive at h
  split at h
  · cases h
  rename_i s hlast
  split at h
  · obtain ⟨s', h1, rfl⟩ := map_ok h
    intro x hx
    rcases List.mem_append.1 hx with hx | hx
    · exact ⟨x, List.mem_of_mem_dropLast hx, rfl, rfl, fun i hi => Or.inl hi⟩
    · rw [List.mem_singleton] at hx
      subst hx
      refine ⟨s, List.mem_of_getLast? hlast, ?_⟩
      unfold LiveStage.withTail at h1
      split at h1
      · cases h1
      dsimp only at h1
      split at h1
      · cases h1
      obtain rfl := Except.ok.inj h1
      refine ⟨rfl, rfl, fun i hi => ?_⟩
      rcases List.mem_append.1 hi with hi | hi
      · exact Or.inl hi
      · rw [List.mem_singleton] at hi
        subst hi
        exact Or.inr ⟨_, _, _, rfl, rfl, rfl⟩
  · obtain rfl := Except.ok.inj h
    exact fun s hs => ⟨s, hs, rfl, rfl, fun i hi => Or.inl hi⟩

theorem separate_ok {P : Setup} {v v' : Vessel} {ds : List Vessel} (h : v.separate P = .ok (v', ds)) (hp : ∀ s ∈ v.stages, OnAxis s.position) :
    LaterForm v.craft v'.craft ∧ (∀ s ∈ v'.stages, OnAxis s.position) ∧ v'.phase = v.phase ∧
    ∀ d ∈ ds, readVessel P.src (some v.dropIndex) v.phase.copy = .ok d := by
  unfold Vessel.separate at h
  obtain ⟨dropped, h1, h⟩ := bind_ok h
  have hd : ∀ d ∈ dropped, readVessel P.src (some v.dropIndex) v.phase.copy = .ok d := by
    intro d hd
    split at h1
    · obtain ⟨d', h2, rfl⟩ := map_ok h1
      rw [List.mem_singleton] at hd
      rw [hd]; exact h2
    · obtain rfl := Except.ok.inj h1; cases hd
  split at h
  · cases h
  rename_i top rest hst
  obtain ⟨top', h3, h⟩ := bind_ok h
  obtain ⟨ss, h4, h⟩ := bind_ok h
  obtain ⟨fin, -, h⟩ := bind_ok h
  obtain ⟨rfl, rfl⟩ := Prod.mk.inj (Except.ok.inj h)
  obtain ⟨t1, t2, t3⟩ := ignite_ok h3
  have hsub : ∀ s ∈ top :: rest, s ∈ v.stages := fun s hs => List.mem_of_mem_dropLast (hst ▸ hs)
  have key : ∀ s' ∈ ss, ∃ s ∈ v.stages, s'.position = s.position ∧ s'.over = s.over ∧ ∀ i' ∈ s'.items,
      (∃ i ∈ s.items, LaterPart i.part i'.part) ∨
      ∃ t k off, i'.part = .boatTail zeroInertia t k off ∧ t.position.x = s.position.x ∧ t.position.y = s.position.y := by
    intro s' hs'
    obtain ⟨s, e1, e2, e3, e4⟩ := tailLive_ok h4 s' hs'
    rcases List.mem_cons.1 e1 with rfl | e1
    · refine ⟨top, hsub top (by simp), e2.trans t1, e3.trans t2, fun i' hi' => ?_⟩
      rcases e4 i' hi' with e | ⟨t, k, off, e, ex, ey⟩
      · exact Or.inl (t3 i' e)
      · exact Or.inr ⟨t, k, off, e, by rw [ex, t1], by rw [ey, t1]⟩
    · refine ⟨s, hsub s (by simp [e1]), e2, e3, fun i' hi' => ?_⟩
      rcases e4 i' hi' with e | e
      · exact Or.inl ⟨i', e, .same _⟩
      · exact Or.inr e
  refine ⟨?_, ?_, rfl, hd⟩
  · intro q' hq'
    obtain ⟨s', hs', rfl⟩ := List.mem_map.1 hq'
    obtain ⟨s, e1, e2, e3, e4⟩ := key s' hs'
    refine ⟨s.stageP, List.mem_map.2 ⟨s, e1, rfl⟩, e3, fun p' hp' => ?_⟩
    obtain ⟨i', hi', rfl⟩ := List.mem_map.1 hp'
    rcases e4 i' hi' with ⟨i, hi, e⟩ | ⟨t, k, off, e, ex, ey⟩
    · exact Or.inl ⟨i.part, List.mem_map.2 ⟨i, hi, rfl⟩, e⟩
    · obtain ⟨hx, hy⟩ := hp s e1
      exact Or.inr ⟨t, k, off, e, by rw [ex, hx], by rw [ey, hy]⟩
  · intro s' hs'
    obtain ⟨s, e1, e2, -⟩ := key s' hs'
    rw [e2]; exact hp s e1

theorem deploy_ok {j : Nat} {v v' : Vessel} {subs : List (Sub ℝ)} (h : v.deploy j = .ok (v', subs)) :
    v'.craft = v.craft ∧ v'.stages = v.stages ∧ (v'.phase = v.phase ∨ v'.phase = v.phase.toThree) := by
  unfold Vessel.deploy at h
  split at h
  · rename_i cs c _ _
    dsimp only at h
    split at h
    · obtain ⟨rfl, -⟩ := Prod.mk.inj (Except.ok.inj h)
      split <;> split <;> exact ⟨rfl, rfl, by first | exact Or.inl rfl | exact Or.inr rfl⟩
    · obtain ⟨k, -, e⟩ := map_ok h
      obtain ⟨rfl, -⟩ := Prod.mk.inj e.symm
      split <;> split <;> exact ⟨rfl, rfl, by first | exact Or.inl rfl | exact Or.inr rfl⟩
  · cases h

/-! ## Vertical flights -/

/-- a launch without spin, or from a rail, starts with a unit quaternion and without rotation -/
theorem launch_unit (E : Env) (hE : Calm E) (pos vel w dir cg : V3 ℝ) (rotation : Option (V3 ℝ × ℝ)) (len : ℝ)
    (hrail : makeRail E.earth E.elevation E.lat E.lon len pos rotation dir = .ok E.rail) (s : RBState)
    (h : E.initialState pos vel w rotation dir cg = .ok s) (hlen : w = 0 ∨ 0 < len) : s.ori.norm = 1 ∧ s.angVel = 0 := by
  unfold Env.initialState at h
  split at h
  · cases h
  unfold Env.initialToGlobal at h
  dsimp only at h
  have hglob : ∀ (s : RBState) a b, E.earth.toGlobal s a b = .ok s := by
    intro s a b
    rcases hE.earth with e | e <;> rw [e] <;> rfl
  rw [hglob] at h
  dsimp only at h
  unfold moveToCG at h
  split at h
  · cases h
  rename_i c o hrot
  obtain rfl := Except.ok.inj h
  refine ⟨?_, ?_⟩
  · show o.norm = 1
    obtain ⟨v', r, h1, -, h2, -⟩ := (Quat.rotate_spec _ cg).2 (Quat.rotate_ok hrot).1
    obtain ⟨-, rfl⟩ := Prod.mk.inj (Except.ok.inj (h1.symm.trans hrot))
    exact h2
  · show (if E.rail.isSome = true then _ else _ : RBState).angVel = 0
    split
    · rfl
    · rename_i hnone
      rcases hlen with rfl | hlen
      · rfl
      · exfalso
        unfold makeRail at hrail
        rw [if_pos hlen] at hrail
        repeat' split at hrail
        all_goals first
          | cases hrail; done
          | (rw [← Except.ok.inj hrail] at hnone; simp at hnone)

/-- a kind of vertical flight above the point `x`, `y`: states `S` and derivatives `D` of the body with orientation, for rockets `C` -/
structure Course (x y : ℝ) (S : RBState → Prop) (D : RBDeriv → Prop) (C : Craft → Prop) : Prop where
  up : ∀ s, S s → Upright x y s
  slide : ∀ s p u, S s → Upright x y { s with pos := p, vel := u } → S { s with pos := p, vel := u }
  symmetric : ∀ c, C c → c.Symmetric
  later : ∀ c c', LaterForm c c' → C c → C c'
  step : ∀ (c : Craft) (E : Env) (method : String) (w : InFlight) (dt : ℝ) (r : RBState × Option RBDeriv), C c → Calm E →
    (∀ q, w.rail = some q → RailUp x y q) → S w.state → (∀ k, w.kept = some k → D k) →
    integrateStep method (c.rhs { E with rail := w.rail }) w dt = .ok r → S r.1 ∧ ∀ k, r.2 = some k → D k

theorem calm_rail {E : Env} (h : Calm E) (rail : Option Rail) : Calm { E with rail := rail } := ⟨h.earth, h.mean, h.turb⟩

theorem course_vertical (x y : ℝ) : Course x y (Upright x y) Straight Craft.Symmetric where
  up _ h := h
  slide _ _ _ _ h := h
  symmetric _ h := h
  later _ _ h := laterForm_symmetric h
  step c E method w dt r hc hE hr hs hk h :=
    integrate_upright method _ w dt (fun t s d hs hd => c.rhs_straight hc _ (calm_rail hE _) hr t s d hs hd) hs hk r h

theorem course_still (x y : ℝ) (o : Quat ℝ) (ho : o.norm = 1) :
    Course x y (Fixed x y o) Sliding (fun c => c.Symmetric ∧ c.Rolless) where
  up _ h := h.up
  slide _ _ _ h h' := ⟨h', h.still, h.ori⟩
  symmetric _ h := h.1
  later _ _ h h' := ⟨laterForm_symmetric h h'.1, laterForm_rolless h h'.2⟩
  step c E method w dt r hc hE hr hs hk h :=
    integrate_fixed ho method _ w dt (fun t s d hs hd => c.rhs_sliding hc.1 hc.2 _ (calm_rail hE _) hr t s d hs hd) hs hk r h

section
variable {x y : ℝ} {S : RBState → Prop} {D : RBDeriv → Prop} {C : Craft → Prop}

/-- the body so far -/
def Phase.Fine (x y : ℝ) (S : RBState → Prop) (D : RBDeriv → Prop) : Phase → Prop
  | .six w => S w.state ∧ (∀ r, w.rail = some r → RailUp x y r) ∧ ∀ k, w.kept = some k → D k
  | .three w => Above x y w.state ∧ (∀ r, w.rail = some r → RailUp x y r) ∧ ∀ k, w.kept = some k → Hanging k

/-- the rocket so far -/
structure Vessel.Fine (x y : ℝ) (S : RBState → Prop) (D : RBDeriv → Prop) (C : Craft → Prop) (v : Vessel) : Prop where
  craft : C v.craft
  place : ∀ s ∈ v.stages, OnAxis s.position
  phase : v.phase.Fine x y S D

theorem fine_rail {p : Phase} (h : p.Fine x y S D) : ∀ r, p.rail = some r → RailUp x y r := by
  cases p <;> exact h.2.1

theorem fine_copy {p : Phase} (h : p.Fine x y S D) : p.copy.Fine x y S D := by
  cases p <;> exact ⟨h.1, h.2.1, by simp⟩

theorem fine_onRail {p : Phase} (h : p.Fine x y S D) {rail : Option Rail} (hr : ∀ r, rail = some r → RailUp x y r) :
    (p.onRail rail).Fine x y S D := by
  cases p <;> exact ⟨h.1, hr, h.2.2⟩

theorem fine_toThree (K : Course x y S D C) {p : Phase} (h : p.Fine x y S D) : p.toThree.Fine x y S D := by
  cases p with
  | six w =>
    have := K.up _ h.1
    exact ⟨⟨this.px, this.py, this.vel⟩, h.2.1, by simp⟩
  | three w => exact ⟨h.1, h.2.1, by simp⟩

theorem constrain_above {rail rail' : Option Rail} {s m : RBState3} {t : ℝ} (hs : Above x y s)
    (hr : ∀ r, rail = some r → RailUp x y r) (h : envConstrain rail s t = .ok (m, rail')) :
    Above x y m ∧ ∀ r, rail' = some r → RailUp x y r := by
  have := constrain_upright (s := ⟨s.pos, s.vel, ⟨1, 0, 0, 0⟩, ⟨0, 0, 0⟩⟩) ⟨hs.px, hs.py, hs.vel, rfl, rfl, rfl, rfl⟩ hr h
  exact ⟨⟨this.1.px, this.1.py, this.1.vel⟩, this.2⟩

theorem fine_moved (K : Course x y S D C) {p : Phase} (h : p.Fine x y S D) {m : RBState3} {rail : Option Rail}
    (hc : envConstrain p.rail ⟨p.pos, p.vel⟩ p.time = .ok (m, rail)) : (p.moved m rail).Fine x y S D := by
  cases p with
  | six w =>
    obtain ⟨h1, h2⟩ := constrain_upright (K.up _ h.1) h.2.1 hc
    exact ⟨K.slide _ _ _ h.1 h1, h2, h.2.2⟩
  | three w =>
    obtain ⟨h1, h2⟩ := constrain_above (show Above x y ⟨w.state.pos, w.state.vel⟩ from h.1) h.2.1 hc
    exact ⟨h1, h2, h.2.2⟩

theorem fine_advance (K : Course x y S D C) {E : Env} (hE : Calm E) {method : String} {v : Vessel} (hv : v.Fine x y S D C) {dt : ℝ} {p : Phase}
    (h : v.advance E method dt = .ok p) : p.Fine x y S D := by
  have hp := hv.phase
  unfold Vessel.advance at h
  split at h
  · rename_i w hw _
    rw [hw] at hp
    obtain ⟨r, h1, h⟩ := bind_ok h
    obtain rfl := Except.ok.inj h
    obtain ⟨e1, e2⟩ := K.step _ E method w dt r hv.craft hE hp.2.1 hp.1 hp.2.2 h1
    exact ⟨e1, hp.2.1, e2⟩
  · rename_i w hw _
    rw [hw] at hp
    obtain ⟨r, h1, h⟩ := bind_ok h
    obtain rfl := Except.ok.inj h
    obtain ⟨e1, e2⟩ := integrate_above method _ w dt
      (fun t s d hs hd => chute_plumb v (K.symmetric _ hv.craft) _ (calm_rail hE _) hp.2.1 t s d hs hd) hp.1 hp.2.2 r h1
    exact ⟨e1, hp.2.1, e2⟩
  · cases h

/-- what the definition makes of dropped stages: rockets of the kind `C` -/
def DropsOf (src : Source) (C : Craft → Prop) : Prop :=
  ∀ i ph v, readVessel src (some i) ph = .ok v → C v.craft ∧ (∀ s ∈ v.stages, OnAxis s.position) ∧ v.phase = ph

theorem fine_call (K : Course x y S D C) {P : Setup} (hd : DropsOf P.src C) (n : Nat) (w : Live)
    (h : w.vessel.Fine x y S D C ∧ ∀ d ∈ w.dropped, d.Fine x y S D C) :
    (w.call P n).1.vessel.Fine x y S D C ∧ ∀ d ∈ (w.call P n).1.dropped, d.Fine x y S D C := by
  unfold Live.call
  split
  · exact h
  split
  · split
    · rename_i v ds hs
      obtain ⟨e1, e2, e3, e4⟩ := separate_ok hs h.1.place
      refine ⟨⟨K.later _ _ e1 h.1.craft, e2, by rw [e3]; exact h.1.phase⟩, fun d hdm => ?_⟩
      rcases List.mem_append.1 hdm with hdm | hdm
      · exact h.2 d hdm
      · obtain ⟨f1, f2, f3⟩ := hd _ _ _ (e4 d hdm)
        exact ⟨f1, f2, by rw [f3]; exact fine_copy h.1.phase⟩
    · exact h
  · split
    · rename_i v subs hs
      obtain ⟨e1, e2, e3⟩ := deploy_ok hs
      refine ⟨⟨by rw [e1]; exact h.1.craft, by rw [e2]; exact h.1.place, ?_⟩, h.2⟩
      rcases e3 with e | e <;> rw [e]
      · exact h.1.phase
      · exact fine_toThree K h.1.phase
    · exact h

theorem fine_timeStep (K : Course x y S D C) {P : Setup} (hE : Calm P.env) (hd : DropsOf P.src C) {v : Vessel} (hv : v.Fine x y S D C)
    {dt : ℝ} {r : Run.StepResult Vessel ℝ} (h : v.timeStep P dt = .ok r) : r.rocket.Fine x y S D C ∧ ∀ d ∈ r.dropped, d.Fine x y S D C := by
  unfold Vessel.timeStep at h
  obtain ⟨⟨m, rail⟩, h1, h⟩ := bind_ok h
  dsimp only at h
  obtain ⟨⟨w, d, est, ex⟩, h2, h⟩ := bind_ok h
  have hw := triggerEvents_inv (missionWorld P) (fun w => w.vessel.Fine x y S D C ∧ ∀ d ∈ w.dropped, d.Fine x y S D C)
    (fun n w h => fine_call K hd n w h) _ _ _ _ _ _
    ⟨⟨hv.craft, hv.place, fine_moved K hv.phase h1⟩, fun _ hm => absurd hm (by simp)⟩ h2
  dsimp only at h
  split at h
  · cases h
  obtain ⟨p, h3, h⟩ := bind_ok h
  obtain rfl := Except.ok.inj h
  exact ⟨⟨hw.1.craft, hw.1.place, fine_advance K hE hw.1 h3⟩, hw.2⟩

/-- the bodies of a run and their recorded flights -/
def AllFine (x y : ℝ) (S : RBState → Prop) (D : RBDeriv → Prop) (C : Craft → Prop) (slots : List (Run.Slot Vessel ℝ)) : Prop :=
  ∀ s ∈ slots, s.rocket.Fine x y S D C ∧ ∀ u ∈ s.flight, u.Fine x y S D C

theorem fine_inner (K : Course x y S D C) {P : Setup} (hE : Calm P.env) (hd : DropsOf P.src C) (i n : Nat) {slots slots' : List (Run.Slot Vessel ℝ)}
    (hs : AllFine x y S D C slots) (h : Run.inner P.sim i n slots = .ok slots') : AllFine x y S D C slots' := by
  induction n generalizing slots with
  | zero => cases h
  | succ n ih =>
    unfold Run.inner at h
    split at h
    · cases h
    rename_i s hi
    split at h
    · obtain rfl := Except.ok.inj h; exact hs
    rename_i o _
    split at h
    · cases h
    rename_i slots1 hadv
    refine ih ?_ h
    obtain ⟨res, h1, h2, h3, h4, h5⟩ := Run.advance_at hi hadv
    have hs0 := hs s (List.mem_of_getElem? hi)
    obtain ⟨g1, g2⟩ := fine_timeStep K hE hd hs0.1 h1
    intro s' hs'
    obtain ⟨j, hj⟩ := List.mem_iff_getElem?.1 hs'
    by_cases hji : j = i
    · subst hji
      obtain rfl := Option.some.inj (hj.symm.trans h3)
      refine ⟨g1, fun u hu => ?_⟩
      rcases List.mem_append.1 hu with hu | hu
      · exact hs0.2 u hu
      · rw [List.mem_singleton] at hu; rw [hu]; exact g1
    · by_cases hjl : j < slots.length
      · rw [h4 j hjl hji] at hj
        exact hs s' (List.mem_of_getElem? hj)
      · have hjb : j < slots1.length := (List.getElem?_eq_some_iff.1 hj).1
        obtain ⟨k, rfl⟩ : ∃ k, j = slots.length + k := ⟨j - slots.length, by omega⟩
        have hk : k < res.dropped.length := by omega
        obtain ⟨f, hf, d, hd'⟩ := h5 k _ (List.getElem?_eq_getElem hk)
        obtain rfl := Option.some.inj (hj.symm.trans hd')
        refine ⟨g2 _ (List.getElem_mem hk), fun u hu => ?_⟩
        obtain ⟨s0, e1, e2⟩ := Option.map_eq_some_iff.1 hf
        dsimp only at hu
        rw [← e2] at hu
        exact (hs s0 (List.mem_of_getElem? e1)).2 u hu

theorem fine_flyAll (K : Course x y S D C) {P : Setup} (hE : Calm P.env) (hd : DropsOf P.src C) (innerFuel n i : Nat) (rail : Option Rail)
    (hr : ∀ r, rail = some r → RailUp x y r) {slots slots' : List (Run.Slot Vessel ℝ)}
    (hs : AllFine x y S D C slots) (h : flyAll P innerFuel n i rail slots = .ok slots') : AllFine x y S D C slots' := by
  induction n generalizing i rail slots with
  | zero => cases h
  | succ n ih =>
    unfold flyAll at h
    split at h
    · obtain rfl := Except.ok.inj h; exact hs
    rename_i s hi
    split at h
    · cases h
    rename_i slots1 h1
    have hs1 : AllFine x y S D C slots1 := by
      refine fine_inner K hE hd i innerFuel ?_ h1
      intro s' hs'
      have h0 := hs s (List.mem_of_getElem? hi)
      rcases List.mem_or_eq_of_mem_set hs' with hs' | rfl
      · exact hs s' hs'
      · exact ⟨⟨h0.1.craft, h0.1.place, fine_onRail h0.1.phase hr⟩, h0.2⟩
    refine ih _ _ ?_ hs1 h
    intro r hr'
    obtain ⟨s', e1, e2⟩ := Option.bind_eq_some_iff.1 hr'
    exact fine_rail (hs1 s' (List.mem_of_getElem? e1)).1.phase r e2

theorem fine_mission (K : Course x y S D C) {P : Setup} (hE : Calm P.env) (hd : DropsOf P.src C) (fuel : Nat) {v : Vessel}
    (hv : v.Fine x y S D C) {dt : ℝ} {cond : Run.EndCond ℝ} {slots : List (Run.Slot Vessel ℝ)} (h : mission P fuel v dt cond = .ok slots) :
    AllFine x y S D C slots := by
  refine fine_flyAll K hE hd fuel fuel 0 _ (fine_rail hv.phase) ?_ h
  intro s hs
  rw [List.mem_singleton] at hs
  subst hs
  exact ⟨hv, fun u hu => by rw [List.mem_singleton] at hu; rw [hu]; exact hv⟩

end

end Mapleaf.Rocket
