import Verif.Rocket.CoastProps

/-!
# C107: coasting in simulated flights
-/

namespace Mapleaf.Rocket
open Mapleaf.Motion V3 ENV
open Mapleaf.Motion.Body (bodyArith divInv accum combine stages rkStep eulerStep classicalStep Step)

theorem divInv_z {k x : RBDeriv} {w : ℝ} (e : divInv bodyArith k w = .ok x) : x.vel.z = w * k.vel.z ∧ x.acc.z = w * k.acc.z := by
  unfold divInv at e
  split at e
  · cases e
  change RBDeriv.div k (1 / w) = .ok x at e
  unfold RBDeriv.div at e
  split at e
  · cases e
  obtain rfl := Except.ok.inj e
  simp [mul_comm]

theorem accum_z {dt : ℝ} (ws : List ℝ) (ks : List RBDeriv) (acc d : RBDeriv) (e : accum bodyArith bodyArith.dadd dt acc ws ks = .ok d) :
    d.vel.z = acc.vel.z + (List.zipWith (fun w (k : RBDeriv) => w * dt * k.vel.z) ws ks).sum ∧
    d.acc.z = acc.acc.z + (List.zipWith (fun w (k : RBDeriv) => w * dt * k.acc.z) ws ks).sum := by
  induction ws generalizing acc ks with
  | nil => unfold accum at e; obtain rfl := Except.ok.inj e; simp
  | cons w ws ih =>
    cases ks with
    | nil => cases e
    | cons k ks =>
      unfold accum at e
      split at e
      · cases e
      rename_i x hx
      split at e
      · cases e
      rename_i acc' hacc
      obtain rfl : acc.add x = acc' := Except.ok.inj hacc
      obtain ⟨e1, e2⟩ := divInv_z hx
      obtain ⟨i1, i2⟩ := ih ks _ e
      rw [i1, i2]
      simp only [List.zipWith_cons_cons, List.sum_cons, RBDeriv.add, add_z, e1, e2]
      exact ⟨by ring, by ring⟩

theorem combine_z {dt : ℝ} (ws : List ℝ) (ks : List RBDeriv) (d : RBDeriv) (e : combine bodyArith bodyArith.dadd dt ws ks = .ok d) :
    d.vel.z = (List.zipWith (fun w (k : RBDeriv) => w * dt * k.vel.z) ws ks).sum ∧
    d.acc.z = (List.zipWith (fun w (k : RBDeriv) => w * dt * k.acc.z) ws ks).sum := by
  unfold combine at e
  split at e
  · split at e
    · rename_i x hx
      obtain ⟨e1, e2⟩ := divInv_z hx
      obtain ⟨i1, i2⟩ := accum_z _ _ _ _ e
      rw [i1, i2, e1, e2]
      simp
    · cases e
  · cases e

theorem plus_z {y z : RBState} {d : RBDeriv} {r : ℝ} (e : Body.plus bodyArith y d r = .ok z) :
    z.pos.z = y.pos.z + r * d.vel.z ∧ z.vel.z = y.vel.z + r * d.acc.z := by
  unfold Body.plus at e
  split at e
  · cases e
  rename_i c hc
  change RBDeriv.mul d r = .ok c at hc
  change RBState.add y c = .ok z at e
  unfold RBDeriv.mul at hc
  split at hc
  · cases hc
  obtain rfl := Except.ok.inj hc
  unfold RBState.add at e
  split at e
  · cases e
  split at e
  · cases e
  obtain rfl := Except.ok.inj e
  simp [mul_comm]

/-- equations of motion in which an upright body is never pushed upwards -/
def Sinks (x y t₀ : ℝ) (f : ℝ → RBState → Except PyErr RBDeriv) : Prop :=
  ∀ t s d, t₀ ≤ t → Upright x y s → f t s = .ok d → Straight d ∧ d.vel.z = s.vel.z ∧ d.acc.z ≤ 0

theorem stage_z {x y t₀ : ℝ} {f : ℝ → RBState → Except PyErr RBDeriv} (hf : Sinks x y t₀ f) {t dt c : ℝ} {s : RBState} (hs : Upright x y s)
    (ht : t₀ ≤ t + dt * c) (as : List ℝ) (rows : RK.Tableau ℝ) (ks : List RBDeriv) (ev : List (ℝ × RBState)) (r : List RBDeriv × List (ℝ × RBState))
    (hk : ∀ k ∈ ks, Straight k) (e : stages bodyArith f t s dt ((c :: as) :: rows) ks ev = .ok r) :
    ∃ k ev', Straight k ∧ k.acc.z ≤ 0 ∧ k.vel.z = s.vel.z + (List.zipWith (fun w (k : RBDeriv) => w * dt * k.acc.z) as ks).sum ∧
      stages bodyArith f t s dt rows (ks ++ [k]) ev' = .ok r := by
  have K := upright_keeps x y
  unfold stages at e
  dsimp only at e
  split at e
  · cases e
  rename_i ek hek
  split at e
  · cases e
  rename_i ey hey
  split at e
  · cases e
  rename_i k hkk
  obtain ⟨h1, h2, h3⟩ := hf _ _ _ ht (K.plus hs (K.combine K.dadd as ks ek hk hek) hey) hkk
  refine ⟨k, _, h1, h3, ?_, e⟩
  rw [h2, (plus_z hey).2, (combine_z _ _ _ hek).2, one_mul]

/-- one step of a fixed-step method: the vertical speed does not grow, and the climb is at most speed times time -/
theorem step_sinks {x y t₀ : ℝ} {f : ℝ → RBState → Except PyErr RBDeriv} (hf : Sinks x y t₀ f) {t dt : ℝ} (ht : t₀ ≤ t) (hdt : 0 ≤ dt) {s : RBState}
    (hs : Upright x y s) (m : String) (r : Step RBState RBDeriv) (e : classicalStep bodyArith m f t s dt = .ok r) :
    r.newValue.vel.z ≤ s.vel.z ∧ r.newValue.pos.z ≤ s.pos.z + dt * ((if m = "RK2Midpoint" then 1 + 1 / 10 ^ 16 else 1) * s.vel.z) := by
  have hq : ∀ {c : ℝ}, 0 ≤ c → t₀ ≤ t + dt * c := fun hc => by have := mul_nonneg hdt hc; linarith
  unfold classicalStep at e
  split at e
  · cases e
  · rename_i hm
    have hm' : m ≠ "RK2Midpoint" := by rintro rfl; simp [RK.classicalTableau] at hm
    rw [if_neg hm', one_mul]
    unfold eulerStep at e
    split at e
    · cases e
    rename_i k hk
    obtain ⟨-, h2, h3⟩ := hf _ _ _ ht hs hk
    split at e
    · cases e
    rename_i y' hy'
    obtain rfl := Except.ok.inj e
    obtain ⟨p1, p2⟩ := plus_z hy'
    dsimp only
    rw [p1, p2, h2]
    exact ⟨by have := mul_nonpos_of_nonneg_of_nonpos hdt h3; linarith, le_rfl⟩
  · rename_i tab hm
    split at e
    · cases e
    rename_i tab' htab
    unfold RK.checkTableau at htab
    split at htab
    swap
    · cases htab
    have htab := Except.ok.inj htab
    unfold rkStep at e
    split at e
    · cases e
    rename_i k0 hk0
    obtain ⟨q0, v0, a0⟩ := hf _ _ _ ht hs hk0
    split at e
    · cases e
    rename_i ks ev hks
    split at e
    · cases e
    rename_i d hd
    split at e
    · cases e
    rename_i y' hy'
    obtain rfl := Except.ok.inj e
    obtain ⟨p1, p2⟩ := plus_z hy'
    obtain ⟨c1, c2⟩ := combine_z _ _ _ hd
    dsimp only
    rw [p1, p2, c1, c2]
    clear p1 p2 c1 c2 hd hy' e d y'
    set b0 := dt * k0.acc.z with hb0
    have b0n : b0 ≤ 0 := mul_nonpos_of_nonneg_of_nonpos hdt a0
    have hcases : (m = "RK2Midpoint" ∧ tab = RK.tabRK2Midpoint) ∨ (m ≠ "RK2Midpoint" ∧ (tab = RK.tabRK2Heun ∨ tab = RK.tabRK4 ∨ tab = RK.tabRK438)) := by
      unfold RK.classicalTableau at hm
      repeat' split at hm
      all_goals first
        | cases hm; done
        | (have hm := Option.some.inj (Except.ok.inj hm)
           subst hm
           simp_all)
    rcases hcases with ⟨hmid, rfl⟩ | ⟨hmid, rfl | rfl | rfl⟩
    · rw [if_pos hmid]
      simp only [RK.tabRK2Midpoint, RK.patch, List.map_cons, List.map_nil] at htab
      norm_num at htab
      subst htab
      simp only [List.dropLast, List.getLast?, List.getLast, Option.getD] at hks ⊢
      obtain ⟨k1, _, q1, a1, v1, e1⟩ := stage_z hf hs (hq (by norm_num)) _ _ _ _ _ (by simpa using q0) hks
      unfold stages at e1
      obtain ⟨rfl, -⟩ := Prod.mk.inj (Except.ok.inj e1)
      simp at v1 ⊢
      rw [v0, v1]
      have b1 : dt * k1.acc.z ≤ 0 := mul_nonpos_of_nonneg_of_nonpos hdt a1
      refine ⟨?_, mul_le_mul_of_nonneg_left ?_ hdt⟩ <;> nlinarith
    all_goals rw [if_neg hmid, one_mul]
    · simp only [RK.tabRK2Heun, RK.patch, List.map_cons, List.map_nil] at htab
      norm_num at htab
      subst htab
      simp only [List.dropLast, List.getLast?, List.getLast, Option.getD] at hks ⊢
      obtain ⟨k1, _, q1, a1, v1, e1⟩ := stage_z hf hs (hq (by norm_num)) _ _ _ _ _ (by simpa using q0) hks
      unfold stages at e1
      obtain ⟨rfl, -⟩ := Prod.mk.inj (Except.ok.inj e1)
      simp at v1 ⊢
      rw [v0, v1]
      have b1 : dt * k1.acc.z ≤ 0 := mul_nonpos_of_nonneg_of_nonpos hdt a1
      refine ⟨?_, mul_le_mul_of_nonneg_left ?_ hdt⟩ <;> nlinarith
    · simp only [RK.tabRK4, RK.patch, List.map_cons, List.map_nil] at htab
      norm_num at htab
      subst htab
      simp only [List.dropLast, List.getLast?, List.getLast, Option.getD] at hks ⊢
      obtain ⟨k1, _, q1, a1, v1, e1⟩ := stage_z hf hs (hq (by norm_num)) _ _ _ _ _ (by simpa using q0) hks
      obtain ⟨k2, _, q2, a2, v2, e2⟩ := stage_z hf hs (hq (by norm_num)) _ _ _ _ _ (by
        intro k hk
        simp at hk
        rcases hk with rfl | rfl
        exacts [q0, q1]) e1
      obtain ⟨k3, _, q3, a3, v3, e3⟩ := stage_z hf hs (hq (by norm_num)) _ _ _ _ _ (by
        intro k hk
        simp at hk
        rcases hk with rfl | rfl | rfl
        exacts [q0, q1, q2]) e2
      unfold stages at e3
      obtain ⟨rfl, -⟩ := Prod.mk.inj (Except.ok.inj e3)
      simp at v1 v2 v3 ⊢
      rw [v0, v1, v2, v3]
      have b1 : dt * k1.acc.z ≤ 0 := mul_nonpos_of_nonneg_of_nonpos hdt a1
      have b2 : dt * k2.acc.z ≤ 0 := mul_nonpos_of_nonneg_of_nonpos hdt a2
      have b3 : dt * k3.acc.z ≤ 0 := mul_nonpos_of_nonneg_of_nonpos hdt a3
      refine ⟨?_, mul_le_mul_of_nonneg_left ?_ hdt⟩ <;> nlinarith
    · simp only [RK.tabRK438, RK.patch, List.map_cons, List.map_nil] at htab
      norm_num at htab
      subst htab
      simp only [List.dropLast, List.getLast?, List.getLast, Option.getD] at hks ⊢
      obtain ⟨k1, _, q1, a1, v1, e1⟩ := stage_z hf hs (hq (by norm_num)) _ _ _ _ _ (by simpa using q0) hks
      obtain ⟨k2, _, q2, a2, v2, e2⟩ := stage_z hf hs (hq (by norm_num)) _ _ _ _ _ (by
        intro k hk
        simp at hk
        rcases hk with rfl | rfl
        exacts [q0, q1]) e1
      obtain ⟨k3, _, q3, a3, v3, e3⟩ := stage_z hf hs (hq (by norm_num)) _ _ _ _ _ (by
        intro k hk
        simp at hk
        rcases hk with rfl | rfl | rfl
        exacts [q0, q1, q2]) e2
      unfold stages at e3
      obtain ⟨rfl, -⟩ := Prod.mk.inj (Except.ok.inj e3)
      simp at v1 v2 v3 ⊢
      rw [v0, v1, v2, v3]
      have b1 : dt * k1.acc.z ≤ 0 := mul_nonpos_of_nonneg_of_nonpos hdt a1
      have b2 : dt * k2.acc.z ≤ 0 := mul_nonpos_of_nonneg_of_nonpos hdt a2
      have b3 : dt * k3.acc.z ≤ 0 := mul_nonpos_of_nonneg_of_nonpos hdt a3
      refine ⟨?_, mul_le_mul_of_nonneg_left ?_ hdt⟩ <;> nlinarith

/-- a flight that has cleared the launch rail, vertical so far -/
structure Climbs (x y : ℝ) (w : InFlight) : Prop where
  state : Upright x y w.state
  free : w.rail = none
  kept : ∀ k, w.kept = some k → Straight k

theorem Craft.step_coast (c : Craft) (E : Env) (hE : Quiet E) {x y t₀ : ℝ} (hc : c.Coasts t₀) (m : String)
    (hm : m ∈ ["Euler", "RK2Midpoint", "RK2Heun", "RK4", "RK4_3/8"]) (w : InFlight) (hw : Climbs x y w) (ht : t₀ ≤ w.time) (dt : ℝ) (hdt : 0 ≤ dt)
    (w' : InFlight) (h : c.timeStep E m w dt = .ok w') :
    Climbs x y w' ∧ w'.time = w.time + dt ∧ w'.state.vel.z ≤ w.state.vel.z ∧
      w'.state.pos.z ≤ w.state.pos.z + dt * ((if m = "RK2Midpoint" then 1 + 1 / 10 ^ 16 else 1) * w.state.vel.z) := by
  have hv := c.step_vertical hc.symmetric E hE.calm m (x := x) (y := y) w dt ⟨hw.state, fun r hr => (by rw [hw.free] at hr; cases hr), hw.kept⟩ w' h
  unfold Craft.timeStep at h
  simp only [bind, Except.bind] at h
  rw [hw.free] at h
  unfold envConstrain at h
  dsimp only at h
  split at h
  · cases h
  rename_i r hr
  obtain rfl := Except.ok.inj h
  have had : ∃ e, RK.adaptiveTableau m = .error e := by
    simp only [List.mem_cons, List.not_mem_nil, or_false] at hm
    rcases hm with rfl | rfl | rfl | rfl | rfl <;> exact ⟨_, by simp [RK.adaptiveTableau]; rfl⟩
  obtain ⟨e0, had⟩ := had
  unfold integrateStep at hr
  rw [had] at hr
  simp only [bind, Except.bind] at hr
  split at hr
  · cases hr
  rename_i a ha
  obtain rfl := Except.ok.inj hr
  have hf : Sinks x y t₀ (c.rhs { E with rail := none }) := by
    intro t s d ht hs hd
    have hE' : ({ E with rail := none } : Env) = E := by
      have := hE.free
      cases E
      simp only at this
      rw [this]
    rw [hE'] at hd
    obtain ⟨h1, h2, h3, h4⟩ := c.rhs_coast E hE hc t ht s hs d hd
    refine ⟨h1, h2, le_trans h4 (neg_nonpos.2 (by positivity))⟩
  obtain ⟨s1, s2⟩ := step_sinks hf ht hdt hw.state m a ha
  exact ⟨⟨hv.state, rfl, hv.kept⟩, rfl, s1, s2⟩

/-- **C107.** A simulated vertical flight without power, with any of the fixed-step methods and any step sizes: the vertical speed never
grows, so that a rocket that falls never climbs again, and it climbs at most as far as its first speed takes it in the time flown (with
`RK2Midpoint`, whose weights do not add up to 1: up to one part in 10¹⁶ further). The rocket may lose stages on the way. -/
theorem fly_coast (E : Env) (hE : Quiet E) {x y t₀ : ℝ} (m : String) (hm : m ∈ ["Euler", "RK2Midpoint", "RK2Heun", "RK4", "RK4_3/8"])
    (steps : List (Craft × ℝ)) (hc : ∀ p ∈ steps, p.1.Coasts t₀ ∧ 0 ≤ p.2) (w : InFlight) (hw : Climbs x y w) (ht : t₀ ≤ w.time) (w' : InFlight)
    (h : fly E m w steps = .ok w') :
    Climbs x y w' ∧ w'.time = w.time + (steps.map Prod.snd).sum ∧ w'.state.vel.z ≤ w.state.vel.z ∧
      w'.state.pos.z ≤ w.state.pos.z + (w'.time - w.time) * ((if m = "RK2Midpoint" then 1 + 1 / 10 ^ 16 else 1) * w.state.vel.z) := by
  induction steps generalizing w with
  | nil => obtain rfl := Except.ok.inj h; simpa using hw
  | cons p rest ih =>
    obtain ⟨c, dt⟩ := p
    unfold fly at h
    split at h
    · cases h
    rename_i w1 hw1
    obtain ⟨c1, c2⟩ := hc (c, dt) (by simp)
    obtain ⟨k1, k2, k3, k4⟩ := c.step_coast E hE c1 m hm w hw ht dt c2 w1 hw1
    obtain ⟨i1, i2, i3, i4⟩ := ih (fun q hq => hc q (by simp [hq])) w1 k1 (by rw [k2]; dsimp only at c2; linarith) h
    have hsum : 0 ≤ (rest.map Prod.snd).sum := by
      apply List.sum_nonneg
      intro r hr
      obtain ⟨q, hq, rfl⟩ := List.mem_map.1 hr
      exact (hc q (by simp [hq])).2
    refine ⟨i1, by rw [i2, k2, List.map_cons, List.sum_cons]; ring, le_trans i3 k3, ?_⟩
    set κ : ℝ := if m = "RK2Midpoint" then 1 + 1 / 10 ^ 16 else 1 with hκ
    have hκ0 : 0 ≤ κ := by rw [hκ]; split <;> positivity
    have e1 : (w'.time - w1.time) * (κ * w1.state.vel.z) ≤ (w'.time - w1.time) * (κ * w.state.vel.z) :=
      mul_le_mul_of_nonneg_left (mul_le_mul_of_nonneg_left k3 hκ0) (by rw [i2]; linarith)
    have e2 : w'.time - w.time = (w'.time - w1.time) + dt := by rw [k2]; ring
    rw [e2, add_mul]
    linarith

end Mapleaf.Rocket
