import Verif.Rocket.SeparationProps
import Verif.Rocket.MissionLandProps

/-!
# C100, second part: rocket and dropped stage together
-/

namespace Mapleaf.Rocket
open Mapleaf.Motion V3 ENV

/-! ## Motors that have burned out -/

theorem linInterp_past {V : Type} [AddCommGroup V] [Module ℝ V] (X : List ℝ) (Y : List V) (x last : ℝ) (hs : X.Pairwise (· < ·))
    (hl : X.getLast? = some last) (hx : last ≤ x) : linInterp X Y x = pyGet Y (X.length - 1) := by
  have hn : X ≠ [] := by rintro rfl; cases hl
  have hlast : X.getLast hn = last := by
    rw [List.getLast?_eq_some_getLast hn] at hl; exact Option.some.inj hl
  have hb : bisect X x = X.length := by
    apply bisect_eq_of (strict_le hs) (le_refl _)
    · intro i h _
      refine le_trans ?_ hx
      rw [← hlast, List.getLast_eq_getElem, strict_index hs]
      omega
    · intro i h h'; omega
  unfold linInterp
  simp only [hb, ge_iff_le, le_refl, if_true]

/-- the motor has burned out at time `t`: the last time of its thrust curve, which is in order, has passed -/
def Motor.Spent (m : Motor ℝ) (t : ℝ) : Prop := m.times.Pairwise (· < ·) ∧ ∃ last, m.times.getLast? = some last ∧ last ≤ t - m.ignition

/-- a motor weighs the same once it has burned out, whenever that was -/
theorem spent_inertia {m : Motor ℝ} {t u : ℝ} (h : m.Spent t) (hu : Motor.Spent { m with ignition := u } t) :
    Motor.inertia { m with ignition := u } t = m.inertia t := by
  obtain ⟨h1, last, h2, h3⟩ := h
  obtain ⟨-, last', h2', h3'⟩ := hu
  dsimp only at h2' h3'
  rw [h2] at h2'
  obtain rfl := Option.some.inj h2'
  have a : last ≤ max 0 (t - m.ignition) := le_max_of_le_right h3
  have b : last ≤ max 0 (t - u) := le_max_of_le_right h3'
  unfold Motor.inertia Motor.oxInertia Motor.fuelInertia propInertia
  dsimp only
  rw [linInterp_past m.times m.oxWeights _ last h1 h2 a, linInterp_past m.times m.oxWeights _ last h1 h2 b,
    linInterp_past m.times m.fuelWeights _ last h1 h2 a, linInterp_past m.times m.fuelWeights _ last h1 h2 b,
    linInterp_past m.times m.oxMOIs _ last h1 h2 a, linInterp_past m.times m.oxMOIs _ last h1 h2 b,
    linInterp_past m.times m.fuelMOIs _ last h1 h2 a, linInterp_past m.times m.fuelMOIs _ last h1 h2 b]

/-- `stage.motor` has burned out, as `updateIgnitionTime(-1e9)` will have it -/
def LiveStage.BurnedOut (s : LiveStage) (t : ℝ) : Prop :=
  ∀ i ∈ s.items, i.main = true → ∀ m, i.part = .motor m → m.Spent t ∧ Motor.Spent { m with ignition := -1000000000 } t

theorem relit_inertia {s s' : LiveStage} {t : ℝ} (ho : s'.over = s.over) (h : List.Forall₂ (Relit (-1000000000)) s.items s'.items)
    (hb : s.BurnedOut t) : s'.stageP.inertia t = s.stageP.inertia t := by
  unfold LiveStage.stageP
  rw [ho]
  apply inertia_same
  rw [List.forall₂_map_left_iff, List.forall₂_map_right_iff]
  unfold LiveStage.BurnedOut at hb
  generalize s.items = xs at h hb
  generalize s'.items = ys at h
  induction h with
  | nil => exact .nil
  | @cons i i' xs ys e _ ih =>
    refine .cons ?_ (ih fun j hj => hb j (List.mem_cons_of_mem _ hj))
    obtain ⟨-, -, e1, e2⟩ := e
    cases hm : i.main with
    | false => exact e2 hm t
    | true =>
      obtain ⟨m, e3, e4⟩ := e1 hm
      obtain ⟨b1, b2⟩ := hb i (by simp) hm m e3
      rw [e3, e4]
      refine ⟨rfl, ?_⟩
      change (Motor.inertia { m with ignition := -1000000000 } t).map some = (m.inertia t).map some
      rw [spent_inertia b1 b2]

/-! ## Rocket and dropped stage -/

/-- **C100, part that holds.** The first separation of a rocket, its stages numbered from the lowest up and the motor of the lowest burned out,
conserves mass, first and second moments (about every point, in the axes of the rocket) and momentum: those of the rocket before it are those
of the rocket that goes on and of the dropped stage together. -/
theorem separation_conserves_partial {P : Setup} {v v0 v' : Vessel} {ds : List Vessel} {ph : Phase} {i : Inertia ℝ}
    (hread : readVessel P.src none ph = .ok v0) (hn : NumberedUp P.src) (hstages : v.stages = v0.stages) (hix : v.dropIndex = 0)
    (hdrop : P.dropPaths = true) (h : v.separate P = .ok (v', ds)) (hi : v.craft.inertia v.phase.time = .ok i)
    (hm : v.craft.Heavy v.phase.time) (hu : ∀ s, v.stages.head? = some s → s.Unlit v.phase.time)
    (hb : ∀ s, v.stages.getLast? = some s → s.BurnedOut v.phase.time) :
    ∃ d i' k, ds = [d] ∧ v'.craft.inertia v'.phase.time = .ok i' ∧ d.craft.inertia d.phase.time = .ok k ∧
      i.mass = i'.mass + k.mass ∧ i.mass • i.cg = i'.mass • i'.cg + k.mass • k.cg ∧
      (∀ p, Inertia.secondMoment p i = Inertia.secondMoment p i' + Inertia.secondMoment p k) ∧
      i.mass • v.phase.vel = i'.mass • v'.phase.vel + k.mass • d.phase.vel := by
  obtain ⟨low, i', j, e1, e2, e3, e4, e5, e6, -, e7, -⟩ := separation_inertia h hi hm hu
  obtain ⟨s1, -, -, s2⟩ := separation_state h
  obtain ⟨-, d, hds, hd, t1, t2, t3, -⟩ := s2 hdrop
  rw [hix] at hd
  obtain ⟨-, low', dl, f1, f2, -, f3, f4⟩ := first_drop hn hread hd
  rw [← hstages, e1] at f1
  obtain rfl := Option.some.inj f1
  have hdl : dl.stageP.inertia v.phase.time = .ok j := by rw [relit_inertia f3 f4 (hb low e1), e3]
  have hj : j.about = j.cg := by
    obtain ⟨vs, g1, g2, -⟩ := craft_total hi hm
    have hmem : low.stageP ∈ v.craft.stages := List.mem_map.2 ⟨low, List.mem_of_getLast? e1, rfl⟩
    have g3 := (mapE_forall2 _ _ _).1 g1
    obtain ⟨n, hn, hnn⟩ := List.mem_iff_getElem.1 hmem
    have hl := g3.length_eq
    have := (List.forall₂_iff_get.1 g3).2 n hn (by omega)
    simp only [List.get_eq_getElem] at this
    rw [hnn, e3] at this
    rw [Except.ok.inj this]
    exact (g2 _ (List.getElem_mem _)).1
  obtain ⟨k, k1, k2⟩ := craft_inertia_ok (c := d.craft) (t := d.phase.time) (vs := [j]) (by
    unfold Vessel.craft
    rw [f2, t1]
    exact (mapE_forall2 _ _ _).2 (.cons hdl .nil)) (by
    intro x hx
    rw [List.mem_singleton] at hx
    rw [hx]
    exact ⟨hj, e7⟩)
  obtain ⟨q1, q2, q3, -⟩ := k2
  simp only [List.map_cons, List.map_nil, List.sum_cons, List.sum_nil, add_zero] at q1 q2 q3
  refine ⟨d, i', k, hds, by rw [s1]; exact e2, k1, by rw [q1]; exact e4, by rw [q2]; exact e5, fun p => by rw [q3]; exact e6 p, ?_⟩
  rw [s1, t3, ← add_smul, q1, e4]

/-! ## What is lost -/

/-- the moments of inertia of two bodies about their common centre of gravity -/
theorem two_moi {i a b : Inertia ℝ} (hm : i.mass = a.mass + b.mass) (hc : i.mass • i.cg = a.mass • a.cg + b.mass • b.cg)
    (hs : ∀ p, Inertia.secondMoment p i = Inertia.secondMoment p a + Inertia.secondMoment p b) (h0 : i.mass ≠ 0) :
    i.moi.x = a.moi.x + b.moi.x + a.mass * b.mass / i.mass * ((a.cg.y - b.cg.y) ^ 2 + (a.cg.z - b.cg.z) ^ 2) ∧
    i.moi.y = a.moi.y + b.moi.y + a.mass * b.mass / i.mass * ((a.cg.x - b.cg.x) ^ 2 + (a.cg.z - b.cg.z) ^ 2) ∧
    i.moi.z = a.moi.z + b.moi.z + a.mass * b.mass / i.mass * ((a.cg.x - b.cg.x) ^ 2 + (a.cg.y - b.cg.y) ^ 2) := by
  have hp := hs i.cg
  have key : ∀ c x y : ℝ, c * i.mass = x * a.mass + y * b.mass →
      a.mass * (c - x) ^ 2 + b.mass * (c - y) ^ 2 = a.mass * b.mass / i.mass * (x - y) ^ 2 := by
    intro c x y h
    have hc : c = (a.mass * x + b.mass * y) / i.mass := by field_simp; linarith
    rw [hc]
    have : a.mass = i.mass - b.mass := by linarith
    rw [this]
    field_simp
    ring
  have hx := key i.cg.x a.cg.x b.cg.x (by simpa using congrArg V3.x hc)
  have hy := key i.cg.y a.cg.y b.cg.y (by simpa using congrArg V3.y hc)
  have hz := key i.cg.z a.cg.z b.cg.z (by simpa using congrArg V3.z hc)
  have p1 := congrArg V3.x hp
  have p2 := congrArg V3.y hp
  have p3 := congrArg V3.z hp
  simp only [Inertia.secondMoment, V3.add_x, V3.add_y, V3.add_z, sub_self] at p1 p2 p3
  refine ⟨?_, ?_, ?_⟩
  · rw [mul_add, ← hy, ← hz]; linarith
  · rw [mul_add, ← hx, ← hz]; linarith
  · rw [mul_add, ← hx, ← hy]; linarith

/-- **C100 (negation of "a separation leaves rocket and stage where they were").** Before the separation the centres of gravity of the rocket
that goes on and of the lowest stage are apart by `i'.cg - j.cg` in the axes of the rocket; after it both bodies, which spin alike, have
theirs in the same place. Every point of the rocket that goes on (`X`, in the axes of the rocket) has jumped by the distance `jump` from the
old centre of gravity to the new one, and if the rocket spins about a transverse axis angular momentum is lost. -/
theorem separation_place_violated {P : Setup} {v v' : Vessel} {ds : List Vessel} {w : InFlight} {i : Inertia ℝ} (hw : v.phase = .six w)
    (h : v.separate P = .ok (v', ds)) (hdrop : P.dropPaths = true) (hi : v.craft.inertia v.phase.time = .ok i)
    (hm : v.craft.Heavy v.phase.time) (h0 : 0 < i.mass)
    (hu : ∀ s, v.stages.head? = some s → s.Unlit v.phase.time) :
    ∃ d low i' j, ds = [d] ∧ v.stages.getLast? = some low ∧ low.stageP.inertia v.phase.time = .ok j ∧
      v'.craft.inertia v'.phase.time = .ok i' ∧
      d.phase.pos = v'.phase.pos ∧ d.phase = .six { w with kept := none } ∧ v'.phase = .six w ∧
      (∀ X a b ra rb, w.state.ori.rotate (X - i.cg) = .ok (a, ra) → w.state.ori.rotate (X - i'.cg) = .ok (b, rb) →
        ((w.state.pos + b) - (w.state.pos + a)).length = (i.cg - i'.cg).length ∧
        i.mass • (i.cg - i'.cg) = j.mass • (j.cg - i'.cg)) ∧
      i.moi.x * w.state.angVel.x = (i'.moi.x + j.moi.x) * w.state.angVel.x +
        i'.mass * j.mass / i.mass * ((i'.cg.y - j.cg.y) ^ 2 + (i'.cg.z - j.cg.z) ^ 2) * w.state.angVel.x ∧
      (0 < i'.mass → 0 < j.mass → i'.cg.z ≠ j.cg.z → w.state.angVel.x ≠ 0 →
        i.moi.x * w.state.angVel.x ≠ i'.moi.x * w.state.angVel.x + j.moi.x * w.state.angVel.x ∧ 0 < (i.cg - i'.cg).length) := by
  obtain ⟨low, i', j, e1, e2, e3, e4, e5, e6, -, e7, -⟩ := separation_inertia h hi hm hu
  obtain ⟨s1, -, -, s2⟩ := separation_state h
  obtain ⟨-, d, hds, hd, t1, t2, t3, -, t4⟩ := s2 hdrop
  obtain ⟨mx, -, -⟩ := two_moi e4 e5 e6 h0.ne'
  have hjump : i.mass • (i.cg - i'.cg) = j.mass • (j.cg - i'.cg) := by
    rw [smul_sub, smul_sub, e5, e4, add_smul]
    abel
  refine ⟨d, low, i', j, hds, e1, e3, by rw [s1]; exact e2, by rw [t2, s1], t4 w hw, s1.trans hw, ?_, by rw [mx]; ring, ?_⟩
  · intro X a b ra rb ha hb
    refine ⟨?_, hjump⟩
    obtain ⟨-, -, -, -, -, hneg⟩ := Quat.rotate_isometry _ _ _ _ _ _ _ (-1) ha hb
    obtain ⟨-, -, -, -, hadd, -⟩ := Quat.rotate_isometry _ _ _ _ _ _ _ (-1) hb hneg
    have e : X - i'.cg + (-1 : ℝ) • (X - i.cg) = i.cg - i'.cg := by
      apply V3.ext' <;> simp
    rw [e] at hadd
    obtain ⟨-, hlen, -⟩ := Quat.rotate_isometry _ _ _ _ _ _ _ 1 hadd hadd
    rw [← hlen]
    congr 1
    apply V3.ext' <;> simp <;> ring
  · intro ha hb hz hω
    have hz' : 0 < (i'.cg.z - j.cg.z) ^ 2 := by
      have : i'.cg.z - j.cg.z ≠ 0 := sub_ne_zero.2 hz
      positivity
    constructor
    · rw [mx]
      intro hc
      have : i'.mass * j.mass / i.mass * ((i'.cg.y - j.cg.y) ^ 2 + (i'.cg.z - j.cg.z) ^ 2) * w.state.angVel.x = 0 := by linarith
      have hp : 0 < i'.mass * j.mass / i.mass * ((i'.cg.y - j.cg.y) ^ 2 + (i'.cg.z - j.cg.z) ^ 2) := by positivity
      exact hω ((mul_eq_zero.1 this).resolve_left hp.ne')
    · have hne : i.cg.z - i'.cg.z ≠ 0 := by
        intro hc
        have := congrArg V3.z hjump
        simp only [V3.smul_z, V3.sub_z, hc, zero_mul] at this
        rcases mul_eq_zero.1 this.symm with h | h
        · exact hz (by linarith)
        · exact hb.ne' h
      unfold V3.length
      apply Real.sqrt_pos.2
      simp only [V3.dot, V3.sub_x, V3.sub_y, V3.sub_z]
      have := mul_self_pos.2 hne
      nlinarith [mul_self_nonneg (i.cg.x - i'.cg.x), mul_self_nonneg (i.cg.y - i'.cg.y)]

theorem leaf_unique {t : ℝ} {p : Part} {a b : Inertia ℝ} (ha : p.Leaf t a) (hb : p.Leaf t b) : a = b := by
  rcases ha with ha | ⟨h0, ha⟩ <;> rcases hb with hb | ⟨h1, hb⟩
  · exact Option.some.inj (ha.symm.trans hb)
  · rw [ha] at h1; cases h1
  · rw [hb] at h0; cases h0
  · exact Option.some.inj (Except.ok.inj (ha.symm.trans hb))

theorem leaf_same {t : ℝ} {p q : Part} (h : SameMass t p q) {a : Inertia ℝ} (ha : q.Leaf t a) : p.Leaf t a := by
  obtain ⟨h1, h2⟩ := h
  unfold Part.Leaf at ha ⊢
  rwa [h1, h2] at ha

theorem leaves_same {t : ℝ} {ps qs : List Part} (h : List.Forall₂ (SameMass t) ps qs) {l m : List (Inertia ℝ)}
    (hl : List.Forall₂ (Part.Leaf t) ps l) (hm : List.Forall₂ (Part.Leaf t) qs m) : m = l := by
  induction h generalizing l m with
  | nil => cases hl; cases hm; rfl
  | cons e _ ih =>
    cases hl with
    | cons a as =>
      cases hm with
      | cons b bs => rw [ih as bs, leaf_unique a (leaf_same e b)]

/-- a motor from a file has no mass left after burnout -/
theorem spent_mass {h : MotorHeader ℝ} {rows : List (MotorRow ℝ)} {z f b off : ℝ} {m : Motor ℝ} (hb : Motor.build h rows z f b = .ok (m, off))
    {t u : ℝ} (hs : Motor.Spent { m with ignition := u } t) : ∃ i, Motor.inertia { m with ignition := u } t = .ok i ∧ i.mass = 0 := by
  obtain ⟨hr, -, -, ht, -, hox, hfu, -, -, hm1, hm2, -, -⟩ := build_ok hb
  obtain ⟨h1, last, h2, h3⟩ := hs
  dsimp only at h1 h2 h3
  have hn : m.times ≠ [] := by rintro e; rw [e] at h2; cases h2
  have hlast : m.times.getLast hn = last := by
    rw [List.getLast?_eq_some_getLast hn] at h2; exact Option.some.inj h2
  have hpos : 0 < rows.length := List.length_pos_of_ne_nil hr
  have hlen : m.times.length = rows.length := by rw [ht]; simp
  have area : ∀ V : List ℝ, areaFrom m.times V (rows.length - 1) = 0 := by
    intro V
    unfold areaFrom
    rw [hlen]
    simp
  have key : ∀ (ws : List ℝ) (ms : List (V3 ℝ)) (V : List ℝ) (m0 c1 c2 : ℝ), ws = (List.range rows.length).map (areaFrom m.times V) →
      ms.length = rows.length →
      ∃ i, propInertia m.times ws ms m0 c1 c2 (max 0 (t - u)) = .ok i ∧ i.mass = 0 ∧ i.about = i.cg := by
    intro ws ms V m0 c1 c2 hws hms
    unfold propInertia
    split
    · exact ⟨_, rfl, rfl, rfl⟩
    · obtain ⟨g1, e1⟩ := linInterp_above m.times ws (max 0 (t - u)) h1 hn (by rw [hws]; simpa using hlen) (by
        rw [hlast]; exact le_max_of_le_right h3)
      obtain ⟨g2, e2⟩ := linInterp_above m.times ms (max 0 (t - u)) h1 hn (by rw [hms]; exact hlen) (by
        rw [hlast]; exact le_max_of_le_right h3)
      rw [e1]
      dsimp only
      rw [e2]
      refine ⟨_, rfl, ?_, rfl⟩
      change ws.getLast g1 = 0
      rw [List.getLast_eq_getElem]
      subst hws
      simp only [List.getElem_map, List.getElem_range, List.length_map, List.length_range]
      exact area V
  obtain ⟨o, o1, o2, o3⟩ := key m.oxWeights m.oxMOIs _ m.oxMass m.header.initOx m.header.finalOx hox (by rw [hm1]; simp)
  obtain ⟨g, g1, g2, g3⟩ := key m.fuelWeights m.fuelMOIs _ m.fuelMass m.header.initFuel m.header.finalFuel hfu (by rw [hm2]; simp)
  unfold Motor.inertia Motor.oxInertia Motor.fuelInertia
  dsimp only
  rw [o1]
  dsimp only
  rw [g1]
  dsimp only
  unfold Inertia.add
  obtain ⟨c1, c2⟩ := Inertia.combine_partial o [g] (by
    intro x hx
    rcases List.mem_cons.1 hx with rfl | hx
    · exact o3
    · rw [List.mem_singleton] at hx; rw [hx]; exact g3) (by
    intro x hx
    rcases List.mem_cons.1 hx with rfl | hx
    · rw [o2]
    · rw [List.mem_singleton] at hx; rw [hx, g2])
  by_cases hog : o ∈ [g]
  · obtain ⟨r, r1, r2⟩ := c2 hog
    exact ⟨r, r1, by rw [r2.1]; simp [g2]⟩
  · obtain ⟨r, r1, r2⟩ := c1 hog
    exact ⟨r, r1, by rw [r2.1]; simp [o2, g2]⟩

/-- all parts of the stage are bodies: moments of inertia about the centre of gravity, no negative mass -/
def LiveStage.Sound (s : LiveStage) (t : ℝ) : Prop := ∀ i ∈ s.items, ∀ j, i.part.Leaf t j → j.about = j.cg ∧ 0 ≤ j.mass

/-- **C100 (negation of "a separation conserves mass").** A stage dropped before its motor has burned out loses the propellant left in it:
`a` is the inertia of the motor on the stage, `k` that of the stage after it was dropped. -/
theorem unburnt_violated {h : MotorHeader ℝ} {rows : List (MotorRow ℝ)} {z f b off ign : ℝ} {m : Motor ℝ}
    (hb : Motor.build h rows z f b = .ok (m, off)) {low dl : LiveStage} {xs ys : List Item} {body : BodyComp ℝ} {t : ℝ}
    (hitems : low.items = xs ++ ⟨.motor { m with ignition := ign }, body, true⟩ :: ys) (hx : ∀ i ∈ xs ++ ys, i.main = false)
    (hr : List.Forall₂ (Relit (-1000000000)) low.items dl.items) (ho : low.over = ⟨none, none, none⟩) (ho' : dl.over = low.over)
    (hs : low.Sound t) (hsp : Motor.Spent { m with ignition := -1000000000 } t) {j k a : Inertia ℝ}
    (hj : low.stageP.inertia t = .ok j) (hk : dl.stageP.inertia t = .ok k) (ha : Motor.inertia { m with ignition := ign } t = .ok a) :
    j.mass = k.mass + a.mass := by
  obtain ⟨e, e1, e2⟩ := spent_mass hb hsp
  rw [hitems] at hr
  obtain ⟨xs', rest, hdl, r1, r2⟩ := forall2_append_left hr
  obtain ⟨mi, ys', r3, r4, rfl⟩ := List.forall₂_cons_left_iff.1 r2
  have hmi : mi.part = .motor { m with ignition := -1000000000 } := by
    obtain ⟨m', q1, q2⟩ := r3.2.2.1 rfl
    obtain rfl := Part.motor.inj q1
    exact q2
  have same : ∀ {as bs : List Item}, (∀ i ∈ as, i.main = false) → List.Forall₂ (Relit (-1000000000)) as bs →
      List.Forall₂ (SameMass t) (as.map Item.part) (bs.map Item.part) := by
    intro as bs ha hf
    rw [List.forall₂_map_left_iff, List.forall₂_map_right_iff]
    induction hf with
    | nil => exact .nil
    | cons q _ ih => exact .cons (q.2.2.2 (ha _ (by simp)) t) (ih fun i hi => ha i (by simp [hi]))
  have sx := same (fun i hi => hx i (by simp [hi])) r1
  have sy := same (fun i hi => hx i (by simp [hi])) r4
  -- the stage on the rocket
  obtain ⟨l, l1, l2⟩ := stage_total low.stageP t ho j hj (by
    intro p hp q hq
    obtain ⟨i, hi, rfl⟩ := List.mem_map.1 hp
    exact hs i hi q hq)
  have hlp : low.stageP.parts = xs.map Item.part ++ .motor { m with ignition := ign } :: ys.map Item.part := by
    unfold LiveStage.stageP; rw [hitems]; simp
  rw [hlp] at l1
  obtain ⟨lx, lr, rfl, l3, l4⟩ := forall2_append_left l1
  obtain ⟨la, ly, l5, l6, rfl⟩ := List.forall₂_cons_left_iff.1 l4
  -- the stage dropped
  have hdp : dl.stageP.parts = xs'.map Item.part ++ .motor { m with ignition := -1000000000 } :: ys'.map Item.part := by
    unfold LiveStage.stageP; rw [hdl]; simp [hmi]
  have hleafe : (Part.motor { m with ignition := -1000000000 }).Leaf t e := Or.inr ⟨rfl, by
    change (Motor.inertia { m with ignition := -1000000000 } t).map some = _
    rw [e1]; rfl⟩
  have heabout : e.about = e.cg := by
    unfold Motor.inertia at e1
    dsimp only at e1
    split at e1
    · cases e1
    split at e1
    · cases e1
    exact combine_about e1
  obtain ⟨n, n1, n2⟩ := stage_total dl.stageP t (by change dl.over = _; rw [ho', ho]) k hk (by
    intro p hp q hq
    rw [hdp] at hp
    have from_low : ∀ {as bs : List Item}, (∀ i ∈ as, i ∈ low.items) → List.Forall₂ (SameMass t) (as.map Item.part) (bs.map Item.part) →
        p ∈ bs.map Item.part → q.about = q.cg ∧ 0 ≤ q.mass := by
      intro as bs hsub hf hpb
      obtain ⟨c, hc, hcp⟩ := List.mem_iff_getElem.1 hpb
      have hlen := hf.length_eq
      have := (List.forall₂_iff_get.1 hf).2 c (by omega) hc
      simp only [List.get_eq_getElem] at this
      rw [hcp] at this
      have hlow := leaf_same this hq
      rw [List.getElem_map] at hlow
      exact hs _ (hsub _ (List.getElem_mem _)) q hlow
    rcases List.mem_append.1 hp with hp | hp
    · exact from_low (fun i hi => by rw [hitems]; simp [hi]) sx hp
    · rcases List.mem_cons.1 hp with rfl | hp
      · rw [leaf_unique hq hleafe]
        exact ⟨heabout, by rw [e2]⟩
      · exact from_low (fun i hi => by rw [hitems]; simp [hi]) sy hp)
  rw [hdp] at n1
  obtain ⟨nx, nr, rfl, n3, n4⟩ := forall2_append_left n1
  obtain ⟨na, ny, n5, n6, rfl⟩ := List.forall₂_cons_left_iff.1 n4
  have hleafa : (Part.motor { m with ignition := ign }).Leaf t a := Or.inr ⟨rfl, by
    change (Motor.inertia { m with ignition := ign } t).map some = _
    rw [ha]; rfl⟩
  rw [l2.1, n2.1, leaf_unique n5 hleafe, leaf_unique l5 hleafa, leaves_same sx l3 n3, leaves_same sy l6 n6]
  simp only [List.map_append, List.map_cons, List.sum_append, List.sum_cons, e2]
  ring

end Mapleaf.Rocket
