import Verif.Rocket.SplitModel
import Verif.Rocket.CompositeProps
import Verif.ENV.EnvProps

/-! # C69: what stage separation does to mass, momentum and place -/

namespace Mapleaf.Rocket
open Mapleaf.Motion Mapleaf.ENV

/-- Where the material point with body coordinates `p` (origin at the nose tip) is, for a body with state `s` and centre of gravity
`cg`: the state's position is that of the CG. -/
noncomputable def placeOf (s : RBState) (cg p : V3 ℝ) : V3 ℝ := s.pos + s.ori.rotF (p - cg)

/-- The velocity of that point: velocity of the CG plus rotation (angular velocity in body coordinates). -/
noncomputable def velocityOf (s : RBState) (cg p : V3 ℝ) : V3 ℝ := s.vel + s.ori.rotF (V3.cross s.angVel (p - cg))

/-- **C69.** A separation succeeds exactly when there are two stages or more, and both the top and the bottom one have a motor. Both
bodies go on from the state and time of the rocket; the one keeps all stages but the bottom one, with the top motor ignited now; the
other is the bottom stage with its motor's ignition a billion seconds ago. -/
theorem split_ok (r k d : Flying) : r.split = .ok (k, d) ↔
    ∃ (top : FlyingStage) (mid : List FlyingStage) (bottom : FlyingStage), r.stages = top :: mid ++ [bottom] ∧
      top.propellant ≠ none ∧ bottom.propellant ≠ none ∧
      k = ⟨{ top with ignition := r.time } :: mid, r.state, r.time⟩ ∧
      d = ⟨[{ bottom with ignition := -10 ^ 9 }], r.state, r.time⟩ := by
  have e9 : (-1000000000 : ℝ) = -10 ^ 9 := by norm_num
  constructor
  · intro h
    unfold Flying.split at h
    cases hl : r.stages.getLast? with
    | none => rw [hl] at h; simp at h
    | some bottom =>
      simp only [hl] at h
      unfold Flying.detached FlyingStage.setIgnition at h
      cases hb : bottom.propellant with
      | none => rw [hb] at h; simp at h
      | some pb =>
        rw [hb] at h
        simp only at h
        cases hd : r.stages.dropLast with
        | nil => rw [hd] at h; simp at h
        | cons top rest =>
          rw [hd] at h
          simp only at h
          cases ht : top.propellant with
          | none => rw [ht] at h; simp at h
          | some pt =>
            rw [ht] at h
            simp only [Except.ok.injEq, Prod.mk.injEq] at h
            refine ⟨top, rest, bottom, ?_, by simp [ht], by simp [hb], by rw [← h.1, ht], by rw [← h.2, e9, hb]⟩
            have hne : r.stages ≠ [] := by intro h0; rw [h0] at hl; simp at hl
            have := List.dropLast_append_getLast hne
            rw [List.getLast?_eq_some_getLast hne, Option.some.injEq] at hl
            rw [hl, hd] at this
            exact this.symm
  · rintro ⟨top, mid, bottom, hs, ht, hb, rfl, rfl⟩
    obtain ⟨pt, ht⟩ := Option.ne_none_iff_exists'.1 ht
    obtain ⟨pb, hb⟩ := Option.ne_none_iff_exists'.1 hb
    have h1 : r.stages.getLast? = some bottom := by rw [hs, List.getLast?_append]; rfl
    have h2 : r.stages.dropLast = top :: mid := by rw [hs]; exact List.dropLast_concat
    unfold Flying.split
    rw [h1, h2]
    unfold Flying.detached FlyingStage.setIgnition
    simp [ht, hb, e9]

/-- **C69.** Everything that can go wrong: nothing below the top stage, or a top or bottom stage without motor. -/
theorem split_fails (r : Flying) (e : PyErr) (h : r.split = .error e) : e = .indexError ∨ e = .attributeError := by
  have hset : ∀ (s : FlyingStage) (t : ℝ) (e' : PyErr), s.setIgnition t = .error e' → e' = .attributeError := by
    intro s t e' h
    unfold FlyingStage.setIgnition at h
    split at h
    · exact (Except.error.inj h).symm
    · simp at h
  have hdet : ∀ (b : FlyingStage) (e' : PyErr), r.detached b = .error e' → e' = .attributeError := by
    intro b e' h
    unfold Flying.detached at h
    split at h
    · rename_i e'' he; rw [← Except.error.inj h]; exact hset _ _ _ he
    · simp at h
  unfold Flying.split at h
  split at h
  · exact .inl (Except.error.inj h).symm
  · split at h
    · rename_i e'' he; rw [← Except.error.inj h]; exact .inr (hdet _ _ he)
    · split at h
      · exact .inl (Except.error.inj h).symm
      · split at h
        · rename_i e'' he; rw [← Except.error.inj h]; exact .inr (hset _ _ _ he)
        · simp at h

/-- the inertias of the stages, one by one -/
theorem stages_variable (t : ℝ) : ∀ (ss : List FlyingStage) (is : List (Inertia ℝ)),
    List.Forall₂ (fun s i => s.comp.inertia t = .ok i) ss is →
    Comp.variableInertias t (ss.map FlyingStage.comp) = .ok is ∧ fixedInertias (ss.map FlyingStage.comp) = [] := by
  intro ss is h
  induction h with
  | nil => exact ⟨rfl, rfl⟩
  | @cons s i ss is h _ ih =>
    refine ⟨?_, ?_⟩
    · have h' : (Comp.node s.over _).inertia t = .ok i := h
      simp only [List.map_cons, FlyingStage.comp, Comp.variableInertias]
      rw [h']
      simp only
      have := ih.1
      rw [this]
    · simp only [List.map_cons, FlyingStage.comp, fixedInertias]
      exact ih.2

/-- **C69.** The rocket's mass is the sum of its stages' masses, and its CG is their weighted mean (overrides of the stages
included). -/
theorem flying_total (r : Flying) (is : List (Inertia ℝ))
    (h : List.Forall₂ (fun s i => s.comp.inertia r.time = .ok i) r.stages is) (hs : ∀ i ∈ is, Sound i) :
    ∃ i, r.inertia = .ok i ∧ i.mass = (is.map (·.mass)).sum ∧ i.mass • i.cg = (is.map (fun j => j.mass • j.cg)).sum ∧ 0 ≤ i.mass := by
  obtain ⟨h1, h2⟩ := stages_variable r.time r.stages is h
  obtain ⟨i, e, ht, _⟩ := composite_inertia_step r.time Overrides.none (r.stages.map FlyingStage.comp) is h1
    (by rw [h2]; simp) hs
  rw [h2, List.nil_append] at ht
  exact ⟨i, e, ht.1, ht.2.1, (isTotal_sound hs ht).2⟩

/-- **C69.** The mass of a stage without mass override changes with the time of ignition exactly as its propellant does; with a mass
override it does not change. -/
theorem stage_mass (s : FlyingStage) (p : ℝ → Inertia ℝ) (hp : s.propellant = some p) (t ign : ℝ) (vs : List (Inertia ℝ))
    (hv : Comp.variableInertias t s.parts = .ok vs) (hf : ∀ i ∈ fixedInertias s.parts, Sound i) (hvs : ∀ i ∈ vs, Sound i)
    (hsp : ∀ x, Sound (p x)) :
    ∃ i, ({ s with ignition := ign } : FlyingStage).comp.inertia t = .ok i ∧ i.about = i.cg ∧
      i.mass = s.over.mass.getD (((fixedInertias s.parts).map (·.mass)).sum + (vs.map (·.mass)).sum + (p (max 0 (t - ign))).mass) := by
  have key : ∀ cs : List (Comp ℝ ℝ), ∀ vs, Comp.variableInertias t cs = .ok vs →
      Comp.variableInertias t (cs ++ [FlyingStage.motorPart p ign]) = .ok (vs ++ [p (max 0 (t - ign))]) ∧
      fixedInertias (cs ++ [FlyingStage.motorPart p ign]) = fixedInertias cs := by
    intro cs
    induction cs with
    | nil =>
      intro vs h
      rw [Comp.variableInertias] at h
      cases h
      exact ⟨rfl, rfl⟩
    | cons c cs ih =>
      intro vs h
      cases c with
      | fixed i f =>
        rw [Comp.variableInertias] at h
        obtain ⟨h1, h2⟩ := ih vs h
        refine ⟨?_, ?_⟩
        · rw [List.cons_append, Comp.variableInertias, h1]
        · rw [List.cons_append, fixedInertias, h2, fixedInertias]
      | part i f =>
        rw [Comp.variableInertias] at h
        cases hc : Comp.variableInertias t cs with
        | error e => rw [hc] at h; simp at h
        | ok l =>
          rw [hc] at h
          simp only [Except.ok.injEq] at h
          obtain ⟨h1, h2⟩ := ih l hc
          refine ⟨?_, ?_⟩
          · rw [List.cons_append, Comp.variableInertias, h1, ← h]; rfl
          · rw [List.cons_append, fixedInertias, h2, fixedInertias]
      | node o cs' =>
        rw [Comp.variableInertias] at h
        cases hi : (Comp.node o cs').inertia t with
        | error e => rw [hi] at h; simp at h
        | ok i =>
          cases hc : Comp.variableInertias t cs with
          | error e => rw [hi, hc] at h; simp at h
          | ok l =>
            rw [hi, hc] at h
            simp only [Except.ok.injEq] at h
            obtain ⟨h1, h2⟩ := ih l hc
            refine ⟨?_, ?_⟩
            · rw [List.cons_append, Comp.variableInertias, hi, h1, ← h]; rfl
            · rw [List.cons_append, fixedInertias, h2, fixedInertias]
  obtain ⟨h1, h2⟩ := key s.parts vs hv
  obtain ⟨r, _, ht, e⟩ := composite_inertia_step t s.over _ _ h1 (by rw [h2]; exact hf) (by
    intro i hi
    rw [List.mem_append, List.mem_singleton] at hi
    rcases hi with hi | rfl
    · exact hvs i hi
    · exact hsp _)
  refine ⟨⟨s.over.moi.getD r.moi, s.over.cg.getD r.cg, s.over.mass.getD r.mass, s.over.cg.getD r.cg⟩, ?_, ?_, ?_⟩
  · rw [← e]; unfold FlyingStage.comp; simp only [hp]
  · rfl
  · show s.over.mass.getD r.mass = _
    rw [ht.1, h2]
    simp [add_assoc]

section
variable (r k d : Flying) (top bottom : FlyingStage) (mid : List FlyingStage) (it it' ib id : Inertia ℝ) (im : List (Inertia ℝ))

/-- what is known about a separation: it succeeded, and these are the inertias of the stages just before and just after -/
structure Separation : Prop where
  stages : r.stages = top :: mid ++ [bottom]
  ok : r.split = .ok (k, d)
  topBefore : top.comp.inertia r.time = .ok it
  topAfter : ({ top with ignition := r.time } : FlyingStage).comp.inertia r.time = .ok it'
  bottomBefore : bottom.comp.inertia r.time = .ok ib
  bottomAfter : ({ bottom with ignition := -10 ^ 9 } : FlyingStage).comp.inertia r.time = .ok id
  middle : List.Forall₂ (fun s i => s.comp.inertia r.time = .ok i) mid im
  sound : Sound it ∧ Sound it' ∧ Sound ib ∧ Sound id ∧ ∀ i ∈ im, Sound i

variable {r k d top bottom mid it it' ib id im}

theorem Separation.bodies (S : Separation r k d top bottom mid it it' ib id im) :
    k = ⟨{ top with ignition := r.time } :: mid, r.state, r.time⟩ ∧ d = ⟨[{ bottom with ignition := -10 ^ 9 }], r.state, r.time⟩ := by
  obtain ⟨t', m', b', hs, _, _, hk, hd⟩ := (split_ok r k d).1 S.ok
  have := S.stages.symm.trans hs
  rw [List.cons_append, List.cons_append, List.cons.injEq] at this
  obtain ⟨e1, e2⟩ := this
  obtain ⟨e2, e3⟩ := List.append_inj' e2 rfl
  rw [List.cons.injEq] at e3
  subst e1 e2
  rw [← e3.1] at hd
  exact ⟨hk, hd⟩

/-- **C69.** The masses and first moments before and after, in terms of the stages: they change at separation only where re-igniting
the top motor or declaring the bottom motor burned out changes a stage. -/
theorem split_mass (S : Separation r k d top bottom mid it it' ib id im) :
    ∃ i ik jd, r.inertia = .ok i ∧ k.inertia = .ok ik ∧ d.inertia = .ok jd ∧ 0 ≤ ik.mass ∧ 0 ≤ jd.mass ∧
      jd.mass = id.mass ∧ jd.mass • jd.cg = id.mass • id.cg ∧
      i.mass = ik.mass + jd.mass + (it.mass - it'.mass) + (ib.mass - id.mass) ∧
      i.mass • i.cg = ik.mass • ik.cg + jd.mass • jd.cg + (it.mass • it.cg - it'.mass • it'.cg) +
        (ib.mass • ib.cg - id.mass • id.cg) := by
  obtain ⟨hk, hd⟩ := S.bodies
  obtain ⟨s1, s2, s3, s4, s5⟩ := S.sound
  obtain ⟨i, e1, m1, c1, _⟩ := flying_total r (it :: im ++ [ib])
    (by
      rw [S.stages]
      have h1 : List.Forall₂ (fun (s : FlyingStage) i => s.comp.inertia r.time = .ok i) (top :: mid) (it :: im) :=
        .cons S.topBefore S.middle
      have h2 : List.Forall₂ (fun (s : FlyingStage) i => s.comp.inertia r.time = .ok i) [bottom] [ib] := .cons S.bottomBefore .nil
      exact List.rel_append h1 h2)
    (by
      intro j hj
      simp only [List.cons_append, List.mem_cons, List.mem_append, List.not_mem_nil, or_false] at hj
      rcases hj with rfl | hj | rfl
      · exact s1
      · exact s5 j hj
      · exact s3)
  obtain ⟨ik, e2, m2, c2, p2⟩ := flying_total k (it' :: im) (by rw [hk]; exact .cons S.topAfter S.middle)
    (by
      intro j hj
      rw [List.mem_cons] at hj
      rcases hj with rfl | hj
      · exact s2
      · exact s5 j hj)
  obtain ⟨jd, e3, m3, c3, p3⟩ := flying_total d [id] (by rw [hd]; exact .cons S.bottomAfter .nil) (by simpa using s4)
  simp only [List.map_cons, List.map_nil, List.sum_cons, List.sum_nil, add_zero, List.map_append, List.sum_append,
    List.cons_append] at m1 c1 m2 c2 m3 c3
  refine ⟨i, ik, jd, e1, e2, e3, p2, p3, m3, c3, ?_, ?_⟩
  · rw [m1, m2, m3]; ring
  · rw [c1, c2, c3]; apply V3.ext' <;> simp <;> ring

/-- **C69.** Mass, momentum and the centre of mass of the whole are conserved when the bottom motor is burned out and the top motor
has not been lit (neither stage's inertia changes by setting the ignition times), and both bodies keep orientation, velocity and
angular velocity. -/
theorem split_conserves_partial (S : Separation r k d top bottom mid it it' ib id im) (ht : it = it') (hb : ib = id) :
    ∃ i ik jd, r.inertia = .ok i ∧ k.inertia = .ok ik ∧ d.inertia = .ok jd ∧ i.mass = ik.mass + jd.mass ∧
      i.mass • r.state.vel = ik.mass • k.state.vel + jd.mass • d.state.vel ∧
      i.mass • r.state.pos = ik.mass • k.state.pos + jd.mass • d.state.pos ∧
      i.mass • i.cg = ik.mass • ik.cg + jd.mass • jd.cg ∧
      k.state = r.state ∧ d.state = r.state ∧ k.time = r.time ∧ d.time = r.time := by
  obtain ⟨i, ik, jd, e1, e2, e3, _, _, m3, c3, m, c⟩ := split_mass S
  obtain ⟨hk, hd⟩ := S.bodies
  subst ht hb
  have hm : i.mass = ik.mass + jd.mass := by rw [m]; ring
  refine ⟨i, ik, jd, e1, e2, e3, hm, ?_, ?_, ?_, by rw [hk], by rw [hd], by rw [hk], by rw [hd]⟩
  · rw [hk, hd, hm]; apply V3.ext' <;> simp <;> ring
  · rw [hk, hd, hm]; apply V3.ext' <;> simp <;> ring
  · rw [c]; apply V3.ext' <;> simp

theorem rotF_eq_zero {q : Quat ℝ} (h : q ≠ Quat.zeroQ) {v : V3 ℝ} (e : q.rotF v = 0) : v = 0 := by
  rw [← rotF_conj h v, e, rotF_zero]

/-- **C69 (negation of "the stages stay where they are").** Every point of the rocket that goes on is displaced by the separation, by
the same vector: the dropped share of the mass times the distance of the two bodies' CGs, turned into the global frame. Nothing moves
exactly when the two CGs coincide. The centres of gravity of the two bodies, which were that far apart in the stack, are at the same
place afterwards. -/
theorem split_place_violated (S : Separation r k d top bottom mid it it' ib id im) (ht : it = it') (hb : ib = id)
    (ho : r.state.ori ≠ Quat.zeroQ) :
    ∃ i ik jd, r.inertia = .ok i ∧ k.inertia = .ok ik ∧ d.inertia = .ok jd ∧ (0 < ik.mass → 0 < jd.mass →
      (∀ p, placeOf k.state ik.cg p = placeOf r.state i.cg p + r.state.ori.rotF ((jd.mass / (ik.mass + jd.mass)) • (jd.cg - ik.cg))) ∧
      ((∃ p, placeOf k.state ik.cg p = placeOf r.state i.cg p) ↔ ik.cg = jd.cg) ∧
      placeOf k.state ik.cg ik.cg = placeOf d.state jd.cg jd.cg ∧
      placeOf r.state i.cg ik.cg - placeOf r.state i.cg jd.cg = r.state.ori.rotF (ik.cg - jd.cg)) := by
  obtain ⟨i, ik, jd, e1, e2, e3, hm, _, _, hc, sk, sd, _, _⟩ := split_conserves_partial S ht hb
  refine ⟨i, ik, jd, e1, e2, e3, fun pk pd => ?_⟩
  have hpos : 0 < ik.mass + jd.mass := by linarith
  rw [hm] at hc
  have hcg : i.cg - ik.cg = (jd.mass / (ik.mass + jd.mass)) • (jd.cg - ik.cg) := by
    have hx := congrArg V3.x hc
    have hy := congrArg V3.y hc
    have hz := congrArg V3.z hc
    simp only [V3.smul_x, V3.smul_y, V3.smul_z, V3.add_x, V3.add_y, V3.add_z] at hx hy hz
    apply V3.ext' <;> simp <;> field_simp
    · linear_combination hx
    · linear_combination hy
    · linear_combination hz
  have key : ∀ p, placeOf k.state ik.cg p = placeOf r.state i.cg p +
      r.state.ori.rotF ((jd.mass / (ik.mass + jd.mass)) • (jd.cg - ik.cg)) := by
    intro p
    unfold placeOf
    rw [sk, ← hcg]
    have : p - ik.cg = (p - i.cg) + (i.cg - ik.cg) := by apply V3.ext' <;> simp
    rw [this, rotF_add]
    apply V3.ext' <;> simp <;> ring
  refine ⟨key, ⟨?_, ?_⟩, ?_, ?_⟩
  · rintro ⟨p, hp⟩
    rw [key p] at hp
    have h0 : r.state.ori.rotF ((jd.mass / (ik.mass + jd.mass)) • (jd.cg - ik.cg)) = 0 := by
      have hx := congrArg V3.x hp
      have hy := congrArg V3.y hp
      have hz := congrArg V3.z hp
      simp only [V3.add_x, V3.add_y, V3.add_z] at hx hy hz
      apply V3.ext' <;> simp only [V3.zero_x, V3.zero_y, V3.zero_z] <;> linarith
    have h1 := rotF_eq_zero ho h0
    have hq : jd.mass / (ik.mass + jd.mass) ≠ 0 := (div_pos pd hpos).ne'
    have hx := congrArg V3.x h1
    have hy := congrArg V3.y h1
    have hz := congrArg V3.z h1
    simp only [V3.smul_x, V3.smul_y, V3.smul_z, V3.zero_x, V3.zero_y, V3.zero_z, V3.sub_x, V3.sub_y, V3.sub_z, mul_eq_zero, hq,
      or_false, false_or] at hx hy hz
    apply V3.ext' <;> linarith
  · intro e
    refine ⟨0, ?_⟩
    rw [key, e]
    have : (jd.mass / (ik.mass + jd.mass)) • (jd.cg - jd.cg) = (0 : V3 ℝ) := by apply V3.ext' <;> simp
    rw [this, rotF_zero]
    apply V3.ext' <;> simp
  · unfold placeOf
    have h0 : ∀ v : V3 ℝ, v - v = 0 := by intro v; apply V3.ext' <;> simp
    rw [sk, sd, h0, h0]
  · unfold placeOf
    have : ik.cg - i.cg = (jd.cg - i.cg) + (ik.cg - jd.cg) := by apply V3.ext' <;> simp
    rw [this, rotF_add]
    apply V3.ext' <;> simp

/-- **C69 (negation).** In a turning rocket the separation also changes the velocity of every point of the part that goes on, by the
rotation about the distance of the CGs. -/
theorem split_velocity_violated (S : Separation r k d top bottom mid it it' ib id im) (ht : it = it') (hb : ib = id)
    (ho : r.state.ori ≠ Quat.zeroQ) :
    ∃ i ik jd, r.inertia = .ok i ∧ k.inertia = .ok ik ∧ d.inertia = .ok jd ∧ (0 < ik.mass → 0 < jd.mass →
      (∀ p, velocityOf k.state ik.cg p = velocityOf r.state i.cg p +
        (jd.mass / (ik.mass + jd.mass)) • r.state.ori.rotF (V3.cross r.state.angVel (jd.cg - ik.cg))) ∧
      ((∃ p, velocityOf k.state ik.cg p = velocityOf r.state i.cg p) ↔ V3.cross r.state.angVel (jd.cg - ik.cg) = 0)) := by
  obtain ⟨i, ik, jd, e1, e2, e3, hm, _, _, hc, sk, sd, _, _⟩ := split_conserves_partial S ht hb
  refine ⟨i, ik, jd, e1, e2, e3, fun pk pd => ?_⟩
  have hpos : 0 < ik.mass + jd.mass := by linarith
  rw [hm] at hc
  have hcg : i.cg - ik.cg = (jd.mass / (ik.mass + jd.mass)) • (jd.cg - ik.cg) := by
    have hx := congrArg V3.x hc
    have hy := congrArg V3.y hc
    have hz := congrArg V3.z hc
    simp only [V3.smul_x, V3.smul_y, V3.smul_z, V3.add_x, V3.add_y, V3.add_z] at hx hy hz
    apply V3.ext' <;> simp <;> field_simp
    · linear_combination hx
    · linear_combination hy
    · linear_combination hz
  have key : ∀ p, velocityOf k.state ik.cg p = velocityOf r.state i.cg p +
        (jd.mass / (ik.mass + jd.mass)) • r.state.ori.rotF (V3.cross r.state.angVel (jd.cg - ik.cg)) := by
    intro p
    unfold velocityOf
    rw [sk, ← rotF_smul]
    have e1 : V3.cross r.state.angVel (p - ik.cg) = V3.cross r.state.angVel (p - i.cg) +
        (jd.mass / (ik.mass + jd.mass)) • V3.cross r.state.angVel (jd.cg - ik.cg) := by
      have hx := congrArg V3.x hcg
      have hy := congrArg V3.y hcg
      have hz := congrArg V3.z hcg
      simp only [V3.smul_x, V3.smul_y, V3.smul_z, V3.sub_x, V3.sub_y, V3.sub_z] at hx hy hz
      apply V3.ext' <;> simp only [V3.cross, V3.add_x, V3.add_y, V3.add_z, V3.smul_x, V3.smul_y, V3.smul_z, V3.sub_x, V3.sub_y, V3.sub_z]
      · linear_combination r.state.angVel.y * hz - r.state.angVel.z * hy
      · linear_combination r.state.angVel.z * hx - r.state.angVel.x * hz
      · linear_combination r.state.angVel.x * hy - r.state.angVel.y * hx
    rw [e1, rotF_add]
    apply V3.ext' <;> simp <;> ring
  refine ⟨key, ?_, ?_⟩
  · rintro ⟨p, hp⟩
    rw [key p, ← rotF_smul] at hp
    have h0 : r.state.ori.rotF ((jd.mass / (ik.mass + jd.mass)) • V3.cross r.state.angVel (jd.cg - ik.cg)) = 0 := by
      have hx := congrArg V3.x hp
      have hy := congrArg V3.y hp
      have hz := congrArg V3.z hp
      simp only [V3.add_x, V3.add_y, V3.add_z] at hx hy hz
      apply V3.ext' <;> simp only [V3.zero_x, V3.zero_y, V3.zero_z] <;> linarith
    have h1 := rotF_eq_zero ho h0
    have hq : jd.mass / (ik.mass + jd.mass) ≠ 0 := (div_pos pd hpos).ne'
    have hx := congrArg V3.x h1
    have hy := congrArg V3.y h1
    have hz := congrArg V3.z h1
    simp only [V3.smul_x, V3.smul_y, V3.smul_z, V3.zero_x, V3.zero_y, V3.zero_z, mul_eq_zero, hq, false_or] at hx hy hz
    apply V3.ext'
    · simpa [hq] using hx
    · simpa [hq] using hy
    · simpa [hq] using hz
  · intro e
    refine ⟨0, ?_⟩
    rw [key, e, rotF_zero]
    apply V3.ext' <;> simp

end

/-! ## Examples and mass violations -/

/-- a stage with one fixed part of the given mass at the given height, and a motor that loses one kilogram per second -/
noncomputable def sampleStage (mass z fuel ign : ℝ) : FlyingStage :=
  ⟨Overrides.none, [.fixed (Inertia.make ⟨1, 1, 1⟩ ⟨0, 0, z⟩ mass) (fun _ _ => FMS.make 0 none none)],
    some (fun ts => Inertia.make 0 ⟨0, 0, z⟩ (max 0 (fuel - ts))), ign⟩

theorem sampleStage_inertia (mass z fuel ign t : ℝ) (hm : 0 < mass) :
    ∃ i, (sampleStage mass z fuel ign).comp.inertia t = .ok i ∧ Sound i ∧ i.cg = ⟨0, 0, z⟩ ∧
      i.mass = mass + max 0 (fuel - max 0 (t - ign)) := by
  set p := max 0 (fuel - max 0 (t - ign)) with hp
  have hp0 : 0 ≤ p := le_max_left _ _
  obtain ⟨r, e1, ht, _⟩ := composite_inertia_step t Overrides.none
    [Comp.fixed (Inertia.make ⟨1, 1, 1⟩ ⟨0, 0, z⟩ mass) (fun _ _ => FMS.make 0 none none),
      FlyingStage.motorPart (fun ts => Inertia.make 0 ⟨0, 0, z⟩ (max 0 (fuel - ts))) ign] [Inertia.make 0 ⟨0, 0, z⟩ p] rfl
    (by simp only [fixedInertias, FlyingStage.motorPart, List.mem_singleton]; rintro i rfl; exact ⟨rfl, hm.le⟩)
    (by simp only [List.mem_singleton]; rintro i rfl; exact ⟨rfl, hp0⟩)
  have hfix : fixedInertias [Comp.fixed (Inertia.make (⟨1, 1, 1⟩ : V3 ℝ) ⟨0, 0, z⟩ mass) (fun (_ : ℝ) _ => FMS.make 0 none none),
      FlyingStage.motorPart (fun ts => Inertia.make 0 ⟨0, 0, z⟩ (max 0 (fuel - ts))) ign] =
      [Inertia.make ⟨1, 1, 1⟩ ⟨0, 0, z⟩ mass] := rfl
  rw [hfix] at ht
  have hmass : r.mass = mass + p := by rw [ht.1]; simp [Inertia.make]
  have hpos : r.mass ≠ 0 := by rw [hmass]; positivity
  refine ⟨r, e1, ⟨ht.2.2.2, by rw [hmass]; positivity⟩, ?_, hmass⟩
  have h := ht.2.1
  have hx := congrArg V3.x h
  have hy := congrArg V3.y h
  have hz := congrArg V3.z h
  simp [Inertia.make, hpos] at hx hy hz
  apply V3.ext'
  · exact hx
  · exact hy
  · apply mul_left_cancel₀ hpos
    show r.mass * r.cg.z = r.mass * z
    rw [hmass]
    rw [hmass] at hz
    linear_combination hz

/-- a stage's inertia depends on the ignition time only through what the propellant is at that moment -/
theorem ignition_irrelevant (s : FlyingStage) (t a b : ℝ) (h : ∀ p, s.propellant = some p → p (max 0 (t - a)) = p (max 0 (t - b))) :
    ({ s with ignition := a } : FlyingStage).comp.inertia t = ({ s with ignition := b } : FlyingStage).comp.inertia t := by
  cases hp : s.propellant with
  | none => unfold FlyingStage.comp; simp only [hp]
  | some p =>
    have h := h p hp
    have hf : ∀ cs : List (Comp ℝ ℝ), fixedInertias (cs ++ [FlyingStage.motorPart p a]) = fixedInertias (cs ++ [FlyingStage.motorPart p b]) := by
      intro cs
      induction cs with
      | nil => rfl
      | cons c cs ih => cases c <;> simp only [List.cons_append, fixedInertias, ih]
    have hv : ∀ cs : List (Comp ℝ ℝ), Comp.variableInertias t (cs ++ [FlyingStage.motorPart p a]) =
        Comp.variableInertias t (cs ++ [FlyingStage.motorPart p b]) := by
      intro cs
      induction cs with
      | nil => simp only [List.nil_append, FlyingStage.motorPart, Comp.variableInertias, h]
      | cons c cs ih => cases c <;> simp only [List.cons_append, Comp.variableInertias, ih]
    unfold FlyingStage.comp
    simp only [hp, Comp.inertia, fixedMassInertia, hf, hv]

/-- a two-stage rocket: the upper stage (5 kg and 3 kg of propellant) at z = -1 waiting, the lower one (10 kg and 8 kg of propellant)
at z = -3, lit at time 0 -/
noncomputable def twoStages (state : RBState) (time : ℝ) : Flying :=
  ⟨[sampleStage 5 (-1) 3 (10 ^ 9), sampleStage 10 (-3) 8 0], state, time⟩

theorem twoStages_separation (state : RBState) (time : ℝ) (h0 : 0 ≤ time) (h1 : time ≤ 10 ^ 9) :
    ∃ it ib id : Inertia ℝ, Separation (twoStages state time) ⟨[sampleStage 5 (-1) 3 time], state, time⟩
      ⟨[sampleStage 10 (-3) 8 (-10 ^ 9)], state, time⟩ (sampleStage 5 (-1) 3 (10 ^ 9)) (sampleStage 10 (-3) 8 0) [] it it ib id [] ∧
      it.mass = 8 ∧ it.cg = ⟨0, 0, -1⟩ ∧ ib.mass = 10 + max 0 (8 - time) ∧ ib.cg = ⟨0, 0, -3⟩ ∧ id.mass = 10 ∧ id.cg = ⟨0, 0, -3⟩ ∧
      (8 ≤ time → ib = id) := by
  obtain ⟨it, e1, s1, c1, m1⟩ := sampleStage_inertia 5 (-1) 3 (10 ^ 9) time (by norm_num)
  obtain ⟨it', e2, s2, c2, m2⟩ := sampleStage_inertia 5 (-1) 3 time time (by norm_num)
  obtain ⟨ib, e3, s3, c3, m3⟩ := sampleStage_inertia 10 (-3) 8 0 time (by norm_num)
  obtain ⟨id, e4, s4, c4, m4⟩ := sampleStage_inertia 10 (-3) 8 (-10 ^ 9) time (by norm_num)
  have hmax : max 0 (time - 10 ^ 9) = 0 := max_eq_left (by linarith)
  have hee : it = it' := by
    have := ignition_irrelevant (sampleStage 5 (-1) 3 (10 ^ 9)) time (10 ^ 9) time (by intro p _; rw [hmax]; simp)
    exact Except.ok.inj (e1.symm.trans (this.trans e2))
  subst hee
  have hlate : max 0 (time - -10 ^ 9) = time + 10 ^ 9 := by rw [max_eq_right (by linarith)]; ring
  refine ⟨it, ib, id, ⟨rfl, ?_, e1, e2, e3, e4, .nil, s1, s1, s3, s4, by simp⟩, ?_, c1, ?_, c3, ?_, c4, ?_⟩
  · rw [split_ok]
    exact ⟨_, [], _, rfl, by simp [sampleStage], by simp [sampleStage], rfl, rfl⟩
  · rw [m1, hmax]; norm_num
  · rw [m3, sub_zero, max_eq_right h0]
  · rw [m4, hlate, max_eq_left (by norm_num; linarith)]; norm_num
  · intro h8
    have := ignition_irrelevant (sampleStage 10 (-3) 8 0) time 0 (-10 ^ 9) (by
      intro p hp
      simp only [sampleStage, Option.some.injEq] at hp
      rw [← hp, hlate, sub_zero, max_eq_right h0]
      have a1 : max 0 (8 - time) = 0 := max_eq_left (by linarith)
      have a2 : max 0 (8 - (time + 10 ^ 9)) = 0 := max_eq_left (by norm_num; linarith)
      simp only [a1, a2])
    exact Except.ok.inj (e3.symm.trans (this.trans e4))

/-- the hypotheses of the conservation and place theorems can be met: separation nine seconds into the flight -/
example (state : RBState) : ∃ it ib : Inertia ℝ, Separation (twoStages state 9) ⟨[sampleStage 5 (-1) 3 9], state, 9⟩
    ⟨[sampleStage 10 (-3) 8 (-10 ^ 9)], state, 9⟩ (sampleStage 5 (-1) 3 (10 ^ 9)) (sampleStage 10 (-3) 8 0) [] it it ib ib [] := by
  obtain ⟨it, ib, id, h, _, _, _, _, _, _, e⟩ := twoStages_separation state 9 (by norm_num) (by norm_num)
  rw [← e (by norm_num)] at h
  exact ⟨it, ib, h⟩

/-- **C69 (negation).** In that rocket the upper stage jumps down by 10/9 m along its axis at separation. -/
theorem split_jump_violated (state : RBState) (ho : state.ori ≠ Quat.zeroQ) :
    ∃ k d i ik, (twoStages state 9).split = .ok (k, d) ∧ (twoStages state 9).inertia = .ok i ∧ k.inertia = .ok ik ∧
      ∀ p, placeOf k.state ik.cg p = placeOf state i.cg p + state.ori.rotF ⟨0, 0, -10 / 9⟩ := by
  obtain ⟨it, ib, id, S, m1, c1, m2, c2, m3, c3, e⟩ := twoStages_separation state 9 (by norm_num) (by norm_num)
  have e := e (by norm_num)
  obtain ⟨i, ik, jd, e1, e2, e3, h⟩ := split_place_violated S rfl e ho
  obtain ⟨_, ik', jd', _, e2', e3', _, _, mj, cj, _, _⟩ := split_mass S
  obtain ⟨ik'', e2'', mk, ck, _⟩ := flying_total ⟨[sampleStage 5 (-1) 3 9], state, 9⟩ [it] (.cons S.topAfter .nil)
    (by simpa using S.sound.1)
  have q1 : ik = ik'' := Except.ok.inj (e2.symm.trans e2'')
  have q2 : jd = jd' := Except.ok.inj (e3.symm.trans e3')
  subst q1 q2
  simp only [List.map_cons, List.map_nil, List.sum_cons, List.sum_nil, add_zero] at mk ck
  rw [m1] at mk
  rw [m3] at mj
  rw [mk, m1, c1] at ck
  rw [mj, m3, c3] at cj
  have kx := congrArg V3.x ck
  have ky := congrArg V3.y ck
  have kz := congrArg V3.z ck
  have jx := congrArg V3.x cj
  have jy := congrArg V3.y cj
  have jz := congrArg V3.z cj
  simp at kx ky kz jx jy jz
  have hk := (h (by rw [mk]; norm_num) (by rw [mj]; norm_num)).1
  refine ⟨_, _, i, ik, S.ok, e1, e2, fun p => ?_⟩
  have := hk p
  rw [mk, mj] at this
  have hv : (10 / (8 + 10) : ℝ) • (jd.cg - ik.cg) = ⟨0, 0, -10 / 9⟩ := by
    apply V3.ext' <;> simp [kx, ky, jx, jy]
    linarith
  rw [hv] at this
  exact this

/-- **C69 (negation of mass conservation).** A stage dropped while it burns loses its propellant: 24 kg become 18 kg. -/
theorem burning_stage_violated (state : RBState) :
    ∃ k d i ik jd, (twoStages state 2).split = .ok (k, d) ∧ (twoStages state 2).inertia = .ok i ∧ k.inertia = .ok ik ∧
      d.inertia = .ok jd ∧ i.mass = 24 ∧ ik.mass + jd.mass = 18 := by
  obtain ⟨it, ib, id, S, m1, c1, m2, c2, m3, c3, e⟩ := twoStages_separation state 2 (by norm_num) (by norm_num)
  obtain ⟨i, ik, jd, e1, e2, e3, _, _, mj, _, m, _⟩ := split_mass S
  obtain ⟨ik', e2', mk, _, _⟩ := flying_total ⟨[sampleStage 5 (-1) 3 2], state, 2⟩ [it] (.cons S.topAfter .nil)
    (by simpa using S.sound.1)
  have q1 : ik = ik' := Except.ok.inj (e2.symm.trans e2')
  subst q1
  have h6 : max 0 (8 - 2) = (6 : ℝ) := by norm_num
  simp only [List.map_cons, List.map_nil, List.sum_cons, List.sum_nil, add_zero] at mk
  refine ⟨_, _, i, ik, jd, S.ok, e1, e2, e3, ?_, ?_⟩
  · rw [m, mk, mj, m1, m2, m3, h6]; norm_num
  · rw [mk, mj, m1, m3]; norm_num

/-- **C69 (negation of mass conservation).** The second separation of a rocket refuels its top stage: here the top motor has burned for
two seconds when the stage below is dropped (4 + 10 kg in flight), and has 3 kg of propellant again afterwards. -/
theorem refuel_violated (state : RBState) :
    ∃ (r k d : Flying) (i ik jd : Inertia ℝ), r = ⟨[sampleStage 5 (-1) 3 1, sampleStage 10 (-3) 0 (10 ^ 9)], state, 3⟩ ∧
      r.split = .ok (k, d) ∧ r.inertia = .ok i ∧ k.inertia = .ok ik ∧ d.inertia = .ok jd ∧ i.mass = 16 ∧ ik.mass + jd.mass = 18 := by
  obtain ⟨it, e1, s1, _, m1⟩ := sampleStage_inertia 5 (-1) 3 1 3 (by norm_num)
  obtain ⟨it', e2, s2, _, m2⟩ := sampleStage_inertia 5 (-1) 3 3 3 (by norm_num)
  obtain ⟨ib, e3, s3, _, m3⟩ := sampleStage_inertia 10 (-3) 0 (10 ^ 9) 3 (by norm_num)
  obtain ⟨id, e4, s4, _, m4⟩ := sampleStage_inertia 10 (-3) 0 (-10 ^ 9) 3 (by norm_num)
  set r : Flying := ⟨[sampleStage 5 (-1) 3 1, sampleStage 10 (-3) 0 (10 ^ 9)], state, 3⟩ with hr
  obtain ⟨i, f1, n1, _, _⟩ := flying_total r [it, ib] (.cons e1 (.cons e3 .nil)) (by simp [s1, s3])
  obtain ⟨ik, f2, n2, _, _⟩ := flying_total ⟨[sampleStage 5 (-1) 3 3], state, 3⟩ [it'] (.cons e2 .nil) (by simp [s2])
  obtain ⟨jd, f3, n3, _, _⟩ := flying_total ⟨[sampleStage 10 (-3) 0 (-10 ^ 9)], state, 3⟩ [id] (.cons e4 .nil) (by simp [s4])
  refine ⟨r, _, _, i, ik, jd, rfl, (split_ok r _ _).2 ⟨_, [], _, rfl, by simp [sampleStage], by simp [sampleStage], rfl, rfl⟩, f1, f2,
    f3, ?_, ?_⟩
  · rw [n1]
    simp only [List.map_cons, List.map_nil, List.sum_cons, List.sum_nil, m1, m3]
    norm_num
  · rw [n2, n3]
    simp only [List.map_cons, List.map_nil, List.sum_cons, List.sum_nil, m2, m4]
    norm_num

end Mapleaf.Rocket
