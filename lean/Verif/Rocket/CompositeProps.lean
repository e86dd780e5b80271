import Verif.Rocket.CompositeModel
import Verif.Motion.ForceProps
import Mathlib.Algebra.BigOperators.Group.List.Lemmas

/-!
# C30: composite objects sum their parts
-/

namespace Mapleaf.Rocket
open Mapleaf.Motion

section
variable {A K : Type} [Field K] [LinearOrder K]

/-! ## Specification: the parts of a component, whatever the nesting -/

/-- What a part contributes: its force system and its inertia -/
structure Leaf (A K : Type) where
  force : A → V3 K → FMS K
  inertia : A → Inertia K

mutual
/-- The parts, left to right -/
def Comp.leaves : Comp A K → List (Leaf A K)
  | .fixed i f => [⟨f, fun _ => i⟩]
  | .part i f => [⟨f, i⟩]
  | .node _ cs => Comp.leavesAll cs
def Comp.leavesAll : List (Comp A K) → List (Leaf A K)
  | [] => []
  | c :: cs => c.leaves ++ Comp.leavesAll cs
end

mutual
/-- No composite in the tree overrides inertia values -/
def Comp.Plain : Comp A K → Prop
  | .fixed _ _ => True
  | .part _ _ => True
  | .node o cs => o = Overrides.none ∧ Comp.PlainAll cs
def Comp.PlainAll : List (Comp A K) → Prop
  | [] => True
  | c :: cs => c.Plain ∧ Comp.PlainAll cs
end

/-! ## Forces -/

mutual
theorem Comp.force_sum (a : A) (cg q : V3 K) : ∀ c : Comp A K,
    (c.force a cg).force = (c.leaves.map (fun l => (l.force a cg).force)).sum ∧
    (c.force a cg).momentAbout q = (c.leaves.map (fun l => (l.force a cg).momentAbout q)).sum
  | .fixed i f => by simp [Comp.force, Comp.leaves]
  | .part i f => by simp [Comp.force, Comp.leaves]
  | .node o cs => by
    have h := Comp.forceAll_sum a cg q cs (FMS.make ⟨0, 0, 0⟩ (some cg) none)
    have h1 : (FMS.make (⟨0, 0, 0⟩ : V3 K) (some cg) none).force = 0 := rfl
    have h2 : (FMS.make (⟨0, 0, 0⟩ : V3 K) (some cg) none).momentAbout q = 0 := by
      apply V3.ext' <;> simp [FMS.momentAbout, FMS.make, V3.cross]
    rw [h1, h2, zero_add, zero_add] at h
    simpa only [Comp.force, Comp.leaves] using h
theorem Comp.forceAll_sum (a : A) (cg q : V3 K) : ∀ (cs : List (Comp A K)) (acc : FMS K),
    (Comp.forceAll a cg cs acc).force = acc.force + ((Comp.leavesAll cs).map (fun l => (l.force a cg).force)).sum ∧
    (Comp.forceAll a cg cs acc).momentAbout q =
      acc.momentAbout q + ((Comp.leavesAll cs).map (fun l => (l.force a cg).momentAbout q)).sum
  | [], acc => by simp [Comp.forceAll, Comp.leavesAll]
  | c :: cs, acc => by
    have h1 := Comp.force_sum a cg q c
    have h2 := Comp.forceAll_sum a cg q cs (acc.add (c.force a cg))
    have h3 := FMS.add_spec acc (c.force a cg) q
    simp only [Comp.forceAll, Comp.leavesAll, List.map_append, List.sum_append]
    rw [h2.1, h2.2, h3.1, h3.2, h1.1, h1.2, add_assoc, add_assoc]
    exact ⟨rfl, rfl⟩
end

/-- **C30.** The force on a composite is the sum of the forces of its parts and its total moment about any point the sum of
theirs, for any nesting; it is expressed at the given point. -/
theorem composite_force (a : A) (cg q : V3 K) (o : Overrides K) (cs : List (Comp A K)) :
    ((Comp.node o cs).force a cg).force = ((Comp.node o cs).leaves.map (fun l => (l.force a cg).force)).sum ∧
    (((Comp.node o cs).force a cg).getAt q).moment =
      ((Comp.node o cs).leaves.map (fun l => ((l.force a cg).getAt q).moment)).sum ∧
    ((Comp.node o cs).force a cg).loc = cg := by
  have h := Comp.force_sum a cg q (Comp.node o cs)
  have hloc : ∀ (cs : List (Comp A K)) (acc : FMS K), (Comp.forceAll a cg cs acc).loc = acc.loc := by
    intro cs
    induction cs with
    | nil => intro acc; rfl
    | cons c cs ih => intro acc; rw [Comp.forceAll, ih]; rfl
  refine ⟨h.1, h.2, ?_⟩
  rw [Comp.force, hloc]; rfl

/-- **C30.** Two composites with the same parts - in any order, grouped in any way - give the same force system. -/
theorem composite_force_order (a : A) (cg : V3 K) (o o' : Overrides K) (cs cs' : List (Comp A K))
    (h : (Comp.node o cs).leaves.Perm (Comp.node o' cs').leaves) :
    (Comp.node o cs).force a cg = (Comp.node o' cs').force a cg := by
  refine FMS.fms_determined _ _ 0 ?_ ?_ ?_
  · rw [(composite_force a cg 0 o cs).2.2, (composite_force a cg 0 o' cs').2.2]
  · rw [(Comp.force_sum a cg 0 _).1, (Comp.force_sum a cg 0 _).1]; exact (h.map _).sum_eq
  · rw [(Comp.force_sum a cg 0 _).2, (Comp.force_sum a cg 0 _).2]; exact (h.map _).sum_eq

/-! ## Inertia -/

variable [IsStrictOrderedRing K]

/-- A part is described about its own CG and has no negative mass. -/
def Sound (i : Inertia K) : Prop := i.about = i.cg ∧ 0 ≤ i.mass

omit [IsStrictOrderedRing K] in
theorem isTotal_append {p q : List (Inertia K)} {i j r : Inertia K} (hi : Inertia.IsTotal p i) (hj : Inertia.IsTotal q j)
    (hr : Inertia.IsTotal [i, j] r) : Inertia.IsTotal (p ++ q) r := by
  obtain ⟨m1, f1, s1, a1⟩ := hi
  obtain ⟨m2, f2, s2, a2⟩ := hj
  obtain ⟨m, f, s, ar⟩ := hr
  refine ⟨?_, ?_, ?_, ar⟩
  · rw [m]; simp [m1, m2]
  · rw [f]; simp [f1, f2]
  · intro p'; rw [s]; simp [s1, s2]

omit [IsStrictOrderedRing K] in
/-- replacing parts by what they amount to -/
theorem isTotal_flatten {ps : List (List (Inertia K))} {is : List (Inertia K)} {r : Inertia K}
    (h : List.Forall₂ (fun p i => Inertia.IsTotal p i) ps is) (hr : Inertia.IsTotal is r) : Inertia.IsTotal ps.flatten r := by
  have key : (ps.flatten.map (·.mass)).sum = (is.map (·.mass)).sum ∧
      (ps.flatten.map (fun j => j.mass • j.cg)).sum = (is.map (fun j => j.mass • j.cg)).sum ∧
      ∀ p, (ps.flatten.map (Inertia.secondMoment p)).sum = (is.map (Inertia.secondMoment p)).sum := by
    clear hr
    induction h with
    | nil => simp
    | cons h _ ih =>
      obtain ⟨k1, k2, k3⟩ := ih
      refine ⟨?_, ?_, ?_⟩
      · rw [List.flatten_cons, List.map_append, List.sum_append, k1, List.map_cons, List.sum_cons, h.1]
      · rw [List.flatten_cons, List.map_append, List.sum_append, k2, List.map_cons, List.sum_cons, h.2.1]
      · intro p; rw [List.flatten_cons, List.map_append, List.sum_append, k3, List.map_cons, List.sum_cons, h.2.2.1]
  obtain ⟨m, f, s, ar⟩ := hr
  refine ⟨by rw [m, key.1], by rw [f, key.2.1], fun p => by rw [s, key.2.2], ar⟩

omit [IsStrictOrderedRing K] in
theorem isTotal_perm {p q : List (Inertia K)} {r : Inertia K} (h : p.Perm q) (hr : Inertia.IsTotal p r) :
    Inertia.IsTotal q r := by
  obtain ⟨m, f, s, ar⟩ := hr
  exact ⟨by rw [m]; exact (h.map _).sum_eq, by rw [f]; exact (h.map _).sum_eq,
    fun x => by rw [s]; exact (h.map _).sum_eq, ar⟩

theorem isTotal_sound {p : List (Inertia K)} {r : Inertia K} (h : ∀ i ∈ p, Sound i) (hr : Inertia.IsTotal p r) : Sound r := by
  refine ⟨hr.2.2.2, ?_⟩
  rw [hr.1]
  apply List.sum_nonneg
  intro x hx
  rw [List.mem_map] at hx
  obtain ⟨i, hi, rfl⟩ := hx
  exact (h i hi).2

theorem fixedMass_total (cs : List (Comp A K)) (h : ∀ i ∈ fixedInertias cs, Sound i) :
    ∃ r, fixedMassInertia cs = .ok r ∧ Inertia.IsTotal (fixedInertias cs) r := by
  unfold fixedMassInertia
  cases hl : fixedInertias cs with
  | nil =>
    refine ⟨_, rfl, ?_, ?_, ?_, rfl⟩
    · simp [Inertia.make]
    · apply V3.ext' <;> simp [Inertia.make]
    · intro p; apply V3.ext' <;> simp [Inertia.make, Inertia.secondMoment]
  | cons i l =>
    rw [hl] at h
    dsimp only
    refine (Inertia.combine_partial i (i :: l) ?_ ?_).2 (by simp)
    · intro j hj; exact (h j (by simpa using hj)).1
    · intro j hj; exact (h j (by simpa using hj)).2

/-- **C30.** The inertia of a composite without overrides: it evaluates whenever its children do, its fixed-mass children count
once and together, and it is the total of the inertias of all children. With overrides exactly the overridden values change. -/
theorem composite_inertia_step (a : A) (o : Overrides K) (cs : List (Comp A K)) (vs : List (Inertia K))
    (hv : Comp.variableInertias a cs = .ok vs) (hf : ∀ i ∈ fixedInertias cs, Sound i) (hvs : ∀ i ∈ vs, Sound i) :
    ∃ r, (Comp.node Overrides.none cs).inertia a = .ok r ∧ Inertia.IsTotal (fixedInertias cs ++ vs) r ∧
      (Comp.node o cs).inertia a = .ok ⟨o.moi.getD r.moi, o.cg.getD r.cg, o.mass.getD r.mass, o.cg.getD r.cg⟩ := by
  obtain ⟨fi, h1, h2⟩ := fixedMass_total cs hf
  have hfi : Sound fi := isTotal_sound hf h2
  have hall : ∀ j ∈ fi :: vs, Sound j := by
    intro j hj; rw [List.mem_cons] at hj; rcases hj with rfl | hj
    · exact hfi
    · exact hvs j hj
  obtain ⟨r, h3, h4⟩ := (Inertia.combine_partial fi (fi :: vs)
    (fun j hj => (hall j (by simpa using hj)).1) (fun j hj => (hall j (by simpa using hj)).2)).2 (by simp)
  refine ⟨r, ?_, ?_, ?_⟩
  · simp only [Comp.inertia, h1, hv, h3, applyOverrides, Overrides.none]
  · have hsing : ∀ i : Inertia K, i.about = i.cg → Inertia.IsTotal [i] i := by
      intro i hi; exact ⟨by simp, by simp, fun p => by simp, hi⟩
    have hfor : List.Forall₂ (fun p i => Inertia.IsTotal p i) (fixedInertias cs :: vs.map (fun v => [v])) (fi :: vs) := by
      refine List.Forall₂.cons h2 ?_
      clear h3 h4 hv
      induction vs with
      | nil => exact List.Forall₂.nil
      | cons v vs ih =>
        exact List.Forall₂.cons (hsing v (hvs v (by simp)).1) (ih (fun i hi => hvs i (by simp [hi]))
          (fun j hj => hall j (by rw [List.mem_cons] at hj ⊢; rcases hj with h | h; exact .inl h; exact .inr (by simp [h]))))
    have := isTotal_flatten hfor h4
    have e : (fixedInertias cs :: vs.map (fun v => [v])).flatten = fixedInertias cs ++ vs := by
      rw [List.flatten_cons]
      congr 1
      clear hfor h3 h4 hv hvs hall this
      induction vs with
      | nil => rfl
      | cons v vs ih => simp only [List.map_cons, List.flatten_cons, ih]; rfl
    rwa [e] at this
  · have hab : r.about = r.cg := h4.2.2.2
    simp only [Comp.inertia, h1, hv, h3, applyOverrides, Except.ok.injEq]
    rcases o with ⟨_ | c, _ | m, _ | x⟩ <;> cases r <;> simp_all

omit [Field K] [LinearOrder K] [IsStrictOrderedRing K] in
theorem fixed_sublist (a : A) : ∀ cs : List (Comp A K),
    ∀ i ∈ fixedInertias cs, ∃ l ∈ Comp.leavesAll cs, l.inertia a = i
  | [], i, hi => by simp [fixedInertias] at hi
  | .fixed j f :: cs, i, hi => by
    simp only [fixedInertias, List.mem_cons] at hi
    rcases hi with rfl | hi
    · exact ⟨⟨f, fun _ => i⟩, by simp [Comp.leavesAll, Comp.leaves], rfl⟩
    · obtain ⟨l, hl, e⟩ := fixed_sublist a cs i hi
      exact ⟨l, by simp [Comp.leavesAll, hl], e⟩
  | .part j f :: cs, i, hi => by
    obtain ⟨l, hl, e⟩ := fixed_sublist a cs i hi
    exact ⟨l, by simp [Comp.leavesAll, hl], e⟩
  | .node o cs' :: cs, i, hi => by
    obtain ⟨l, hl, e⟩ := fixed_sublist a cs i hi
    exact ⟨l, by simp [Comp.leavesAll, hl], e⟩

mutual
theorem Comp.inertia_sum (a : A) : ∀ c : Comp A K, c.Plain → (∀ l ∈ c.leaves, Sound (l.inertia a)) →
    ∃ r, c.inertia a = .ok r ∧ Inertia.IsTotal (c.leaves.map (fun l => l.inertia a)) r
  | .fixed i f, _, h => by
    have hs := (h ⟨f, fun _ => i⟩ (by simp [Comp.leaves])).1
    exact ⟨i, rfl, by simp [Comp.leaves], by simp [Comp.leaves], fun p => by simp [Comp.leaves], hs⟩
  | .part i f, _, h => by
    have hs := (h ⟨f, i⟩ (by simp [Comp.leaves])).1
    exact ⟨i a, rfl, by simp [Comp.leaves], by simp [Comp.leaves], fun p => by simp [Comp.leaves], hs⟩
  | .node o cs, hp, h => by
    obtain ⟨ho, hpa⟩ := hp
    subst ho
    obtain ⟨vs, groups, h1, h2, h3⟩ := Comp.variable_sum a cs hpa h
    have hf : ∀ i ∈ fixedInertias cs, Sound i := by
      intro i hi
      obtain ⟨l, hl, e⟩ := fixed_sublist a cs i hi
      rw [← e]; exact h l hl
    have hvs : ∀ i ∈ vs, Sound i := by
      intro i hi
      obtain ⟨k, hk, rfl⟩ := List.getElem_of_mem hi
      have hk' : k < groups.length := by rw [h2.length_eq]; exact hk
      have := List.forall₂_iff_get.1 h2 |>.2 k hk' hk
      refine isTotal_sound ?_ this
      intro j hj
      have hmem : j ∈ fixedInertias cs ++ groups.flatten :=
        List.mem_append_right _ (List.mem_flatten.2 ⟨_, List.get_mem groups ⟨k, hk'⟩, hj⟩)
      have := h3.mem_iff.1 hmem
      rw [List.mem_map] at this
      obtain ⟨l, hl, rfl⟩ := this
      exact h l hl
    obtain ⟨r, e1, e2, _⟩ := composite_inertia_step a Overrides.none cs vs h1 hf hvs
    refine ⟨r, e1, isTotal_perm h3 ?_⟩
    have hfix : ∀ (xs : List (Inertia K)), (∀ i ∈ xs, Sound i) →
        List.Forall₂ (fun p i => Inertia.IsTotal p i) (xs.map (fun v => [v])) xs := by
      intro xs
      induction xs with
      | nil => intro _; exact List.Forall₂.nil
      | cons v xs ih =>
        intro hx
        refine List.Forall₂.cons ⟨by simp, by simp, fun p => by simp, (hx v (by simp)).1⟩ (ih (fun i hi => hx i (by simp [hi])))
    have hfl : ∀ xs : List (Inertia K), (xs.map (fun v => [v])).flatten = xs := by
      intro xs
      induction xs with
      | nil => rfl
      | cons v vs ih => simp only [List.map_cons, List.flatten_cons, ih]; rfl
    have := isTotal_flatten (List.rel_append (hfix _ hf) h2) e2
    rwa [List.flatten_append, hfl] at this
theorem Comp.variable_sum (a : A) : ∀ cs : List (Comp A K), Comp.PlainAll cs →
    (∀ l ∈ Comp.leavesAll cs, Sound (l.inertia a)) →
    ∃ (vs : List (Inertia K)) (groups : List (List (Inertia K))), Comp.variableInertias a cs = .ok vs ∧
      List.Forall₂ (fun p i => Inertia.IsTotal p i) groups vs ∧
      (fixedInertias cs ++ groups.flatten).Perm ((Comp.leavesAll cs).map (fun l => l.inertia a))
  | [], _, _ => ⟨[], [], rfl, List.Forall₂.nil, by simp [fixedInertias, Comp.leavesAll]⟩
  | .fixed i f :: cs, hp, h => by
    obtain ⟨vs, groups, h1, h2, h3⟩ := Comp.variable_sum a cs hp.2 (fun l hl => h l (by simp [Comp.leavesAll, hl]))
    refine ⟨vs, groups, by rw [Comp.variableInertias, h1], h2, ?_⟩
    simp only [fixedInertias, Comp.leavesAll, Comp.leaves, List.cons_append, List.nil_append, List.map_cons]
    exact h3.cons _
  | .part i f :: cs, hp, h => by
    obtain ⟨vs, groups, h1, h2, h3⟩ := Comp.variable_sum a cs hp.2 (fun l hl => h l (by simp [Comp.leavesAll, hl]))
    have hs := (h ⟨f, i⟩ (by simp [Comp.leavesAll, Comp.leaves])).1
    refine ⟨i a :: vs, [i a] :: groups, by rw [Comp.variableInertias, h1],
      List.Forall₂.cons ⟨by simp, by simp, fun p => by simp, hs⟩ h2, ?_⟩
    simp only [fixedInertias, Comp.leavesAll, Comp.leaves, List.cons_append, List.nil_append, List.map_cons,
      List.flatten_cons]
    exact List.perm_middle.trans (h3.cons _)
  | .node o cs' :: cs, hp, h => by
    obtain ⟨vs, groups, h1, h2, h3⟩ := Comp.variable_sum a cs hp.2 (fun l hl => h l (by simp [Comp.leavesAll, hl]))
    obtain ⟨r, e1, e2⟩ := Comp.inertia_sum a (.node o cs') hp.1 (fun l hl => h l (by simp [Comp.leavesAll, hl]))
    refine ⟨r :: vs, _ :: groups, ?_, List.Forall₂.cons e2 h2, ?_⟩
    · rw [Comp.variableInertias, e1, h1]
    · simp only [fixedInertias, Comp.leavesAll, List.map_append, List.flatten_cons]
      refine List.Perm.trans ?_ (h3.append_left _)
      rw [← List.append_assoc, ← List.append_assoc]
      exact List.perm_append_comm.append_right _
end

/-- **C30.** The inertia of a component tree without overrides is the total of its parts: mass, first moment and second moments
about every point. -/
theorem composite_inertia (a : A) (c : Comp A K) (hp : c.Plain) (h : ∀ l ∈ c.leaves, Sound (l.inertia a)) :
    ∃ r, c.inertia a = .ok r ∧ r.mass = (c.leaves.map (fun l => (l.inertia a).mass)).sum ∧
      Inertia.IsTotal (c.leaves.map (fun l => l.inertia a)) r := by
  obtain ⟨r, h1, h2⟩ := Comp.inertia_sum a c hp h
  refine ⟨r, h1, ?_, h2⟩
  rw [h2.1, List.map_map]; rfl

/-- **C30.** Two trees with the same parts - in any order, grouped in any way - have the same inertia. -/
theorem composite_inertia_order (a : A) (c c' : Comp A K) (hp : c.Plain) (hp' : c'.Plain)
    (h : ∀ l ∈ c.leaves, Sound (l.inertia a)) (hperm : c.leaves.Perm c'.leaves)
    (hpos : 0 < (c.leaves.map (fun l => (l.inertia a).mass)).sum) :
    ∃ r, c.inertia a = .ok r ∧ c'.inertia a = .ok r := by
  obtain ⟨r, h1, hm, h2⟩ := composite_inertia a c hp h
  obtain ⟨r', h1', _, h2'⟩ := composite_inertia a c' hp' (fun l hl => h l (hperm.mem_iff.2 hl))
  have := isTotal_perm (hperm.symm.map (fun l => l.inertia a)) h2'
  have e := Inertia.isTotal_unique _ r r' h2 this (by rw [hm]; exact hpos.ne')
  subst e
  exact ⟨r, h1, h1'⟩

/-- **C30.** The mass used in 3-DoF mode is the mass of the inertia used in 6-DoF mode, with or without overrides. -/
theorem mass_agrees (a : A) (o : Overrides K) (cs : List (Comp A K)) (vs : List (Inertia K))
    (hv : Comp.variableInertias a cs = .ok vs) (hf : ∀ i ∈ fixedInertias cs, Sound i) (hvs : ∀ i ∈ vs, Sound i) :
    ∃ i, (Comp.node o cs).inertia a = .ok i ∧ (Comp.node o cs).getMass a = .ok i.mass := by
  obtain ⟨r, h1, h2, h3⟩ := composite_inertia_step a o cs vs hv hf hvs
  refine ⟨_, h3, ?_⟩
  obtain ⟨fi, g1, g2⟩ := fixedMass_total cs hf
  rcases ho : o.mass with _ | m
  · simp only [Comp.getMass, ho, g1, hv, Option.getD_none, Except.ok.injEq]
    rw [h2.1]
    have : ∀ (l : List (Inertia K)) (m : K), l.foldl (fun m i => m + i.mass) m = m + (l.map (·.mass)).sum := by
      intro l
      induction l with
      | nil => intro m; simp
      | cons x l ih => intro m; rw [List.foldl_cons, ih]; simp [add_assoc]
    rw [this, g2.1]; simp
  · simp only [Comp.getMass, ho, Option.getD_some]

/-- **C30.** The force on the rocket before the chute opens: all parts plus gravity; under the chute only the recovery system
plus gravity. It is expressed at the CG. -/
theorem rocket_force_spec (o : Overrides K) (cs : List (Comp A K)) (recovery : Comp A K) (gravity : Inertia K → FMS K) (a : A)
    (i : Inertia K) (hi : (Comp.node o cs).inertia a = .ok i) :
    (∃ F, rocketForce false (.node o cs) recovery gravity a = .ok F ∧ F.loc = i.cg ∧
      F.force = ((Comp.node o cs).leaves.map (fun l => (l.force a i.cg).force)).sum + (gravity i).force ∧
      ∀ q, F.momentAbout q = ((Comp.node o cs).leaves.map (fun l => (l.force a i.cg).momentAbout q)).sum +
        (gravity i).momentAbout q) ∧
    (∃ F, rocketForce true (.node o cs) recovery gravity a = .ok F ∧ F.loc = i.cg ∧
      F.force = (recovery.force a ⟨0, 0, -1⟩).force + (gravity i).force ∧
      ∀ q, F.momentAbout q = (recovery.force a ⟨0, 0, -1⟩).momentAbout q + (gravity i).momentAbout q) := by
  constructor
  · refine ⟨_, by simp only [rocketForce, hi]; rfl, rfl, ?_, ?_⟩
    · rw [(FMS.add_spec _ _ 0).1]
      simp only [Bool.false_eq_true, if_false]
      rw [(FMS.getAt_preserves _ _ 0).1, (Comp.force_sum a i.cg 0 _).1]
    · intro q
      rw [(FMS.add_spec _ _ q).2]
      simp only [Bool.false_eq_true, if_false]
      rw [(FMS.getAt_preserves _ _ q).2.2, (Comp.force_sum a i.cg q _).2]
  · refine ⟨_, by simp only [rocketForce, hi]; rfl, rfl, ?_, ?_⟩
    · rw [(FMS.add_spec _ _ 0).1]; rfl
    · intro q
      rw [(FMS.add_spec _ _ q).2]
      simp only [if_true]
      rw [(FMS.getAt_preserves _ _ q).2.2]

end

/-! ## A concrete tree: a rocket of two stages, one with a motor -/

/-- fixed nose (2 kg at z = -1), a stage with a 3 kg tube and a motor burning 1 kg/s from 4 kg -/
def sampleRocket : Comp ℚ ℚ :=
  .node Overrides.none
    [.node Overrides.none [.fixed (Inertia.make ⟨1, 1, 1⟩ ⟨0, 0, -1⟩ 2) (fun _ _ => ⟨0, 0, 0⟩)],
     .node Overrides.none
      [.fixed (Inertia.make ⟨1, 1, 1⟩ ⟨0, 0, -3⟩ 3) (fun _ _ => ⟨⟨0, 0, -5⟩, ⟨0, 0, 0⟩, 0⟩),
       .part (fun t => Inertia.make ⟨1, 1, 0⟩ ⟨0, 0, -4⟩ (max 0 (4 - t))) (fun _ _ => ⟨⟨0, 0, 100⟩, 0, 0⟩)]]

example : sampleRocket.Plain ∧ ∀ l ∈ sampleRocket.leaves, Sound (l.inertia 1) := by
  refine ⟨⟨rfl, ⟨rfl, trivial, trivial⟩, ⟨rfl, trivial, trivial, trivial⟩, trivial⟩, ?_⟩
  intro l hl
  simp only [sampleRocket, Comp.leaves, Comp.leavesAll, List.append_nil, List.cons_append, List.nil_append, List.mem_cons,
    List.not_mem_nil, or_false] at hl
  rcases hl with rfl | rfl | rfl <;> exact ⟨rfl, by simp [Inertia.make]⟩

example : (sampleRocket.inertia 1).toOption.map (fun i => (i.mass, i.cg)) = some (8, ⟨0, 0, -23 / 8⟩) := by decide +kernel
example : (sampleRocket.force 1 ⟨0, 0, 0⟩).force = ⟨0, 0, 95⟩ := by decide +kernel

end Mapleaf.Rocket
