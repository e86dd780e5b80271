import Verif.Rocket.BuildCraftProps
import Verif.Rocket.CompositeProps
import Verif.Rocket.GeomProps

/-!
# C98, third part: what a definition means for the flight
-/

namespace Mapleaf.Rocket
open Mapleaf.Motion V3 ENV

/-! ## Mass, centre of gravity and moments of inertia at lift-off -/

/-- the inertia at lift-off of the component of dictionary `k` on the stage of dictionary `s` -/
def LeafSays (src : Source) (s k : Str) (i : Inertia ℝ) : Prop :=
  ∃ stage, HasVector (src.dict s) "position" stage ∧
    (((SaysClass (src.dict k) "Mass" ∨ SaysClass (src.dict k) "Nosecone" ∨ SaysClass (src.dict k) "Bodytube" ∨
        SaysClass (src.dict k) "Transition" ∨ SaysClass (src.dict k) "BoatTail" ∨ SaysClass (src.dict k) "FinSet" ∨
        SaysClass (src.dict k) "RecoverySystem") ∧ ∃ pos, SaysMass (src.dict k) stage pos i) ∨
      (∃ m off, SaysMotor src (src.dict k) stage m off ∧ m.inertia 0 = .ok i) ∨
      (SaysClass (src.dict k) "TabulatedInertia" ∧ ∃ file rows, (src.dict k).text "filePath".toList = .ok file ∧
        src.inertiaFile file = .ok rows ∧
        tableInertia (rows.map (fun row => row.getD 0 0), rows.map (fun row (j : Fin 7) => row.getD (1 + j) 0)) 0 = .ok i) ∨
      ((SaysClass (src.dict k) "Force" ∨ SaysClass (src.dict k) "AeroForce" ∨ SaysClass (src.dict k) "AeroDamping" ∨
        SaysClass (src.dict k) "FractionalJetDamping") ∧ i.mass = 0 ∧ i.moi = 0 ∧ i.cg = 0 ∧ i.about = 0))

/-- the inertia of a part at a time -/
def Part.Leaf (t : ℝ) (p : Part) (i : Inertia ℝ) : Prop := p.fixed = some i ∨ (p.fixed = none ∧ p.variable t = .ok (some i))

theorem motor_leaf (m : Motor ℝ) (h0 : m.ignition = 0) : Motor.inertia { m with ignition := 1000000000 } 0 = m.inertia 0 := by
  unfold Motor.inertia Motor.oxInertia Motor.fuelInertia
  dsimp only
  rw [h0, sub_zero, max_self, max_eq_left (by norm_num)]

theorem leaf_says {src : Source} {rough : ℝ} {s k : Str} {stage : V3 ℝ} {comps : List Str} (hs : HasVector (src.dict s) "position" stage)
    {p : Part} (h : PartSays src rough stage comps k p) {i : Inertia ℝ} (hi : p.Leaf 0 i) : LeafSays src s k i := by
  refine ⟨stage, hs, ?_⟩
  have hz : zeroInertia = i → i.mass = 0 ∧ i.moi = 0 ∧ i.cg = 0 ∧ i.about = 0 := by rintro rfl; exact ⟨rfl, rfl, rfl, rfl⟩
  cases p with
  | mass j =>
    obtain rfl : j = i := by simpa [Part.Leaf, Part.fixed] using hi
    exact Or.inl ⟨Or.inl h.1, h.2⟩
  | nose j n r =>
    obtain rfl : j = i := by simpa [Part.Leaf, Part.fixed] using hi
    exact Or.inl ⟨Or.inr (Or.inl h.1), h.2.1⟩
  | tube j pos len d r =>
    obtain rfl : j = i := by simpa [Part.Leaf, Part.fixed] using hi
    exact Or.inl ⟨Or.inr (Or.inr (Or.inl h.1)), _, h.2.1⟩
  | trans j t r =>
    obtain rfl : j = i := by simpa [Part.Leaf, Part.fixed] using hi
    exact Or.inl ⟨Or.inr (Or.inr (Or.inr (Or.inl h.1))), _, h.2.1⟩
  | boatTail j t r off =>
    obtain rfl : j = i := by simpa [Part.Leaf, Part.fixed] using hi
    exact Or.inl ⟨Or.inr (Or.inr (Or.inr (Or.inr (Or.inl h.1)))), _, h.2.1⟩
  | fins j q =>
    obtain rfl : j = i := by simpa [Part.Leaf, Part.fixed] using hi
    exact Or.inl ⟨Or.inr (Or.inr (Or.inr (Or.inr (Or.inr (Or.inl h.1))))), _, h.2.1⟩
  | recovery j =>
    obtain rfl : j = i := by simpa [Part.Leaf, Part.fixed] using hi
    exact Or.inl ⟨Or.inr (Or.inr (Or.inr (Or.inr (Or.inr (Or.inr h.1))))), h.2⟩
  | motor m =>
    rcases hi with hi | ⟨-, hi⟩
    · cases hi
    change (m.inertia 0).map some = .ok (some i) at hi
    obtain ⟨j, h1, h2⟩ := map_ok hi
    obtain rfl := Option.some.inj h2
    obtain ⟨m0, off, h3, h4⟩ := h
    refine Or.inr (Or.inl ⟨m0, off, h3, ?_⟩)
    rcases h4 with rfl | rfl
    · exact h1
    · obtain ⟨-, _, _, _, _, _, _, _, _, _, hb⟩ := h3
      rwa [motor_leaf m0 (build_ok hb).2.2.2.2.2.2.2.2.2.2.2.1] at h1
  | table t =>
    rcases hi with hi | ⟨-, hi⟩
    · cases hi
    change (tableInertia t 0).map some = .ok (some i) at hi
    obtain ⟨j, h1, h2⟩ := map_ok hi
    obtain rfl := Option.some.inj h2
    obtain ⟨h3, file, rows, h4, h5, rfl⟩ := h
    exact Or.inr (Or.inr (Or.inl ⟨h3, file, rows, h4, h5, h1⟩))
  | force f =>
    have : zeroInertia = i := by simpa [Part.Leaf, Part.fixed, Part.variable] using hi
    exact Or.inr (Or.inr (Or.inr ⟨Or.inl h.1, hz this⟩))
  | aero =>
    have : zeroInertia = i := by simpa [Part.Leaf, Part.fixed, Part.variable] using hi
    exact Or.inr (Or.inr (Or.inr ⟨Or.inr (Or.inl h.1), hz this⟩))
  | damping =>
    have : zeroInertia = i := by simpa [Part.Leaf, Part.fixed, Part.variable] using hi
    exact Or.inr (Or.inr (Or.inr ⟨Or.inr (Or.inr (Or.inl h.1)), hz this⟩))
  | jet =>
    have : zeroInertia = i := by simpa [Part.Leaf, Part.fixed, Part.variable] using hi
    exact Or.inr (Or.inr (Or.inr ⟨Or.inr (Or.inr (Or.inr h.1)), hz this⟩))

theorem combine_about {a : Inertia ℝ} {l : List (Inertia ℝ)} {r : Inertia ℝ} (h : a.combine l = .ok r) : r.about = r.cg := by
  unfold Inertia.combine at h
  dsimp only at h
  split at h
  · rw [← Except.ok.inj h]; rfl
  · cases h

theorem leaf_about {src : Source} {s k : Str} {i : Inertia ℝ} (h : LeafSays src s k i) : i.about = i.cg := by
  obtain ⟨stage, -, h | ⟨m, off, -, h⟩ | ⟨-, file, rows, -, -, h⟩ | ⟨-, -, -, h1, h2⟩⟩ := h
  · obtain ⟨-, pos, m, p, g, -, -, -, -, -, h1, h2, -⟩ := h
    rw [h1, h2]
  · unfold Motor.inertia at h
    dsimp only at h
    split at h
    · cases h
    split at h
    · cases h
    exact combine_about h
  · unfold tableInertia at h
    split at h
    · cases h
    · rw [← Except.ok.inj h]; rfl
  · rw [h1, h2]

theorem leaves_exist (t : ℝ) (parts : List Part) (vs : List (Option (Inertia ℝ))) (h : Body.mapE (Part.variable t) parts = .ok vs) :
    ∃ l, List.Forall₂ (Part.Leaf t) parts l ∧ (parts.filterMap Part.fixed ++ vs.filterMap id).Perm l := by
  replace h := (mapE_forall2 _ _ _).1 h
  induction h with
  | nil => exact ⟨[], .nil, .refl _⟩
  | @cons p v ps vs h1 _ ih =>
    obtain ⟨l, h2, h3⟩ := ih
    cases hf : p.fixed with
    | some i =>
      have hv : v = none := by
        cases p <;> simp only [Part.fixed, reduceCtorEq] at hf <;> simpa [Part.variable, eq_comm] using h1
      subst hv
      refine ⟨i :: l, .cons (Or.inl hf) h2, ?_⟩
      rw [List.filterMap_cons, hf, List.filterMap_cons]
      exact h3.cons i
    | none =>
      have hv : ∃ i, v = some i := by
        cases p with
        | motor m =>
          change (m.inertia t).map some = .ok v at h1
          obtain ⟨j, -, h⟩ := map_ok h1
          exact ⟨j, h.symm⟩
        | table tb =>
          change (tableInertia tb t).map some = .ok v at h1
          obtain ⟨j, -, h⟩ := map_ok h1
          exact ⟨j, h.symm⟩
        | force | aero | damping | jet =>
          refine ⟨zeroInertia, ?_⟩
          simpa [Part.variable, eq_comm] using h1
        | _ => simp [Part.fixed] at hf
      obtain ⟨i, rfl⟩ := hv
      refine ⟨i :: l, .cons (Or.inr ⟨hf, h1⟩) h2, ?_⟩
      rw [List.filterMap_cons, hf, List.filterMap_cons]
      exact List.perm_middle.trans (h3.cons i)

theorem isTotal_zero : Inertia.IsTotal [] (Inertia.make ⟨0, 0, 0⟩ ⟨0, 0, 0⟩ (0 : ℝ)) := by
  refine ⟨rfl, ?_, fun p => ?_, rfl⟩
  · simp [Inertia.make]
  · have : Inertia.secondMoment p (Inertia.make ⟨0, 0, 0⟩ ⟨0, 0, 0⟩ (0 : ℝ)) = 0 := by
      apply V3.ext' <;> simp [Inertia.secondMoment, Inertia.make]
    simpa using this

theorem isTotal_singleton {i : Inertia ℝ} (h : i.about = i.cg) : Inertia.IsTotal [i] i := ⟨by simp, by simp, fun p => by simp, h⟩

theorem combine_total (f : Inertia ℝ) (l : List (Inertia ℝ)) (r : Inertia ℝ) (ha : ∀ i ∈ f :: l, i.about = i.cg)
    (hm : ∀ i ∈ f :: l, 0 ≤ i.mass) (h : f.combine (f :: l) = .ok r) : Inertia.IsTotal (f :: l) r := by
  obtain ⟨r', h1, h2⟩ := (Inertia.combine_partial f (f :: l) (by simpa using ha) (by simpa using hm)).2 (by simp)
  rw [h] at h1
  obtain rfl := Except.ok.inj h1
  exact h2

theorem isTotal_mass_nonneg {l : List (Inertia ℝ)} {r : Inertia ℝ} (h : Inertia.IsTotal l r) (hl : ∀ i ∈ l, 0 ≤ i.mass) : 0 ≤ r.mass := by
  rw [h.1]
  apply List.sum_nonneg
  intro x hx
  obtain ⟨i, hi, rfl⟩ := List.mem_map.1 hx
  exact hl i hi

theorem stage_total (s : StageP) (t : ℝ) (ho : s.over = ⟨none, none, none⟩) (i : Inertia ℝ) (h : s.inertia t = .ok i)
    (hl : ∀ p ∈ s.parts, ∀ j, p.Leaf t j → j.about = j.cg ∧ 0 ≤ j.mass) :
    ∃ l, List.Forall₂ (Part.Leaf t) s.parts l ∧ Inertia.IsTotal l i := by
  unfold StageP.inertia at h
  obtain ⟨f, h1, h⟩ := bind_ok h
  obtain ⟨vs, h2, h⟩ := bind_ok h
  obtain ⟨tot, h3, h⟩ := bind_ok h
  rw [ho] at h
  obtain rfl : tot = i := Except.ok.inj h
  obtain ⟨l, h4, h5⟩ := leaves_exist t _ _ h2
  have hg : ∀ j ∈ l, j.about = j.cg ∧ 0 ≤ j.mass := by
    intro j hj
    obtain ⟨n, hn, rfl⟩ := List.mem_iff_getElem.1 hj
    have hlen := h4.length_eq
    have := (List.forall₂_iff_get.1 h4).2 n (by omega) hn
    exact hl _ (List.getElem_mem _) _ this
  refine ⟨l, h4, isTotal_perm h5 ?_⟩
  have hf : ∀ j ∈ s.parts.filterMap Part.fixed, j.about = j.cg ∧ 0 ≤ j.mass := fun j hj =>
    hg j (h5.mem_iff.1 (List.mem_append_left _ hj))
  have hv : ∀ j ∈ vs.filterMap id, j.about = j.cg ∧ 0 ≤ j.mass := fun j hj => hg j (h5.mem_iff.1 (List.mem_append_right _ hj))
  have htf : Inertia.IsTotal (s.parts.filterMap Part.fixed) f := by
    cases hp : s.parts.filterMap Part.fixed with
    | nil =>
      rw [hp] at h1
      obtain rfl := Except.ok.inj h1
      exact isTotal_zero
    | cons a rest =>
      rw [hp] at h1 hf
      exact combine_total a rest f (fun j hj => (hf j hj).1) (fun j hj => (hf j hj).2) h1
  have hfm : f.about = f.cg ∧ 0 ≤ f.mass := ⟨htf.2.2.2, isTotal_mass_nonneg htf fun j hj => (hf j hj).2⟩
  have htot := combine_total f (vs.filterMap id) tot
    (fun j hj => by rcases List.mem_cons.1 hj with rfl | hj; exacts [hfm.1, (hv j hj).1])
    (fun j hj => by rcases List.mem_cons.1 hj with rfl | hj; exacts [hfm.2, (hv j hj).2]) h3
  generalize vs.filterMap id = w at *
  have hw : List.Forall₂ (fun p i => Inertia.IsTotal p i) (w.map fun v => [v]) w := by
    rw [List.forall₂_map_left_iff, List.forall₂_same]
    exact fun j hj => isTotal_singleton (hv j hj).1
  have := isTotal_flatten (List.Forall₂.cons htf hw) htot
  rw [List.flatten_cons] at this
  have e : (w.map fun v => [v]).flatten = w := by
    clear this hw htot hv h5 h3 h
    induction w with
    | nil => rfl
    | cons a w ih => simp [ih]
  rwa [e] at this

theorem saysOverrides_none {r : Reader ℝ} {stage : V3 ℝ} {o : Overrides ℝ} (h : SaysOverrides r stage o)
    (h1 : r.text "constCG".toList = .error .keyError) (h2 : r.text "constMOI".toList = .error .keyError)
    (h3 : r.text "constMass".toList = .error .keyError) : o = ⟨none, none, none⟩ := by
  obtain ⟨cg, moi, mass⟩ := o
  obtain ⟨c, e1, e2, e3, e4⟩ := h
  dsimp only at e2 e3 e4
  have n1 : c = none := by
    cases c with
    | none => rfl
    | some v => obtain ⟨s, e, -⟩ := e1; rw [h1] at e; cases e
  have n2 : moi = none := by
    cases moi with
    | none => rfl
    | some v => obtain ⟨s, e, -⟩ := e2; rw [h2] at e; cases e
  have n3 : mass = none := by
    cases mass with
    | none => rfl
    | some v => obtain ⟨s, e, -⟩ := e3; rw [h3] at e; cases e
  subst n1 n2 n3
  rw [e4]
  rfl

/-- one stage of a definition: the total of its components -/
theorem stage_liftoff {src : Source} {rough : ℝ} {path : Str} {tail : V3 ℝ → List Part → Prop} {n : Nat} {s : StageP}
    (h : StageSays src rough path tail n s)
    (htail : ∀ pos t, tail pos t → ∀ p ∈ t, p.fixed = some zeroInertia)
    (h1 : (src.dict path).text "constCG".toList = .error .keyError) (h2 : (src.dict path).text "constMOI".toList = .error .keyError)
    (h3 : (src.dict path).text "constMass".toList = .error .keyError)
    (hm : ∀ k ∈ src.subs path, ∀ i, LeafSays src path k i → 0 ≤ i.mass) (i : Inertia ℝ) (hi : s.inertia 0 = .ok i) :
    ∃ order l, order.Perm (src.subs path) ∧ List.Forall₂ (LeafSays src path) order l ∧ Inertia.IsTotal l i := by
  obtain ⟨pos, e1, -, e2, ⟨order, ps, t, e3, e4, e5, e6⟩, -⟩ := h
  have hzero : ∀ p ∈ t, ∀ j, p.Leaf 0 j → j = zeroInertia := by
    intro p hp j hj
    have := htail pos t e5 p hp
    rcases hj with hj | ⟨hj, -⟩
    · rw [this] at hj; exact (Option.some.inj hj).symm
    · rw [this] at hj; cases hj
  have hps : ∀ p ∈ ps, ∃ k ∈ src.subs path, PartSays src rough pos (src.subs path) k p := by
    intro p hp
    obtain ⟨n, hn, rfl⟩ := List.mem_iff_getElem.1 hp
    have hlen := e4.length_eq
    exact ⟨order[n]'(by omega), e3.mem_iff.1 (List.getElem_mem _), (List.forall₂_iff_get.1 e4).2 n (by omega) hn⟩
  obtain ⟨l, e7, e8⟩ := stage_total s 0 (saysOverrides_none e2 h1 h2 h3) i hi (by
    rw [e6]
    intro p hp j hj
    rcases List.mem_append.1 hp with hp | hp
    · obtain ⟨k, hk, hs⟩ := hps p hp
      have := leaf_says e1 hs hj
      exact ⟨leaf_about this, hm k hk j this⟩
    · rw [hzero p hp j hj]
      exact ⟨rfl, le_refl _⟩)
  rw [e6] at e7
  obtain ⟨l1, l2, rfl, e9, e10⟩ := forall2_append_left e7
  refine ⟨order, l1, e3, forall2_trans (R := PartSays src rough pos (src.subs path)) (S := Part.Leaf 0) (T := LeafSays src path) (fun k p j hk hj => leaf_says e1 hk hj) e4 e9, ?_⟩
  have hz : ∀ j ∈ l2, j = zeroInertia := by
    intro j hj
    obtain ⟨n, hn, rfl⟩ := List.mem_iff_getElem.1 hj
    have hlen := e10.length_eq
    exact hzero _ (List.getElem_mem _) _ ((List.forall₂_iff_get.1 e10).2 n (by omega) hn)
  have e11 : l2 = List.replicate l2.length zeroInertia := List.eq_replicate_iff.2 ⟨rfl, hz⟩
  rw [e11] at e8
  obtain ⟨f1, f2, f3, f4⟩ := e8
  have hs0 : ∀ p, Inertia.secondMoment p (zeroInertia : Inertia ℝ) = 0 := by
    intro p; apply V3.ext' <;> simp [Inertia.secondMoment, zeroInertia, Inertia.make]
  have hm0 : (zeroInertia : Inertia ℝ).mass = 0 := rfl
  refine ⟨?_, ?_, fun p => ?_, f4⟩
  · simpa [hm0] using f1
  · simpa [hm0] using f2
  · simpa [hs0] using f3 p

/-- **C98.** At lift-off mass, centre of gravity and moments of inertia of the rocket are those of the bodies in the definition taken
together (as long as no stage overrides them): one for every component of every stage, each with the mass, at the place and with the moments
of inertia given. -/
theorem liftoff_inertia {src : Source} {c : Craft} (h : readCraft src = .ok c)
    (ho : ∀ s ∈ stageDicts (src.subs "Rocket".toList), (src.dict s).text "constCG".toList = .error .keyError ∧
      (src.dict s).text "constMOI".toList = .error .keyError ∧ (src.dict s).text "constMass".toList = .error .keyError)
    (hm : ∀ s ∈ stageDicts (src.subs "Rocket".toList), ∀ k ∈ src.subs s, ∀ i, LeafSays src s k i → 0 ≤ i.mass)
    (i : Inertia ℝ) (hi : c.inertia 0 = .ok i) :
    ∃ bodies, bodies.Perm ((stageDicts (src.subs "Rocket".toList)).flatMap fun s => (src.subs s).map fun k => (s, k)) ∧
      ∃ l, List.Forall₂ (fun b => LeafSays src b.1 b.2) bodies l ∧ i.mass = (l.map (·.mass)).sum ∧
        i.mass • i.cg = (l.map fun j => j.mass • j.cg).sum ∧
        ∀ p, Inertia.secondMoment p i = (l.map (Inertia.secondMoment p)).sum := by
  obtain ⟨d, rough, -, -, -, -, upper, low, ss, s, hperm, hst, hup, hlow, -⟩ := craft_says h
  have hall : List.Forall₂ (fun p s => ∃ tail n, StageSays src rough p tail n s ∧ ∀ pos t, tail pos t → ∀ q ∈ t, q.fixed = some zeroInertia)
      (upper ++ [low]) c.stages := by
    rw [hst]
    have hl : ∀ pos t, TailSays src d rough low pos t → ∀ q ∈ t, q.fixed = some zeroInertia := by
      rintro pos t ht q hq
      rcases ht with ⟨rfl, -⟩ | ⟨-, -, z, off, rfl, -⟩
      · cases hq
      · rw [List.mem_singleton] at hq
        rw [hq]
        rfl
    refine List.rel_append (hup.imp fun p s hs => ⟨_, _, hs, ?_⟩) (.cons ⟨_, _, hlow, hl⟩ .nil)
    · rintro pos t rfl q hq
      cases hq
  unfold Craft.inertia at hi
  obtain ⟨f, h1, hi⟩ := bind_ok hi
  obtain ⟨vs, h2, hi⟩ := bind_ok hi
  obtain rfl := Except.ok.inj h1
  have h2' := (mapE_forall2 _ _ _).1 h2
  have key : ∀ (paths : List Str) (stages : List StageP) (vs : List (Inertia ℝ)),
      (∀ p ∈ paths, p ∈ stageDicts (src.subs "Rocket".toList)) →
      List.Forall₂ (fun p s => ∃ tail n, StageSays src rough p tail n s ∧ ∀ pos t, tail pos t → ∀ q ∈ t, q.fixed = some zeroInertia) paths stages →
      List.Forall₂ (fun (s : StageP) v => s.inertia 0 = .ok v) stages vs →
      ∃ bodies groups, bodies.Perm (paths.flatMap fun s => (src.subs s).map fun k => (s, k)) ∧
        List.Forall₂ (fun b => LeafSays src b.1 b.2) bodies groups.flatten ∧ List.Forall₂ (fun g v => Inertia.IsTotal g v ∧ ∀ j ∈ g, 0 ≤ j.mass) groups vs := by
    intro paths stages vs hp ha hb
    induction ha generalizing vs with
    | nil =>
      cases hb
      exact ⟨[], [], .refl _, .nil, .nil⟩
    | @cons p st paths stages hs _ ih =>
      cases hb with
      | @cons _ v _ vs hv hb =>
        obtain ⟨bodies, groups, g1, g2, g3⟩ := ih vs (fun q hq => hp q (List.mem_cons_of_mem _ hq)) hb
        have hpm := hp p (by simp)
        obtain ⟨tail, n, hs, ht⟩ := hs
        obtain ⟨order, l, g4, g5, g6⟩ := stage_liftoff hs ht (ho p hpm).1 (ho p hpm).2.1 (ho p hpm).2.2 (hm p hpm) v hv
        refine ⟨order.map (fun k => (p, k)) ++ bodies, l :: groups, ?_, ?_, .cons ⟨g6, ?_⟩ g3⟩
        · rw [List.flatMap_cons]
          exact (g4.map _).append g1
        · rw [List.flatten_cons]
          refine List.rel_append ?_ g2
          rw [List.forall₂_map_left_iff]
          exact g5
        · intro j hj
          obtain ⟨n, hn, rfl⟩ := List.mem_iff_getElem.1 hj
          have hlen := g5.length_eq
          exact hm p hpm _ (g4.mem_iff.1 (List.getElem_mem (show n < order.length by omega))) _ ((List.forall₂_iff_get.1 g5).2 n (by omega) hn)
  obtain ⟨bodies, groups, g1, g2, g3⟩ := key _ _ vs (fun p hp => hperm.mem_iff.1 hp) hall h2'
  have hvs : ∀ v ∈ vs, v.about = v.cg ∧ 0 ≤ v.mass := by
    intro v hv
    obtain ⟨n, hn, rfl⟩ := List.mem_iff_getElem.1 hv
    have hlen := g3.length_eq
    obtain ⟨e1, e2⟩ := (List.forall₂_iff_get.1 g3).2 n (by omega) hn
    exact ⟨e1.2.2.2, isTotal_mass_nonneg e1 e2⟩
  have htot := combine_total _ vs i
    (fun j hj => by rcases List.mem_cons.1 hj with rfl | hj; exacts [rfl, (hvs j hj).1])
    (fun j hj => by rcases List.mem_cons.1 hj with rfl | hj; exacts [le_refl _, (hvs j hj).2]) hi
  have := isTotal_flatten (List.Forall₂.cons isTotal_zero (g3.imp fun g v hg => hg.1)) htot
  rw [List.flatten_cons, List.nil_append] at this
  exact ⟨bodies, g1.trans (List.Perm.flatMap_right _ hperm), _, g2, this.1, this.2.1, this.2.2.1⟩

/-! ## Definitions that are symmetric about the axis -/

theorem hasFloat_unique {r : Reader ℝ} {key : String} {v w : ℝ} (h : HasFloat r key v) (h' : HasFloat r key w) : v = w := by
  obtain ⟨s, h1, h2⟩ := h
  obtain ⟨s', h1', h2'⟩ := h'
  rw [h1] at h1'
  obtain rfl := Except.ok.inj h1'
  rw [h2] at h2'
  exact Option.some.inj h2'

/-- a component described as symmetric about the axis of the rocket -/
structure EvenComponent (src : Source) (r : Reader ℝ) : Prop where
  place : ∀ v, HasVector r "position" v → v.x = 0 ∧ v.y = 0
  cg : ∀ v, HasVector r "cg" v → v.x = 0 ∧ v.y = 0
  nose : SaysClass r "Nosecone" → (∀ d, HasFloat r "baseDiameter" d → 0 < d) ∧ ∀ a, HasFloat r "aspectRatio" a → 1 / 2 ≤ a
  tube : SaysClass r "Bodytube" → ∀ d, HasFloat r "outerDiameter" d → 0 ≤ d
  cone : SaysClass r "Transition" ∨ SaysClass r "BoatTail" →
    (∀ d, HasFloat r "startDiameter" d → 0 ≤ d) ∧ ∀ d, HasFloat r "endDiameter" d → 0 ≤ d
  fins : SaysClass r "FinSet" → (∀ n, HasInt src r "numFins" n → 2 ≤ n) ∧ (∀ x, HasFloat r "span" x → 0 < x) ∧
    (∀ x, HasFloat r "rootChord" x → 0 < x) ∧ ∀ x, HasFloat r "tipChord" x → 0 ≤ x
  force : SaysClass r "Force" → (∀ v, HasVector r "force" v → v.x = 0 ∧ v.y = 0) ∧ ∀ v, HasVector r "moment" v → v.x = 0 ∧ v.y = 0
  aero : SaysClass r "AeroForce" → (∀ x, HasFloat r "Cl" x → x = 0) ∧ ∀ v, HasVector r "momentCoeffs" v → v.x = 0 ∧ v.y = 0
  damping : SaysClass r "AeroDamping" → (∀ v, HasVector r "xDampingCoeffs" v → v.z = 0) ∧ ∀ v, HasVector r "yDampingCoeffs" v → v.z = 0
  table : SaysClass r "TabulatedInertia" → ∀ file rows, r.text "filePath".toList = .ok file → src.inertiaFile file = .ok rows →
    ∀ row ∈ rows, row.getD 2 0 = 0 ∧ row.getD 3 0 = 0

/-- a rocket described as symmetric about its axis -/
def EvenDefinition (src : Source) : Prop :=
  ∀ s ∈ stageDicts (src.subs "Rocket".toList), (∀ v, HasVector (src.dict s) "position" v → v.x = 0 ∧ v.y = 0) ∧
    (∀ v, HasVector (src.dict s) "constCG" v → v.x = 0 ∧ v.y = 0) ∧ ∀ k ∈ src.subs s, EvenComponent src (src.dict k)

/-- a rocket described without canted fins and without moments about its axis -/
def PlainDefinition (src : Source) : Prop :=
  ∀ s ∈ stageDicts (src.subs "Rocket".toList), ∀ k ∈ src.subs s,
    (SaysClass (src.dict k) "FinSet" → ∀ x, HasFloat (src.dict k) "finCantAngle" x → x = 0) ∧
    (SaysClass (src.dict k) "Force" → ∀ v, HasVector (src.dict k) "moment" v → v.z = 0) ∧
    (SaysClass (src.dict k) "AeroForce" → ∀ v, HasVector (src.dict k) "momentCoeffs" v → v.z = 0)

theorem saysRadius_nonneg {src : Source} {r : Reader ℝ} (he : EvenComponent src r) {stage : V3 ℝ} {z R : ℝ} (h : SaysRadius r stage z R) :
    0 ≤ R := by
  obtain ⟨p, -, hz, ⟨hc, n, ⟨h1, h2, -⟩, hb, hr⟩ | ⟨hc, len, d, -, h2, -, rfl⟩ | ⟨hc, t, ⟨h1, h2, -⟩, h0, hb, rfl⟩⟩ := h
  · obtain ⟨e1, e2⟩ := he.nose hc
    have hd := e1 _ h2
    have ha := e2 _ h1
    have hlen : n.length = n.baseDiameter * n.aspectRatio := by unfold Nose.length; ring
    have hL : n.baseDiameter / 2 ≤ n.length := by rw [hlen]; nlinarith
    have hL0 : 0 < n.length := by linarith
    have x0 : 0 ≤ stage.z + p.z - z := by linarith
    have x1 : stage.z + p.z - z ≤ n.length := by linarith
    cases hs : n.shape with
    | cone =>
      rw [(Nose.cone_areas n hs hd hL0).1] at hr
      obtain rfl := Option.some.inj (Except.ok.inj hr)
      exact mul_nonneg (by linarith) (div_nonneg x0 hL0.le)
    | tangentOgive =>
      obtain ⟨f1, f2, -, f3, -⟩ := Nose.ogive_shape n hs hd hL
      rw [f1 _ x0 x1] at hr
      obtain rfl := Option.some.inj (Except.ok.inj hr)
      rcases x0.eq_or_lt with e | e
      · rw [← e, f2]
      · have := f3 0 _ le_rfl e x1
        rw [f2] at this
        exact this.le
    | halfSeries =>
      unfold Nose.getRadius at hr
      rw [hs] at hr
      cases Except.ok.inj hr
    | other =>
      unfold Nose.getRadius at hr
      rw [hs] at hr
      cases Except.ok.inj hr
  · have := he.tube hc _ h2
    linarith
  · obtain ⟨e1, e2⟩ := he.cone hc
    have a := e1 _ h1
    have b := e2 _ h2
    have x0 : 0 ≤ stage.z + p.z - z := by linarith
    have x1 : stage.z + p.z - z ≤ t.length := by linarith
    have hL : 0 < t.length := lt_of_le_of_ne (by linarith) (Ne.symm h0)
    have u0 : 0 ≤ (stage.z + p.z - z) / t.length := div_nonneg x0 hL.le
    have u1 : (stage.z + p.z - z) / t.length ≤ 1 := (div_le_one hL).2 x1
    generalize (stage.z + p.z - z) / t.length = u at u0 u1
    have h3 := mul_nonneg u0 b
    have h4 := mul_nonneg (sub_nonneg.2 u1) a
    linarith

theorem saysMass_axis {src : Source} {r : Reader ℝ} (he : EvenComponent src r) {stage pos : V3 ℝ} {i : Inertia ℝ} (h : SaysMass r stage pos i)
    (hs : OnAxis stage) : OnAxis pos ∧ OnAxis i.cg := by
  obtain ⟨m, p, g, -, h1, h2, rfl, -, h3, -⟩ := h
  have a := he.place _ h1
  have b := he.cg _ h2
  rw [h3]
  refine ⟨⟨?_, ?_⟩, ⟨?_, ?_⟩⟩ <;> simp [hs.1, hs.2, a.1, a.2, b.1, b.2]

/-- a part built from a symmetric description is symmetric -/
theorem partSays_symmetric {src : Source} {rough : ℝ} {stage : V3 ℝ} {comps : List Str} (hs : OnAxis stage)
    (hc : ∀ k ∈ comps, EvenComponent src (src.dict k)) {k : Str} (hk : EvenComponent src (src.dict k)) {p : Part}
    (h : PartSays src rough stage comps k p) : p.Symmetric := by
  cases p with
  | mass i => obtain ⟨-, pos, h⟩ := h; exact (saysMass_axis hk h hs).2
  | nose i n r => obtain ⟨-, ⟨pos, h⟩, -⟩ := h; exact (saysMass_axis hk h hs).2
  | tube i pos len d r => exact (saysMass_axis hk h.2.1 hs).symm
  | trans i t r => exact (saysMass_axis hk h.2.1 hs).symm
  | boatTail i t r off => exact (saysMass_axis hk h.2.1 hs).symm
  | recovery i => obtain ⟨-, pos, h⟩ := h; exact (saysMass_axis hk h hs).2
  | motor m => exact True.intro
  | jet a b x => exact True.intro
  | fins i q =>
    obtain ⟨h1, h2, ⟨f1, -, -, -, -, f2, f3, f4, -, -, -, -, f5⟩, ⟨c, hcm, h3⟩, h4⟩ := h
    obtain ⟨e1, e2, e3, e4⟩ := hk.fins h1
    have hm := saysMass_axis hk h2 hs
    exact ⟨hm.2, by exact_mod_cast e1 _ f1, e2 _ f4, e3 _ f2, e4 _ f3, saysRadius_nonneg (hc c hcm) h3, hm.1,
      fun t i _ => hasFloat_unique (f5 i t) (f5 0 t), h4⟩
  | force f =>
    obtain ⟨h1, h2, h3, h4⟩ := h
    exact ⟨(hk.force h1).1 _ h2, hk.place _ h3, (hk.force h1).2 _ h4⟩
  | aero pos aref lref cd cl cmx cmy cmz =>
    obtain ⟨h1, h2, -, -, -, h3, h4⟩ := h
    have := (hk.aero h1).2 _ h4
    exact ⟨hk.place _ h2, (hk.aero h1).1 _ h3, this.1, this.2⟩
  | damping cx cy cz a l =>
    obtain ⟨h1, h2, h3, -⟩ := h
    exact ⟨(hk.damping h1).1 _ h2, (hk.damping h1).2 _ h3⟩
  | table t =>
    obtain ⟨h1, file, rows, h2, h3, rfl⟩ := h
    intro r hr
    obtain ⟨row, hrow, rfl⟩ := List.mem_map.1 hr
    exact hk.table h1 file rows h2 h3 row hrow

theorem stage_symmetric {src : Source} {rough : ℝ} {path : Str} {tail : V3 ℝ → List Part → Prop} {n : Nat} {s : StageP}
    (h : StageSays src rough path tail n s) (ht : ∀ pos t, OnAxis pos → tail pos t → ∀ p ∈ t, p.Symmetric)
    (h1 : ∀ v, HasVector (src.dict path) "position" v → v.x = 0 ∧ v.y = 0)
    (h2 : ∀ v, HasVector (src.dict path) "constCG" v → v.x = 0 ∧ v.y = 0) (h3 : ∀ k ∈ src.subs path, EvenComponent src (src.dict k)) :
    (∀ g, s.over.cg = some g → OnAxis g) ∧ ∀ p ∈ s.parts, p.Symmetric := by
  obtain ⟨pos, e1, -, ⟨c, e2, -, -, e3⟩, ⟨order, ps, t, e4, e5, e6, e7⟩, -⟩ := h
  have hpos : OnAxis pos := h1 _ e1
  refine ⟨fun g hg => ?_, fun p hp => ?_⟩
  · rw [e3] at hg
    cases c with
    | none => cases hg
    | some v =>
      obtain rfl := Option.some.inj hg
      have := h2 v e2
      exact ⟨by simp [hpos.1, this.1], by simp [hpos.2, this.2]⟩
  · rw [e7] at hp
    rcases List.mem_append.1 hp with hp | hp
    · obtain ⟨n, hn, rfl⟩ := List.mem_iff_getElem.1 hp
      have hlen := e5.length_eq
      exact partSays_symmetric hpos h3 (h3 _ (e4.mem_iff.1 (List.getElem_mem (show n < order.length by omega))))
        ((List.forall₂_iff_get.1 e5).2 n (by omega) hn)
    · exact ht pos t hpos e6 p hp

/-- **C98.** A rocket described as symmetric about its axis is built symmetric about its axis. -/
theorem craft_symmetric {src : Source} {c : Craft} (h : readCraft src = .ok c) (he : EvenDefinition src) : c.Symmetric := by
  obtain ⟨d, rough, -, -, -, -, upper, low, ss, s, hperm, hst, hup, hlow, -⟩ := craft_says h
  intro s' hs'
  rw [hst] at hs'
  rcases List.mem_append.1 hs' with hs' | hs'
  · obtain ⟨n, hn, rfl⟩ := List.mem_iff_getElem.1 hs'
    have hlen := hup.length_eq
    have := (List.forall₂_iff_get.1 hup).2 n (by omega) hn
    obtain ⟨e1, e2, e3⟩ := he (upper[n]'(by omega)) (hperm.mem_iff.1 (List.mem_append_left _ (List.getElem_mem _)))
    exact stage_symmetric this (by rintro pos t - rfl p hp; cases hp) e1 e2 e3
  · rw [List.mem_singleton] at hs'
    subst hs'
    obtain ⟨e1, e2, e3⟩ := he low (hperm.mem_iff.1 (by simp))
    refine stage_symmetric hlow ?_ e1 e2 e3
    rintro pos t hpos (⟨rfl, -⟩ | ⟨-, -, z, off, rfl, -⟩) p hp
    · cases hp
    · rw [List.mem_singleton] at hp
      subst hp
      exact ⟨⟨rfl, rfl⟩, hpos⟩

theorem partSays_rolless {src : Source} {rough : ℝ} {stage : V3 ℝ} {comps : List Str} {k : Str}
    (hk : (SaysClass (src.dict k) "FinSet" → ∀ x, HasFloat (src.dict k) "finCantAngle" x → x = 0) ∧
      (SaysClass (src.dict k) "Force" → ∀ v, HasVector (src.dict k) "moment" v → v.z = 0) ∧
      (SaysClass (src.dict k) "AeroForce" → ∀ v, HasVector (src.dict k) "momentCoeffs" v → v.z = 0)) {p : Part}
    (h : PartSays src rough stage comps k p) : p.Rolless := by
  cases p with
  | fins i q =>
    obtain ⟨h1, h2, ⟨-, -, -, -, -, -, -, -, -, -, -, -, f5⟩, -⟩ := h
    exact fun t i _ => hk.1 h1 _ (f5 i t)
  | force f => exact hk.2.1 h.1 _ h.2.2.2
  | aero pos aref lref cd cl cmx cmy cmz => exact hk.2.2 h.1 _ h.2.2.2.2.2.2
  | _ => exact True.intro

theorem craft_rolless {src : Source} {c : Craft} (h : readCraft src = .ok c) (he : PlainDefinition src) : c.Rolless := by
  obtain ⟨d, rough, -, -, -, -, upper, low, ss, s, hperm, hst, hup, hlow, -⟩ := craft_says h
  intro s' hs' p hp
  rw [hst] at hs'
  have key : ∀ path ∈ stageDicts (src.subs "Rocket".toList), ∀ (tail : V3 ℝ → List Part → Prop) n,
      (∀ pos t, tail pos t → ∀ q ∈ t, q.Rolless) → StageSays src rough path tail n s' → p.Rolless := by
    rintro path hpath tail n ht ⟨pos, -, -, -, ⟨order, ps, t, e4, e5, e6, e7⟩, -⟩
    rw [e7] at hp
    rcases List.mem_append.1 hp with hp | hp
    · obtain ⟨n, hn, rfl⟩ := List.mem_iff_getElem.1 hp
      have hlen := e5.length_eq
      exact partSays_rolless (he path hpath _ (e4.mem_iff.1 (List.getElem_mem (show n < order.length by omega))))
        ((List.forall₂_iff_get.1 e5).2 n (by omega) hn)
    · exact ht pos t e6 p hp
  rcases List.mem_append.1 hs' with hs' | hs'
  · obtain ⟨n, hn, rfl⟩ := List.mem_iff_getElem.1 hs'
    have hlen := hup.length_eq
    exact key (upper[n]'(by omega)) (hperm.mem_iff.1 (List.mem_append_left _ (List.getElem_mem _))) _ _
      (by rintro pos t rfl q hq; cases hq) ((List.forall₂_iff_get.1 hup).2 n (by omega) hn)
  · rw [List.mem_singleton] at hs'
    subst hs'
    refine key low (hperm.mem_iff.1 (by simp)) _ _ ?_ hlow
    rintro pos t (⟨rfl, -⟩ | ⟨-, -, z, off, rfl, -⟩) q hq
    · cases hq
    · rw [List.mem_singleton] at hq
      subst hq
      exact True.intro

/-! ## Its flight -/

/-- a part as it is later in the flight: motors have been ignited or shut off -/
inductive LaterPart : Part → Part → Prop
  | same (p) : LaterPart p p
  | motor (m) (t) : LaterPart (.motor m) (.motor { m with ignition := t })
  | tail (i t r off off') : LaterPart (.boatTail i t r off) (.boatTail i t r off')
  | jet (a b a' b' x) : LaterPart (.jet a b x) (.jet a' b' x)

/-- a rocket as it is later in the flight: stages have been dropped, motors ignited or shut off, boat tails added on the axis at the end of
what is left -/
def LaterForm (c c' : Craft) : Prop :=
  ∀ s' ∈ c'.stages, ∃ s ∈ c.stages, s'.over = s.over ∧ ∀ p' ∈ s'.parts, (∃ p ∈ s.parts, LaterPart p p') ∨
    ∃ t r off, p' = .boatTail zeroInertia t r off ∧ t.position.x = 0 ∧ t.position.y = 0

theorem laterForm_symmetric {c c' : Craft} (h : LaterForm c c') (hs : c.Symmetric) : c'.Symmetric := by
  intro s' hs'
  obtain ⟨s, h1, h2, h3⟩ := h s' hs'
  obtain ⟨e1, e2⟩ := hs s h1
  refine ⟨by rw [h2]; exact e1, fun p' hp' => ?_⟩
  rcases h3 p' hp' with ⟨p, hp, hl⟩ | ⟨t, r, off, rfl, e⟩
  · have := e2 p hp
    cases hl <;> exact this
  · exact ⟨⟨rfl, rfl⟩, e⟩

theorem laterForm_rolless {c c' : Craft} (h : LaterForm c c') (hs : c.Rolless) : c'.Rolless := by
  intro s' hs' p' hp'
  obtain ⟨s, h1, h2, h3⟩ := h s' hs'
  rcases h3 p' hp' with ⟨p, hp, hl⟩ | ⟨t, r, off, rfl, e⟩
  · have := hs s h1 p hp
    cases hl <;> exact this
  · exact True.intro

/-- **C98.** From the text of the definition to the end of the flight: a rocket described as symmetric about its axis, launched straight up in
calm air with its centre of gravity as computed at lift-off, stays above the launch site with its axis vertical, whatever stages it drops and
motors it lights on the way; and when neither cant nor rolling moments are described (and it is launched without spin, or from a rail) it
does not turn at all. -/
theorem definition_flight {src : Source} {c : Craft} (h : readCraft src = .ok c) (he : EvenDefinition src) (i : Inertia ℝ)
    (hi : c.inertia 0 = .ok i) (E : Env) (hE : Calm E) (pos vel w dir : V3 ℝ) (rotation : Option (V3 ℝ × ℝ)) (len : ℝ)
    (hr : ∀ p, rotation = some p → OnAxis p.1) (hd : OnAxis dir) (hv : OnAxis vel) (hw : OnAxis w)
    (hrail : makeRail E.earth E.elevation E.lat E.lon len pos rotation dir = .ok E.rail) (s : RBState)
    (h0 : E.initialState pos vel w rotation dir i.cg = .ok s) (method : String) (steps : List (Craft × ℝ))
    (hs : ∀ p ∈ steps, LaterForm c p.1) (w' : InFlight) (hf : fly E method ⟨0, s, E.rail, none⟩ steps = .ok w') :
    (w'.state.pos.x = pos.x ∧ w'.state.pos.y = pos.y ∧ w'.state.vel.x = 0 ∧ w'.state.vel.y = 0 ∧
      (∀ v q, w'.state.ori.rotate ⟨0, 0, 1⟩ = .ok (v, q) → v = ⟨0, 0, 1⟩) ∧ w'.state.angVel.x = 0 ∧ w'.state.angVel.y = 0) ∧
    (PlainDefinition src → (w = 0 ∨ 0 < len) → w'.state.angVel = 0 ∧ w'.state.ori = s.ori) := by
  have hsym := craft_symmetric h he
  obtain ⟨h1, h2⟩ := launch_flight E hE pos vel w dir i.cg rotation len hr hd hv hw (c.cg_onAxis hsym 0 i hi) hrail s h0 method steps
    (fun p hp => laterForm_symmetric (hs p hp) hsym) w' hf
  exact ⟨h1, fun hp => h2 fun p hpm => laterForm_rolless (hs p hpm) (craft_rolless h hp)⟩

/-! ## Two motors in one stage -/

theorem two_countP {α : Type} (P : α → Bool) (l : List α) {i j : Nat} (hij : i < j) (hj : j < l.length) (h1 : P (l[i]'(by omega)) = true)
    (h2 : P l[j] = true) : 2 ≤ l.countP P := by
  have e : l = l.take j ++ l[j] :: l.drop (j + 1) := by
    rw [← List.drop_eq_getElem_cons hj, List.take_append_drop]
  have hm : l[i]'(by omega) ∈ l.take j := by
    rw [List.mem_iff_getElem]
    exact ⟨i, by rw [List.length_take]; omega, by rw [List.getElem_take]⟩
  have hpos : 0 < (l.take j).countP P := List.countP_pos_iff.2 ⟨_, hm, h1⟩
  rw [e, List.countP_append, List.countP_cons, if_pos h2]
  omega

theorem saysClass_unique {r : Reader ℝ} {a b : String} (h : SaysClass r a) (h' : SaysClass r b) : a.toList = b.toList := by
  unfold SaysClass at h h'
  rw [h] at h'
  exact Except.ok.inj h'

theorem motor_part {src : Source} {rough : ℝ} {stage : V3 ℝ} {comps : List Str} {k : Str} {p : Part}
    (h : PartSays src rough stage comps k p) (hc : SaysClass (src.dict k) "Motor") : ∃ m, p = .motor m := by
  cases p with
  | motor m => exact ⟨m, rfl⟩
  | _ => exact absurd (saysClass_unique hc h.1) (by decide +kernel)

/-- **C98, violated part.** Of several motors in an upper stage only one waits for the separation of the stage below: of any two motors
described there, at least one is built to burn from launch. -/
theorem second_motor_violated {src : Source} {c : Craft} (h : readCraft src = .ok c) {upper lower : Str}
    (hu : upper ∈ stageDicts (src.subs "Rocket".toList)) (hl : lower ∈ stageDicts (src.subs "Rocket".toList)) {v w : V3 ℝ}
    (hv : HasVector (src.dict upper) "position" v) (hw : HasVector (src.dict lower) "position" w) (hz : w.z < v.z) {a b : Str}
    (hab : a ≠ b) (ha : a ∈ src.subs upper) (hb : b ∈ src.subs upper) (ca : SaysClass (src.dict a) "Motor")
    (cb : SaysClass (src.dict b) "Motor") :
    ∃ k ∈ [a, b], ∃ m off, SaysMotor src (src.dict k) v m off ∧ m.ignition = 0 ∧ ∃ s ∈ c.stages, Part.motor m ∈ s.parts := by
  obtain ⟨d, rough, -, -, -, -, up, low, ss, s, hperm, hst, hup, hlow, hord⟩ := craft_says h
  have hmem : upper ∈ up := by
    rcases List.mem_append.1 (hperm.mem_iff.2 hu) with h1 | h1
    · exact h1
    · rw [List.mem_singleton] at h1
      subst h1
      rcases List.mem_append.1 (hperm.mem_iff.2 hl) with h2 | h2
      · exact absurd (hord lower h2 w v hw hv) (not_le.2 hz)
      · rw [List.mem_singleton] at h2
        subst h2
        rw [HasVector.unique hv hw] at hz
        exact absurd hz (lt_irrefl _)
  obtain ⟨n, hn, rfl⟩ := List.mem_iff_getElem.1 hmem
  have hlen := hup.length_eq
  have hs := (List.forall₂_iff_get.1 hup).2 n hn (by omega)
  have hsm : ss[n]'(by omega) ∈ c.stages := by rw [hst]; exact List.mem_append_left _ (List.getElem_mem _)
  change StageSays src rough up[n] _ 1 (ss[n]'(by omega)) at hs
  generalize ss[n]'(by omega) = st at hs hsm
  obtain ⟨pos, e1, -, -, ⟨order, ps, t, e4, e5, e6, e7⟩, e8⟩ := hs
  obtain rfl := HasVector.unique e1 hv
  rw [e6, List.append_nil] at e7
  rw [e7] at e8
  obtain ⟨i, hi, ei⟩ := List.mem_iff_getElem.1 (e4.mem_iff.2 ha)
  obtain ⟨j, hj, ej⟩ := List.mem_iff_getElem.1 (e4.mem_iff.2 hb)
  have hlen2 := e5.length_eq
  have key : ∀ k l, (hl : l < order.length) → order[l] = k → SaysClass (src.dict k) "Motor" → k ∈ [a, b] →
      ¬ (ps[l]'(by omega)).Waits →
      ∃ k ∈ [a, b], ∃ m off, SaysMotor src (src.dict k) pos m off ∧ m.ignition = 0 ∧ ∃ s ∈ c.stages, Part.motor m ∈ s.parts := by
    intro k l hl ek hc hk hwait
    have hp := (List.forall₂_iff_get.1 e5).2 l hl (by omega)
    change PartSays src rough pos (src.subs up[n]) order[l] (ps[l]'(by omega)) at hp
    rw [ek] at hp
    obtain ⟨m, em⟩ := motor_part hp hc
    have hmp : ps[l]'(by omega) ∈ st.parts := by rw [e7]; exact List.getElem_mem _
    rw [em] at hp hwait hmp
    obtain ⟨m0, off, h3, h4⟩ := hp
    rcases h4 with rfl | rfl
    · obtain ⟨-, _, _, _, _, _, _, _, _, _, hbuild⟩ := id h3
      exact ⟨k, hk, m, off, h3, (build_ok hbuild).2.2.2.2.2.2.2.2.2.2.2.1, st, hsm, hmp⟩
    · exact absurd ⟨_, rfl, rfl⟩ hwait
  by_cases w1 : (ps[i]'(by omega)).Waits
  · by_cases w2 : (ps[j]'(by omega)).Waits
    · exfalso
      have hij : i ≠ j := by
        rintro rfl
        exact hab (ei.symm.trans ej)
      have : 2 ≤ ps.countP (fun p => @decide p.Waits (Classical.propDecidable _)) := by
        rcases Nat.lt_or_gt_of_ne hij with hlt | hlt
        · exact two_countP _ ps hlt (by omega) (by simpa using w1) (by simpa using w2)
        · exact two_countP _ ps hlt (by omega) (by simpa using w2) (by simpa using w1)
      omega
    · exact key b j hj ej cb (by simp) w2
  · exact key a i hi ei ca (by simp) w1

end Mapleaf.Rocket
