import Verif.Rocket.BuildFlightProps

/-!
# C98: a definition that is read

One stage with a mass and a body tube, read with a toy `float`.
-/

namespace Mapleaf.Rocket.Toy
open Mapleaf.Motion V3

/-- the entries, by full path -/
def entries : List (String × String) :=
  [("Rocket.Aero.addZeroLengthBoatTailsToAccountForBaseDrag", "False"), ("Rocket.Aero.fullyTurbulentBL", "True"),
   ("Rocket.Aero.surfaceRoughness", "0"), ("Rocket.S.stageNumber", "0"), ("Rocket.S.position", "(0 0 -2)"),
   ("Rocket.S.separationTriggerType", "None"), ("Rocket.S.separationDelay", "0"), ("Rocket.S.separationTriggerValue", "0"),
   ("Rocket.S.M.class", "Mass"), ("Rocket.S.M.mass", "5"), ("Rocket.S.M.position", "(0 0 -1)"), ("Rocket.S.M.cg", "(0 0 -1)"),
   ("Rocket.S.T.class", "Bodytube"), ("Rocket.S.T.mass", "2"), ("Rocket.S.T.position", "(0 0 0)"), ("Rocket.S.T.cg", "(0 0 -1)"),
   ("Rocket.S.T.MOI", "(1 1 1)"), ("Rocket.S.T.length", "3"), ("Rocket.S.T.outerDiameter", "1")]

/-- looking up a key in a dictionary, or by its full path -/
def text (path key : Str) : Except PyErr Str :=
  match entries.find? (fun p => p.1.toList == path ++ ['.'] ++ key || p.1.toList == key) with
  | some p => .ok p.2.toList
  | none => .error .keyError

/-- a toy `float` -/
def digit (s : Str) : Option ℚ := (toyReader []).float s

/-- the readers in rational and in real numbers -/
def readQ (path : Str) : Reader ℚ := ⟨text path, digit⟩
/-- see `readQ` -/
noncomputable def readR (path : Str) : Reader ℝ := ⟨text path, fun s => (digit s).map (fun x : ℚ => (x : ℝ))⟩

theorem text_Q (path key : Str) : (readQ path).text key = text path key := rfl
theorem text_R (path key : Str) : (readR path).text key = text path key := rfl
theorem float_R (path s : Str) : (readR path).float s = ((readQ path).float s).map (fun x : ℚ => (x : ℝ)) := rfl

theorem float_of {path : Str} {key : String} {x : ℚ} (h : (readQ path).getFloat key.toList = .ok x) : HasFloat (readR path) key (x : ℝ) := by
  obtain ⟨s, h1, h2⟩ := (Reader.getFloat_ok _ _ _).1 h
  exact ⟨s, h1, by rw [float_R, h2]; rfl⟩

theorem vector_of {path : Str} {key : String} {v : V3 ℚ} (h : (readQ path).getVector key.toList = .ok v) :
    HasVector (readR path) key ⟨v.x, v.y, v.z⟩ := by
  apply hasVector_of
  unfold Reader.getVector at h ⊢
  rw [text_R]
  rw [text_Q] at h
  cases ht : text path key.toList with
  | error e => rw [ht] at h; cases h
  | ok s =>
    rw [ht] at h
    dsimp only at h ⊢
    unfold parseVector at h ⊢
    cases hb : dropBrackets s with
    | error e => rw [hb] at h; cases h
    | ok s' =>
      rw [hb] at h
      dsimp only at h ⊢
      split at h
      · rename_i a b c hs
        rw [float_R, float_R, float_R]
        split at h
        · rename_i x y z e1 e2 e3
          rw [e1, e2, e3, ← Except.ok.inj h]
          rfl
        · cases h
      · cases h

/-- the definition -/
noncomputable def source : Source where
  dict := readR
  int s := if s = ['0'] then some 0 else none
  subs path := if path = "Rocket".toList then ["Rocket.S".toList, "Rocket.Aero".toList]
    else if path = "Rocket.S".toList then ["Rocket.S.M".toList, "Rocket.S.T".toList] else []
  motorFile _ := .error .fileNotFound
  inertiaFile _ := .error .fileNotFound
  launchRe := 0
  cpSolve _ _ := 0

theorem dict_source (path : Str) : source.dict path = readR path := rfl
theorem subs_rocket : source.subs "Rocket".toList = ["Rocket.S".toList, "Rocket.Aero".toList] := rfl
theorem subs_stage : source.subs "Rocket.S".toList = ["Rocket.S.M".toList, "Rocket.S.T".toList] := by
  have h : "Rocket.S".toList ≠ "Rocket".toList := by decide +kernel
  simp only [source, if_neg h, if_true]
theorem stages_toy : stageDicts (source.subs "Rocket".toList) = ["Rocket.S".toList] := by
  rw [subs_rocket]; decide +kernel

theorem mass_toy : fixedMass (readR "Rocket.S.M".toList) ⟨0, 0, -2⟩ = .ok ⟨⟨0, 0, -3⟩, Inertia.make ⟨1 / 20, 1 / 20, 1 / 20⟩ ⟨0, 0, -4⟩ 5⟩ := by
  refine (fixedMass_spec _ _ _).2 ⟨5, ⟨0, 0, -1⟩, ⟨0, 0, -1⟩, ?_, ?_, ?_, ?_, rfl, ?_, ?_, Or.inr ⟨?_, ?_⟩⟩
  · have := float_of (path := "Rocket.S.M".toList) (key := "mass") (x := 5) (by decide +kernel)
    norm_num at this ⊢
    exact this
  · have := vector_of (path := "Rocket.S.M".toList) (key := "position") (v := ⟨0, 0, -1⟩) (by decide +kernel)
    norm_num [Inertia.make] at this ⊢
    exact this
  · have := vector_of (path := "Rocket.S.M".toList) (key := "cg") (v := ⟨0, 0, -1⟩) (by decide +kernel)
    norm_num [Inertia.make] at this ⊢
    exact this
  · apply V3.ext' <;> norm_num
  · apply V3.ext' <;> norm_num [Inertia.make]
  · apply V3.ext' <;> norm_num [Inertia.make]
  · rintro v ⟨s, hs, -⟩
    have : text "Rocket.S.M".toList "MOI".toList = .error .keyError := by decide +kernel
    rw [text_R, this] at hs
    cases hs
  · apply V3.ext' <;> norm_num [Inertia.make]

theorem tube_toy : fixedMass (readR "Rocket.S.T".toList) ⟨0, 0, -2⟩ = .ok ⟨⟨0, 0, -2⟩, Inertia.make ⟨1, 1, 1⟩ ⟨0, 0, -3⟩ 2⟩ := by
  refine (fixedMass_spec _ _ _).2 ⟨2, ⟨0, 0, 0⟩, ⟨0, 0, -1⟩, ?_, ?_, ?_, ?_, rfl, ?_, ?_, Or.inl ?_⟩
  · have := float_of (path := "Rocket.S.T".toList) (key := "mass") (x := 2) (by decide +kernel)
    norm_num at this ⊢
    exact this
  · have := vector_of (path := "Rocket.S.T".toList) (key := "position") (v := ⟨0, 0, 0⟩) (by decide +kernel)
    norm_num [Inertia.make] at this ⊢
    exact this
  · have := vector_of (path := "Rocket.S.T".toList) (key := "cg") (v := ⟨0, 0, -1⟩) (by decide +kernel)
    norm_num [Inertia.make] at this ⊢
    exact this
  · apply V3.ext' <;> norm_num
  · apply V3.ext' <;> norm_num [Inertia.make]
  · apply V3.ext' <;> norm_num [Inertia.make]
  · have := vector_of (path := "Rocket.S.T".toList) (key := "MOI") (v := ⟨1, 1, 1⟩) (by decide +kernel)
    norm_num [Inertia.make] at this ⊢
    exact this

theorem text_mass : text "Rocket.S.M".toList "class".toList = .ok "Mass".toList := by decide +kernel
theorem text_tube : text "Rocket.S.T".toList "class".toList = .ok "Bodytube".toList := by decide +kernel

theorem part_mass : readPart source ⟨0, ⟨0, 0, -2⟩⟩ "Rocket.S.M".toList =
    .ok ⟨-3, none, .ready (.mass (Inertia.make ⟨1 / 20, 1 / 20, 1 / 20⟩ ⟨0, 0, -4⟩ 5))⟩ := by
  unfold readPart
  dsimp only
  rw [dict_source, text_R]
  rw [text_mass]
  dsimp only
  rw [show classOf "Mass".toList = .ok .mass by decide +kernel]
  dsimp only
  change (fixedMass (readR "Rocket.S.M".toList) ⟨0, 0, -2⟩).map _ = _
  rw [mass_toy]
  rfl

theorem part_tube : readPart source ⟨0, ⟨0, 0, -2⟩⟩ "Rocket.S.T".toList =
    .ok ⟨-2, some ⟨-2, 3, 1, fun _ => .ok (1 / 2), true⟩, .ready (.tube (Inertia.make ⟨1, 1, 1⟩ ⟨0, 0, -3⟩ 2) ⟨0, 0, -2⟩ 3 1 0)⟩ := by
  unfold readPart
  dsimp only
  rw [dict_source, text_R]
  rw [text_tube]
  dsimp only
  rw [show classOf "Bodytube".toList = .ok .bodyTube by decide +kernel]
  dsimp only
  change readTube (readR "Rocket.S.T".toList) _ = _
  unfold readTube
  rw [tube_toy]
  have h1 := (Reader.getFloat_ok _ _ _).2 (float_of (path := "Rocket.S.T".toList) (key := "length") (x := 3) (by decide +kernel))
  have h2 := (Reader.getFloat_ok _ _ _).2 (float_of (path := "Rocket.S.T".toList) (key := "outerDiameter") (x := 1) (by decide +kernel))
  have h3 : (readR "Rocket.S.T".toList).tryGetFloat "surfaceRoughness".toList = .ok none := by
    refine (tryGetFloat_ok _ "surfaceRoughness" none).2 ?_
    change text "Rocket.S.T".toList "surfaceRoughness".toList = .error .keyError
    decide +kernel
  rw [h1, h2, h3]
  simp only [bind, Except.bind, Option.getD, Rat.cast_ofNat, Rat.cast_one]

theorem stage_toy : readStage source 0 "Rocket.S".toList =
    .ok ⟨⟨0, 0, -2⟩, [⟨-2, some ⟨-2, 3, 1, fun _ => .ok (1 / 2), true⟩, .ready (.tube (Inertia.make ⟨1, 1, 1⟩ ⟨0, 0, -3⟩ 2) ⟨0, 0, -2⟩ 3 1 0)⟩,
      ⟨-3, none, .ready (.mass (Inertia.make ⟨1 / 20, 1 / 20, 1 / 20⟩ ⟨0, 0, -4⟩ 5))⟩], ⟨none, none, none⟩⟩ := by
  have h1 : source.getInt (readR "Rocket.S".toList) "stageNumber".toList = .ok 0 := by
    unfold Source.getInt
    rw [text_R, show text "Rocket.S".toList "stageNumber".toList = .ok ['0'] by decide +kernel]
    rfl
  have h2 : (readR "Rocket.S".toList).getVector "position".toList = .ok ⟨0, 0, -2⟩ := by
    have := vector_of (path := "Rocket.S".toList) (key := "position") (v := ⟨0, 0, -2⟩) (by decide +kernel)
    norm_num at this
    exact (Reader.getVector_ok _ _ _).2 this
  have h3 : (readR "Rocket.S".toList).text "separationTriggerType".toList = .ok "None".toList := by
    rw [text_R]; decide +kernel
  have h4 := (Reader.getFloat_ok _ _ _).2 (float_of (path := "Rocket.S".toList) (key := "separationDelay") (x := 0) (by decide +kernel))
  have h5 := (Reader.getFloat_ok _ _ _).2 (float_of (path := "Rocket.S".toList) (key := "separationTriggerValue") (x := 0) (by decide +kernel))
  have h6 : buildOrder (fun p => (readR "Rocket.S".toList).text (p ++ ".class".toList)) (source.subs "Rocket.S".toList) =
      .ok ["Rocket.S.T".toList, "Rocket.S.M".toList] := by
    rw [subs_stage]
    simp only [text_R]
    decide +kernel
  have h7 : stageOverrides (readR "Rocket.S".toList) ⟨0, 0, -2⟩ = .ok (none, none, none) := by
    have a : (readR "Rocket.S".toList).text "constCG".toList = .error .keyError := by rw [text_R]; decide +kernel
    have b : (readR "Rocket.S".toList).text "constMass".toList = .error .keyError := by rw [text_R]; decide +kernel
    have c : (readR "Rocket.S".toList).text "constMOI".toList = .error .keyError := by rw [text_R]; decide +kernel
    unfold stageOverrides Reader.tryGetVector Reader.tryGetFloat Reader.getVector Reader.getFloat
    rw [a, b, c]
    rfl
  unfold readStage
  dsimp only
  rw [dict_source, h1, h2, h3, h4, h5]
  simp only [bind, Except.bind]
  rw [h6]
  simp only [Body.mapE, part_tube, part_mass, h7, markMotors]

/-- **C98.** Reading the example. -/
theorem craft_toy : ∃ c, readCraft source = .ok c := by
  have d1 : (readR "Rocket".toList).text ("Rocket.S.M".toList ++ ".class".toList) = .ok "Mass".toList := by rw [text_R]; decide +kernel
  have d2 : (readR "Rocket".toList).text ("Rocket.S.T".toList ++ ".class".toList) = .ok "Bodytube".toList := by rw [text_R]; decide +kernel
  have d3 : (readR "Rocket".toList).getFloat ("Rocket.S.T".toList ++ ".outerDiameter".toList) = .ok ((1 : ℚ) : ℝ) :=
    (Reader.getFloat_ok _ _ _).2 (float_of (path := "Rocket".toList) (key := "Rocket.S.T.outerDiameter") (x := 1) (by decide +kernel))
  have d4 : (readR "Rocket".toList).getFloat ("Rocket.S".toList ++ ".stageNumber".toList) = .ok ((0 : ℚ) : ℝ) :=
    (Reader.getFloat_ok _ _ _).2 (float_of (path := "Rocket".toList) (key := "Rocket.S.stageNumber") (x := 0) (by decide +kernel))
  have h1 : maxTubeDiameter (readR "Rocket".toList) (source.subs "Rocket".toList) source.subs = .ok 1 := by
    unfold maxTubeDiameter
    rw [stages_toy]
    simp only [List.flatMap_cons, List.flatMap_nil, List.append_nil]
    rw [subs_stage]
    simp only [List.foldlM_cons, List.foldlM_nil, tubeStep, d1, d2, d3, bind, Except.bind, pure, Except.pure]
    rw [if_neg (by decide +kernel)]
    simp
  have h2 : getFlag (readR "Rocket".toList) "Aero.addZeroLengthBoatTailsToAccountForBaseDrag".toList = .ok false := by
    unfold getFlag
    rw [text_R]
    decide +kernel
  have h3 : getFlag (readR "Rocket".toList) "Aero.fullyTurbulentBL".toList = .ok true := by
    unfold getFlag
    rw [text_R]
    decide +kernel
  have h4 := (Reader.getFloat_ok _ _ _).2 (float_of (path := "Rocket".toList) (key := "Aero.surfaceRoughness") (x := 0) (by decide +kernel))
  unfold readCraft
  dsimp only
  rw [dict_source, h1, h2, h3, h4]
  simp only [bind, Except.bind, createStages, stages_toy, buildStages, d4, Rat.cast_zero, true_or, if_true, stage_toy, List.map_cons,
    List.map_nil, orderByZ]
  have h5 : ∀ s, tailStages 1 0 false [s] = .ok [s] := by
    intro s
    unfold tailStages
    simp
  simp only [List.insertionSort, List.foldr, List.orderedInsert, h5, waitStages, Body.mapE]
  norm_num [StageDraft.finish, StageDraft.sorted, orderByZ, List.insertionSort, List.orderedInsert, Body.mapE, DraftKind.finish, bind, Except.bind,
    finenessRatio]

theorem not_class {path : Str} {a b : String} (h : text path "class".toList = .ok a.toList) (hab : b.toList ≠ a.toList) :
    ¬ SaysClass (readR path) b := by
  intro h'
  unfold SaysClass at h'
  rw [text_R, h] at h'
  exact hab (Except.ok.inj h').symm

/-- **C98.** The example is symmetric and plain: the hypotheses of the theorem on its flight hold. -/
theorem even_toy : EvenDefinition source ∧ PlainDefinition source := by
  have hp : HasVector (readR "Rocket.S".toList) "position" ⟨0, 0, -2⟩ := by
    have := vector_of (path := "Rocket.S".toList) (key := "position") (v := ⟨0, 0, -2⟩) (by decide +kernel)
    norm_num at this
    exact this
  have nocg : ∀ v, ¬ HasVector (readR "Rocket.S".toList) "constCG" v := by
    rintro v ⟨s, hs, -⟩
    rw [text_R, show text "Rocket.S".toList "constCG".toList = .error .keyError by decide +kernel] at hs
    cases hs
  obtain ⟨m1, p1, g1, -, hp1, hg1, e1, -, e2, -⟩ := (fixedMass_spec _ _ _).1 mass_toy
  obtain ⟨m2, p2, g2, -, hp2, hg2, e3, -, e4, -⟩ := (fixedMass_spec _ _ _).1 tube_toy
  have hd := float_of (path := "Rocket.S.T".toList) (key := "outerDiameter") (x := 1) (by decide +kernel)
  have x1 := congrArg V3.x e1
  have y1 := congrArg V3.y e1
  have x2 := congrArg V3.x e2
  have y2 := congrArg V3.y e2
  have x3 := congrArg V3.x e3
  have y3 := congrArg V3.y e3
  have x4 := congrArg V3.x e4
  have y4 := congrArg V3.y e4
  simp only [Inertia.make, V3.add_x, V3.add_y, zero_add] at x1 y1 x2 y2 x3 y3 x4 y4
  have nm := fun (b : String) => not_class (b := b) text_mass
  have nt := fun (b : String) => not_class (b := b) text_tube
  refine ⟨?_, ?_⟩
  · unfold EvenDefinition
    rw [stages_toy]
    intro s hs
    rw [List.mem_singleton] at hs
    subst hs
    rw [subs_stage]
    simp only [dict_source]
    refine ⟨fun v hv => by rw [HasVector.unique hv hp]; exact ⟨rfl, rfl⟩, fun v hv => absurd hv (nocg v), ?_⟩
    intro k hk
    rcases List.mem_cons.1 hk with rfl | hk
    · exact {
        place := fun v hv => by rw [HasVector.unique hv hp1]; exact ⟨x1.symm, y1.symm⟩
        cg := fun v hv => by rw [HasVector.unique hv hg1]; rw [← x1, ← y1] at *; exact ⟨by linarith, by linarith⟩
        nose := fun h => absurd h (nm _ (by decide +kernel))
        tube := fun h => absurd h (nm _ (by decide +kernel))
        cone := fun h => h.elim (fun h => absurd h (nm _ (by decide +kernel))) (fun h => absurd h (nm _ (by decide +kernel)))
        fins := fun h => absurd h (nm _ (by decide +kernel))
        force := fun h => absurd h (nm _ (by decide +kernel))
        aero := fun h => absurd h (nm _ (by decide +kernel))
        damping := fun h => absurd h (nm _ (by decide +kernel))
        table := fun h => absurd h (nm _ (by decide +kernel)) }
    · rw [List.mem_singleton] at hk
      subst hk
      exact {
        place := fun v hv => by rw [HasVector.unique hv hp2]; exact ⟨x3.symm, y3.symm⟩
        cg := fun v hv => by rw [HasVector.unique hv hg2]; exact ⟨by linarith, by linarith⟩
        nose := fun h => absurd h (nt _ (by decide +kernel))
        tube := fun h d hd' => by rw [hasFloat_unique hd' hd]; norm_num
        cone := fun h => h.elim (fun h => absurd h (nt _ (by decide +kernel))) (fun h => absurd h (nt _ (by decide +kernel)))
        fins := fun h => absurd h (nt _ (by decide +kernel))
        force := fun h => absurd h (nt _ (by decide +kernel))
        aero := fun h => absurd h (nt _ (by decide +kernel))
        damping := fun h => absurd h (nt _ (by decide +kernel))
        table := fun h => absurd h (nt _ (by decide +kernel)) }
  · unfold PlainDefinition
    rw [stages_toy]
    intro s hs
    rw [List.mem_singleton] at hs
    subst hs
    rw [subs_stage]
    simp only [dict_source]
    intro k hk
    rcases List.mem_cons.1 hk with rfl | hk
    · exact ⟨fun h => absurd h (nm _ (by decide +kernel)), fun h => absurd h (nm _ (by decide +kernel)),
        fun h => absurd h (nm _ (by decide +kernel))⟩
    · rw [List.mem_singleton] at hk
      subst hk
      exact ⟨fun h => absurd h (nt _ (by decide +kernel)), fun h => absurd h (nt _ (by decide +kernel)),
        fun h => absurd h (nt _ (by decide +kernel))⟩

theorem leaf_toy (k : Str) (i : Inertia ℝ) (h : LeafSays source "Rocket.S".toList k i) :
    (k = "Rocket.S.M".toList → i.mass = 5) ∧ (k = "Rocket.S.T".toList → i.mass = 2) := by
  have f1 : HasFloat (readR "Rocket.S.M".toList) "mass" 5 := by
    have := float_of (path := "Rocket.S.M".toList) (key := "mass") (x := 5) (by decide +kernel)
    norm_num at this
    exact this
  have f2 : HasFloat (readR "Rocket.S.T".toList) "mass" 2 := by
    have := float_of (path := "Rocket.S.T".toList) (key := "mass") (x := 2) (by decide +kernel)
    norm_num at this
    exact this
  have nm := fun (b : String) => not_class (b := b) text_mass
  have nt := fun (b : String) => not_class (b := b) text_tube
  constructor
  · rintro rfl
    obtain ⟨stage, -, ⟨-, pos, m, p, g, h1, -, -, -, h2, -⟩ | ⟨m, off, ⟨h, -⟩, -⟩ | ⟨h, -⟩ | ⟨h, -⟩⟩ := h
    · rw [h2]; exact hasFloat_unique h1 f1
    · exact absurd h (nm _ (by decide +kernel))
    · exact absurd h (nm _ (by decide +kernel))
    · rcases h with h | h | h | h <;> exact absurd h (nm _ (by decide +kernel))
  · rintro rfl
    obtain ⟨stage, -, ⟨-, pos, m, p, g, h1, -, -, -, h2, -⟩ | ⟨m, off, ⟨h, -⟩, -⟩ | ⟨h, -⟩ | ⟨h, -⟩⟩ := h
    · rw [h2]; exact hasFloat_unique h1 f2
    · exact absurd h (nt _ (by decide +kernel))
    · exact absurd h (nt _ (by decide +kernel))
    · rcases h with h | h | h | h <;> exact absurd h (nt _ (by decide +kernel))

theorem sum_toy {S M T : Str} (P : Str → Inertia ℝ → Prop) (hP : ∀ k i, P k i → (k = M → i.mass = 5) ∧ (k = T → i.mass = 2)) (hMT : T ≠ M)
    (b : List (Str × Str)) (l : List (Inertia ℝ)) (hb : b.Perm [(S, M), (S, T)]) (hl : List.Forall₂ (fun b i => P b.2 i) b l) :
    (l.map (·.mass)).sum = 7 := by
  have key : ∀ (b : List (Str × Str)) (l : List (Inertia ℝ)), (∀ x ∈ b, x.2 = M ∨ x.2 = T) → List.Forall₂ (fun b i => P b.2 i) b l →
      (l.map (·.mass)).sum = (b.map fun x => if x.2 = M then (5 : ℝ) else 2).sum := by
    intro b l hx hl
    induction hl with
    | nil => rfl
    | @cons x j b l h1 _ ih =>
      simp only [List.map_cons, List.sum_cons]
      rw [ih fun y hy => hx y (List.mem_cons_of_mem _ hy)]
      congr 1
      rcases hx x (by simp) with h | h
      · rw [if_pos h]; exact (hP _ _ h1).1 h
      · rw [if_neg (by rw [h]; exact hMT)]; exact (hP _ _ h1).2 h
  rw [key b l (fun x hx => by
    have := hb.mem_iff.1 hx
    simp only [List.mem_cons, List.not_mem_nil, or_false] at this
    rcases this with rfl | rfl
    · exact Or.inl rfl
    · exact Or.inr rfl) hl, (hb.map _).sum_eq]
  simp only [List.map_cons, List.map_nil, List.sum_cons, List.sum_nil, if_true, if_neg hMT]
  norm_num

/-- **C98.** The theorem on lift-off at work: the example weighs 7. -/
theorem liftoff_toy (c : Craft) (h : readCraft source = .ok c) (i : Inertia ℝ) (hi : c.inertia 0 = .ok i) : i.mass = 7 := by
  obtain ⟨bodies, hb, l, hl, hm, -⟩ := liftoff_inertia h (by
    rw [stages_toy]
    intro s hs
    rw [List.mem_singleton] at hs
    subst hs
    simp only [dict_source, text_R]
    decide +kernel) (by
    rw [stages_toy]
    intro s hs k hk j hj
    rw [List.mem_singleton] at hs
    subst hs
    rw [subs_stage] at hk
    have := leaf_toy k j hj
    rcases List.mem_cons.1 hk with rfl | hk
    · rw [this.1 rfl]; norm_num
    · rw [this.2 (List.mem_singleton.1 hk)]; norm_num) i hi
  rw [stages_toy] at hb
  simp only [List.flatMap_cons, List.flatMap_nil, List.append_nil, subs_stage, List.map_cons, List.map_nil] at hb
  rw [hm]
  exact sum_toy (fun k j => LeafSays source "Rocket.S".toList k j) leaf_toy (by decide +kernel) bodies l hb
    (by
      have hb' : ∀ x ∈ bodies, x.1 = "Rocket.S".toList := by
        intro x hx
        have := hb.mem_iff.1 hx
        simp only [List.mem_cons, List.not_mem_nil, or_false] at this
        rcases this with rfl | rfl <;> rfl
      clear hb hm
      induction hl with
      | nil => exact .nil
      | @cons x j b l h1 _ ih =>
        refine .cons ?_ (ih fun y hy => hb' y (List.mem_cons_of_mem _ hy))
        rw [hb' x (by simp)] at h1
        exact h1)

end Mapleaf.Rocket.Toy
