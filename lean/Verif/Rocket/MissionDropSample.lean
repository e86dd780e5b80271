import Verif.Rocket.MissionSample

/-!
# C99: a stage that is dropped, and several parachutes
-/

namespace Mapleaf.Rocket.Trip
open Mapleaf.Motion V3 ENV
open Ascent (z3 start)

/-- a definition with a motor for its only component -/
noncomputable def source2 : Source where
  dict := readR
  int s := if s = ['0'] then some 0 else none
  subs path := if path = "Rocket".toList then ["Rocket.Q".toList, "Rocket.Aero".toList]
    else if path = "Rocket.Q".toList then ["Rocket.Q.M".toList] else []
  motorFile _ := .ok (⟨0, 0, 0, 0⟩, [⟨1, 9, 0, 0, ⟨0, 0, 0⟩, ⟨0, 0, 0⟩⟩])
  inertiaFile _ := .error .fileNotFound
  launchRe := 0
  cpSolve _ _ := 0

theorem dict_source2 (path : Str) : source2.dict path = readR path := rfl
theorem subs_rocket2 : source2.subs "Rocket".toList = ["Rocket.Q".toList, "Rocket.Aero".toList] := rfl
theorem subs_stage2 : source2.subs "Rocket.Q".toList = ["Rocket.Q.M".toList] := by
  have h : "Rocket.Q".toList ≠ "Rocket".toList := by decide +kernel
  simp only [source2, if_neg h, if_true]
theorem stages_trip2 : stageDicts (source2.subs "Rocket".toList) = ["Rocket.Q".toList] := by
  rw [subs_rocket2]; decide +kernel

/-- the motor: 9 N for one second, without weight -/
noncomputable def motor : Motor ℝ := ⟨⟨0, 0, 0, 0⟩, [1], [9], [0], [0], 0, 0, [⟨0, 0, 0⟩], [⟨0, 0, 0⟩], 0⟩

theorem text_class2 : text "Rocket.Q.M".toList "class".toList = .ok "Motor".toList := by decide +kernel

theorem part_trip2 : readPart source2 ⟨0, ⟨0, 0, 0⟩⟩ "Rocket.Q.M".toList = .ok ⟨0, none, .motor motor 1 true⟩ := by
  have k1 : (readR "Rocket.Q.M".toList).getFloat "impulseAdjustFactor".toList = .ok 1 := float_one (by decide +kernel)
  have k2 : (readR "Rocket.Q.M".toList).getFloat "burnTimeAdjustFactor".toList = .ok 1 := float_one (by decide +kernel)
  have k3 : (readR "Rocket.Q.M".toList).text "path".toList = .ok ['m'] := by rw [text_R]; decide +kernel
  unfold readPart
  dsimp only
  rw [dict_source2, text_R, text_class2]
  dsimp only
  rw [show classOf "Motor".toList = .ok .motor by decide +kernel]
  dsimp only
  unfold readMotor
  rw [k1, k2, k3]
  simp only [bind, Except.bind]
  rw [show source2.motorFile ['m'] = .ok (⟨0, 0, 0, 0⟩, [⟨1, 9, 0, 0, ⟨0, 0, 0⟩, ⟨0, 0, 0⟩⟩]) from rfl]
  have hb : Motor.build (K := ℝ) ⟨0, 0, 0, 0⟩ [⟨1, 9, 0, 0, ⟨0, 0, 0⟩, ⟨0, 0, 0⟩⟩] 0 1 1 = .ok (motor, 1) := by
    unfold Motor.build
    simp [pyGet, massLoop, motor]
  dsimp only
  rw [hb]
  have hi : motor.inertia 0 = .ok (Inertia.make ⟨0, 0, 0⟩ ⟨0, 0, 0⟩ 0) := by
    unfold Motor.inertia Motor.oxInertia Motor.fuelInertia propInertia
    simp [motor, Inertia.add, Inertia.make, Inertia.combine, Inertia.withSelf, Inertia.definedAboutCG, Inertia.addMass, Inertia.addMOI,
      Inertia.axisDistSq]
  dsimp only
  rw [hi]
  rfl

theorem whole_trip2 : readWhole source2 0 "Rocket.Q".toList =
    .ok ⟨⟨⟨0, 0, 0⟩, [⟨0, none, .motor motor 1 true⟩], ⟨none, none, none⟩⟩, ⟨"None".toList, 0, 0⟩, []⟩ := by
  have h1 : source2.getInt (readR "Rocket.Q".toList) "stageNumber".toList = .ok 0 := by
    unfold Source.getInt
    rw [text_R, show text "Rocket.Q".toList "stageNumber".toList = .ok ['0'] by decide +kernel]
    rfl
  have h2 : (readR "Rocket.Q".toList).getVector "position".toList = .ok ⟨0, 0, 0⟩ := vector_zero (by decide +kernel)
  have h3 : (readR "Rocket.Q".toList).text "separationTriggerType".toList = .ok "None".toList := by rw [text_R]; decide +kernel
  have h4 : (readR "Rocket.Q".toList).getFloat "separationDelay".toList = .ok 0 := float_zero (by decide +kernel)
  have h5 : (readR "Rocket.Q".toList).getFloat "separationTriggerValue".toList = .ok 0 := float_zero (by decide +kernel)
  have h6 : buildOrder (fun p => (readR "Rocket.Q".toList).text (p ++ ".class".toList)) (source2.subs "Rocket.Q".toList) =
      .ok ["Rocket.Q.M".toList] := by
    rw [subs_stage2]
    simp only [text_R]
    decide +kernel
  have h7 : stageOverrides (readR "Rocket.Q".toList) ⟨0, 0, 0⟩ = .ok (none, none, none) := by
    have a : (readR "Rocket.Q".toList).text "constCG".toList = .error .keyError := by rw [text_R]; decide +kernel
    have b : (readR "Rocket.Q".toList).text "constMass".toList = .error .keyError := by rw [text_R]; decide +kernel
    have c : (readR "Rocket.Q".toList).text "constMOI".toList = .error .keyError := by rw [text_R]; decide +kernel
    unfold stageOverrides Reader.tryGetVector Reader.tryGetFloat Reader.getVector Reader.getFloat
    rw [a, b, c]
    rfl
  have s1 : readStage source2 0 "Rocket.Q".toList = .ok ⟨⟨0, 0, 0⟩, [⟨0, none, .motor motor 1 true⟩], ⟨none, none, none⟩⟩ := by
    unfold readStage
    dsimp only
    rw [dict_source2, h1, h2, h3, h4, h5]
    simp only [bind, Except.bind]
    rw [h6]
    simp only [Body.mapE, part_trip2, h7]
    rfl
  have s2 : readTrigger source2 "Rocket.Q".toList = .ok ⟨"None".toList, 0, 0⟩ := by
    unfold readTrigger
    rw [dict_source2, h3, h4, h5]
    rfl
  have s3 : stageSystems source2 "Rocket.Q".toList = .ok [] := by
    unfold stageSystems
    rw [dict_source2, h6]
    simp only [bind, Except.bind, Body.mapE]
    rw [dict_source2, text_R, text_class2]
    dsimp only
    rw [show classOf "Motor".toList = .ok .motor by decide +kernel]
    rfl
  unfold readWhole
  rw [s1, s2, s3]
  rfl

/-- **C99.** The stage can be dropped. -/
theorem drop_trip (ph : Phase) : ∃ d, readVessel source2 (some 0) ph = .ok d := by
  have d1 : (readR "Rocket".toList).text ("Rocket.Q.M".toList ++ ".class".toList) = .ok "Motor".toList := by
    rw [text_R]; decide +kernel
  have d4 : (readR "Rocket".toList).getFloat ("Rocket.Q".toList ++ ".stageNumber".toList) = .ok 0 := float_zero (by decide +kernel)
  have h1 : maxTubeDiameter (readR "Rocket".toList) (source2.subs "Rocket".toList) source2.subs = .ok 0 := by
    unfold maxTubeDiameter
    rw [stages_trip2]
    simp only [List.flatMap_cons, List.flatMap_nil, List.append_nil]
    rw [subs_stage2]
    simp only [List.foldlM_cons, List.foldlM_nil, tubeStep, d1, bind, Except.bind, pure, Except.pure]
    rw [if_neg (by decide +kernel)]
  have h2 : getFlag (readR "Rocket".toList) "Aero.addZeroLengthBoatTailsToAccountForBaseDrag".toList = .ok false := by
    unfold getFlag
    rw [text_R]
    decide +kernel
  have h3 : getFlag (readR "Rocket".toList) "Aero.fullyTurbulentBL".toList = .ok true := by
    unfold getFlag
    rw [text_R]
    decide +kernel
  have h4 : (readR "Rocket".toList).getFloat "Aero.surfaceRoughness".toList = .ok 0 := float_zero (by decide +kernel)
  have h5 : getFlag (readR "Rocket".toList) "Environment.turbulenceOffWhenUnderChute".toList = .ok true := by
    unfold getFlag
    rw [text_R]
    decide +kernel
  have h6 : createStages (readR "Rocket".toList) (readWhole source2 0) (source2.subs "Rocket".toList) (some 0) =
      .ok [⟨⟨⟨0, 0, 0⟩, [⟨0, none, .motor motor 1 true⟩], ⟨none, none, none⟩⟩, ⟨"None".toList, 0, 0⟩, []⟩] := by
    unfold createStages stageNumbers
    rw [stages_trip2]
    simp only [List.mapM_cons, List.mapM_nil, bind, Except.bind, pure, Except.pure, d4, buildStages, whole_trip2]
    simp
  have h7 : ∀ s, tailStages 0 0 false [s] = .ok [s] := by
    intro s
    unfold tailStages
    simp
  have h8 : stagingSubs true [(⟨"None".toList, 0, 0⟩ : Trigger ℝ)] = .ok [] := by
    unfold stagingSubs stagingTriggers
    simp [Body.mapE]
  unfold readVessel
  dsimp only
  rw [dict_source2, h1, h2, h3, h4, h5]
  simp only [bind, Except.bind]
  rw [h6]
  simp only [List.flatMap_cons, List.flatMap_nil, List.append_nil, List.zipIdx_nil, Body.mapE, orderByZ, List.map_cons, List.map_nil,
    List.insertionSort, List.foldr, List.orderedInsert, h7, Option.isSome_some, h8, burnStages, StageDraft.sorted, StageDraft.motor,
    List.findSome?_cons]
  simp [StageDraft.finish, Body.mapE, DraftKind.finish, Draft.relit, bind, Except.bind, finenessRatio, stageMaxDiameter]

/-- a rocket of two stages, the upper with a motor, on a parachute -/
noncomputable def pair (ph : Phase) : Vessel :=
  { vessel ph with stages := [⟨⟨0, 0, 0⟩, ⟨none, none, none⟩, [⟨.motor motor, none, true⟩], none⟩,
                              ⟨⟨0, 0, -1⟩, ⟨none, none, none⟩, [⟨.recovery weight, none, false⟩], none⟩],
                   chutes := [[chute], [chute]], current := [0, 0] }

theorem pair_separate (ph : Phase) : ∃ v' d, (pair ph).separate { setup with src := source2 } = .ok (v', [d]) := by
  obtain ⟨d, hd⟩ := drop_trip ph.copy
  unfold Vessel.separate
  rw [show (pair ph).dropIndex = 0 from rfl, show (pair ph).phase = ph from rfl]
  simp only [setup, if_true, hd, Except.map, bind, Except.bind]
  simp [pair, vessel, LiveStage.ignite, LiveStage.motor, tailLive, motor, finenessRatio, stageMaxDiameter, Item.lit]

/-- the hypotheses of `separation_state` and `drop_under_chute_violated`: a stage is dropped under a parachute and cannot fly -/
example : ∃ v' d, (pair (.three ⟨5, ⟨⟨0, 0, 100⟩, ⟨0, 0, -3⟩⟩, none, none⟩)).separate { setup with src := source2 } = .ok (v', [d]) ∧
    d.phase.pos = ⟨0, 0, 100⟩ ∧ d.advance env "Euler" 1 = .error .attributeError := by
  obtain ⟨v', d, h⟩ := pair_separate (.three ⟨5, ⟨⟨0, 0, 100⟩, ⟨0, 0, -3⟩⟩, none, none⟩)
  refine ⟨v', d, h, ?_, drop_under_chute_violated h rfl d (by simp) env "Euler" 1⟩
  obtain ⟨-, d', e, -, -, hp, -⟩ := (separation_state h).2.2.2 rfl
  obtain rfl : d = d' := by simpa using e
  exact hp

/-- the hypotheses of `other_chute_violated` -/
example : ∃ v' subs, (pair (.six ⟨5, start, none, none⟩)).deploy 0 = .ok (v', subs) ∧ (∃ w, v'.phase = .three w) := by
  have h : ∃ r, (pair (.six ⟨5, start, none, none⟩)).deploy 0 = .ok r := by
    unfold Vessel.deploy
    simp [pair, vessel]
  obtain ⟨⟨v', subs⟩, h⟩ := h
  exact ⟨v', subs, h, (other_chute_violated h rfl (by simp [pair]) rfl).2.1⟩

/-- the hypotheses of `chute_acceleration` -/
example (w : InFlight3) : ∃ air : Conditions, env.conditions true (0 : V3 ℝ) (some 0) = .ok air ∧ down = (1 / 5 : ℝ) • ((-(1 * 2 *
    (((0 : V3 ℝ) - air.wind).length ^ 2 * air.density / 2))) • ((0 : V3 ℝ) - air.wind).normalize + (5 : ℝ) • down) := by
  obtain ⟨air, i, g, h1, h2, h3, -, -, h⟩ := chute_acceleration (v := second w) (cs := [chute]) (k := 0) (c := chute) rfl rfl rfl (E := env) rfl
    (second_rhs w)
  obtain rfl : weight = i := Except.ok.inj ((first_inertia (.three w) 0).symm.trans h2)
  refine ⟨air, h1, ?_⟩
  have hg : (5 : ℝ) • down = g := by
    refine Except.ok.inj (Eq.trans ?_ h3)
    show _ = flatGravity _ _
    unfold flatGravity
    rw [if_neg (by simp)]
    congr 1
    apply V3.ext' <;> simp [weight, down, Inertia.make]
    norm_num
  rw [hg]
  exact h

end Mapleaf.Rocket.Trip
