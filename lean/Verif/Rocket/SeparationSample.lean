import Verif.Rocket.MissionSample
import Verif.Rocket.SeparationDropProps

/-!
# C100: a rocket of two stages that comes apart

The lower stage has a motor and 5 kg of ballast, the upper one a motor, one metre higher. The motors burn 2 kg of fuel in a second.
-/

namespace Mapleaf.Rocket.Trip
open Mapleaf.Motion V3 ENV
open Ascent (z3 start)

/-- the rows of the motor file -/
noncomputable def curve : List (MotorRow ℝ) := [⟨0, 9, 0, 2, ⟨0, 0, 0⟩, ⟨0, 0, 0⟩⟩, ⟨1, 9, 0, 2, ⟨0, 0, 0⟩, ⟨0, 0, 0⟩⟩]

/-- the definition -/
noncomputable def source3 : Source where
  dict := readR
  int s := if s = ['0'] then some 0 else if s = ['1'] then some 1 else none
  subs path := if path = "Rocket".toList then ["Rocket.U".toList, "Rocket.L".toList, "Rocket.Aero".toList]
    else if path = "Rocket.U".toList then ["Rocket.U.M".toList]
    else if path = "Rocket.L".toList then ["Rocket.L.M".toList, "Rocket.L.W".toList] else []
  motorFile _ := .ok (⟨0, 0, 0, 0⟩, curve)
  inertiaFile _ := .error .fileNotFound
  launchRe := 0
  cpSolve _ _ := 0

theorem dict_source3 (path : Str) : source3.dict path = readR path := rfl
theorem subs_rocket3 : source3.subs "Rocket".toList = ["Rocket.U".toList, "Rocket.L".toList, "Rocket.Aero".toList] := rfl
theorem subs_upper : source3.subs "Rocket.U".toList = ["Rocket.U.M".toList] := by
  have h : "Rocket.U".toList ≠ "Rocket".toList := by decide +kernel
  simp only [source3, if_neg h, if_true]
theorem subs_lower : source3.subs "Rocket.L".toList = ["Rocket.L.M".toList, "Rocket.L.W".toList] := by
  have h : "Rocket.L".toList ≠ "Rocket".toList := by decide +kernel
  have h' : "Rocket.L".toList ≠ "Rocket.U".toList := by decide +kernel
  simp only [source3, if_neg h, if_neg h', if_true]
theorem stages_trip3 : stageDicts (source3.subs "Rocket".toList) = ["Rocket.U".toList, "Rocket.L".toList] := by
  rw [subs_rocket3]; decide +kernel

/-- the motor, on a stage at height `z` -/
noncomputable def burner (z : ℝ) : Motor ℝ :=
  ⟨⟨z, z, z, z⟩, [0, 1], [9, 9], [0, 0], [2, 0], 0, 2, [⟨0, 0, 0⟩, ⟨0, 0, 0⟩], [⟨0, 0, 0⟩, ⟨0, 0, 0⟩], 0⟩

theorem burner_build (z : ℝ) : Motor.build (K := ℝ) ⟨0, 0, 0, 0⟩ curve z 1 1 = .ok (burner z, 1) := by
  unfold Motor.build
  simp [pyGet, massLoop, burner, curve]

theorem burner_full (z ign t : ℝ) (h : t ≤ ign) : Motor.inertia { burner z with ignition := ign } t = .ok (Inertia.make ⟨0, 0, 0⟩ ⟨0, 0, z⟩ 2) := by
  have hm : max 0 (t - ign) = 0 := max_eq_left (by linarith)
  have hl : ∀ {V : Type} [AddCommGroup V] [Module ℝ V] (a b : V), linInterp [(0 : ℝ), 1] [a, b] 0 = .ok a := by
    intro V _ _ a b
    have hb : bisect [(0 : ℝ), 1] 0 = 1 := by
      apply bisect_eq_of (by simp) (by simp)
      · intro i h h1; obtain rfl : i = 0 := by omega
        simp
      · intro i h h1; obtain rfl : i = 1 := by simp at h; omega
        simp
    unfold linInterp
    rw [hb]
    simp [pyGet]
  unfold Motor.inertia Motor.oxInertia Motor.fuelInertia propInertia
  dsimp only
  rw [hm]
  simp only [burner, if_true, hl, if_neg (two_ne_zero (α := ℝ))]
  simp [Inertia.add, Inertia.make, Inertia.combine, Inertia.withSelf, Inertia.definedAboutCG, Inertia.addMass, Inertia.addMOI,
      Inertia.axisDistSq]
  apply V3.ext' <;> simp

theorem part_upper : readPart source3 ⟨0, ⟨0, 0, 1⟩⟩ "Rocket.U.M".toList = .ok ⟨1, none, .motor (burner 1) 1 true⟩ := by
  have k1 : (readR "Rocket.U.M".toList).getFloat "impulseAdjustFactor".toList = .ok 1 := float_one (by decide +kernel)
  have k2 : (readR "Rocket.U.M".toList).getFloat "burnTimeAdjustFactor".toList = .ok 1 := float_one (by decide +kernel)
  have k3 : (readR "Rocket.U.M".toList).text "path".toList = .ok ['m'] := by rw [text_R]; decide +kernel
  unfold readPart
  dsimp only
  rw [dict_source3, text_R, show text "Rocket.U.M".toList "class".toList = .ok "Motor".toList by decide +kernel]
  dsimp only
  rw [show classOf "Motor".toList = .ok .motor by decide +kernel]
  dsimp only
  unfold readMotor
  rw [k1, k2, k3]
  simp only [bind, Except.bind]
  rw [show source3.motorFile ['m'] = .ok (⟨0, 0, 0, 0⟩, curve) from rfl]
  dsimp only
  rw [burner_build]
  dsimp only
  rw [show (burner 1).inertia 0 = .ok (Inertia.make ⟨0, 0, 0⟩ ⟨0, 0, 1⟩ 2) from burner_full 1 0 0 (le_refl _)]
  rfl

theorem part_lower : readPart source3 ⟨0, ⟨0, 0, 0⟩⟩ "Rocket.L.M".toList = .ok ⟨0, none, .motor (burner 0) 1 true⟩ := by
  have k1 : (readR "Rocket.L.M".toList).getFloat "impulseAdjustFactor".toList = .ok 1 := float_one (by decide +kernel)
  have k2 : (readR "Rocket.L.M".toList).getFloat "burnTimeAdjustFactor".toList = .ok 1 := float_one (by decide +kernel)
  have k3 : (readR "Rocket.L.M".toList).text "path".toList = .ok ['m'] := by rw [text_R]; decide +kernel
  unfold readPart
  dsimp only
  rw [dict_source3, text_R, show text "Rocket.L.M".toList "class".toList = .ok "Motor".toList by decide +kernel]
  dsimp only
  rw [show classOf "Motor".toList = .ok .motor by decide +kernel]
  dsimp only
  unfold readMotor
  rw [k1, k2, k3]
  simp only [bind, Except.bind]
  rw [show source3.motorFile ['m'] = .ok (⟨0, 0, 0, 0⟩, curve) from rfl]
  dsimp only
  rw [burner_build]
  dsimp only
  rw [show (burner 0).inertia 0 = .ok (Inertia.make ⟨0, 0, 0⟩ ⟨0, 0, 0⟩ 2) from burner_full 0 0 0 (le_refl _)]
  rfl

theorem part_ballast : readPart source3 ⟨0, ⟨0, 0, 0⟩⟩ "Rocket.L.W".toList = .ok ⟨0, none, .ready (.mass weight)⟩ := by
  have h1 : (readR "Rocket.L.W".toList).getFloat "mass".toList = .ok 5 := float_five (by decide +kernel)
  have h2 : (readR "Rocket.L.W".toList).getVector "position".toList = .ok ⟨0, 0, 0⟩ := vector_zero (by decide +kernel)
  have h3 : (readR "Rocket.L.W".toList).getVector "cg".toList = .ok ⟨0, 0, 0⟩ := vector_zero (by decide +kernel)
  have h4 : (readR "Rocket.L.W".toList).getVector "MOI".toList = .error .keyError := by
    unfold Reader.getVector
    rw [text_R, show text "Rocket.L.W".toList "MOI".toList = .error .keyError by decide +kernel]
  have hz : (⟨0, 0, 0⟩ : V3 ℝ) + ⟨0, 0, 0⟩ = ⟨0, 0, 0⟩ := by apply V3.ext' <;> norm_num
  have hm : fixedMass (readR "Rocket.L.W".toList) ⟨0, 0, 0⟩ = .ok ⟨⟨0, 0, 0⟩, weight⟩ := by
    unfold fixedMass
    rw [h1, h2, h3, h4]
    dsimp only
    rw [hz, hz]
    unfold weight
    norm_num
  unfold readPart
  dsimp only
  rw [dict_source3, text_R, show text "Rocket.L.W".toList "class".toList = .ok "Mass".toList by decide +kernel]
  dsimp only
  rw [show classOf "Mass".toList = .ok .mass by decide +kernel]
  dsimp only
  rw [hm]
  rfl

/-- the upper stage -/
noncomputable def upperRead : StageRead :=
  ⟨⟨⟨0, 0, 1⟩, [⟨1, none, .motor (burner 1) 1 true⟩], ⟨none, none, none⟩⟩, ⟨"None".toList, 0, 0⟩, []⟩

/-- the lower stage -/
noncomputable def lowerRead : StageRead :=
  ⟨⟨⟨0, 0, 0⟩, [⟨0, none, .motor (burner 0) 1 true⟩, ⟨0, none, .ready (.mass weight)⟩], ⟨none, none, none⟩⟩, ⟨"None".toList, 0, 0⟩, []⟩

theorem whole_upper : readWhole source3 0 "Rocket.U".toList = .ok upperRead := by
  have h1 : source3.getInt (readR "Rocket.U".toList) "stageNumber".toList = .ok 1 := by
    unfold Source.getInt
    rw [text_R, show text "Rocket.U".toList "stageNumber".toList = .ok ['1'] by decide +kernel]
    rfl
  have h2 : (readR "Rocket.U".toList).getVector "position".toList = .ok ⟨0, 0, 1⟩ := vector_up (by decide +kernel)
  have h3 : (readR "Rocket.U".toList).text "separationTriggerType".toList = .ok "None".toList := by rw [text_R]; decide +kernel
  have h4 : (readR "Rocket.U".toList).getFloat "separationDelay".toList = .ok 0 := float_zero (by decide +kernel)
  have h5 : (readR "Rocket.U".toList).getFloat "separationTriggerValue".toList = .ok 0 := float_zero (by decide +kernel)
  have h6 : buildOrder (fun p => (readR "Rocket.U".toList).text (p ++ ".class".toList)) (source3.subs "Rocket.U".toList) =
      .ok ["Rocket.U.M".toList] := by
    rw [subs_upper]
    simp only [text_R]
    decide +kernel
  have h7 : stageOverrides (readR "Rocket.U".toList) ⟨0, 0, 1⟩ = .ok (none, none, none) := by
    have a : (readR "Rocket.U".toList).text "constCG".toList = .error .keyError := by rw [text_R]; decide +kernel
    have b : (readR "Rocket.U".toList).text "constMass".toList = .error .keyError := by rw [text_R]; decide +kernel
    have c : (readR "Rocket.U".toList).text "constMOI".toList = .error .keyError := by rw [text_R]; decide +kernel
    unfold stageOverrides Reader.tryGetVector Reader.tryGetFloat Reader.getVector Reader.getFloat
    rw [a, b, c]
    rfl
  have s1 : readStage source3 0 "Rocket.U".toList = .ok upperRead.draft := by
    unfold readStage
    dsimp only
    rw [dict_source3, h1, h2, h3, h4, h5]
    simp only [bind, Except.bind]
    rw [h6]
    simp only [Body.mapE, part_upper, h7]
    rfl
  have s2 : readTrigger source3 "Rocket.U".toList = .ok ⟨"None".toList, 0, 0⟩ := by
    unfold readTrigger
    rw [dict_source3, h3, h4, h5]
    rfl
  have s3 : stageSystems source3 "Rocket.U".toList = .ok [] := by
    unfold stageSystems
    rw [dict_source3, h6]
    simp only [bind, Except.bind, Body.mapE]
    rw [dict_source3, text_R, show text "Rocket.U.M".toList "class".toList = .ok "Motor".toList by decide +kernel]
    dsimp only
    rw [show classOf "Motor".toList = .ok .motor by decide +kernel]
    rfl
  unfold readWhole
  rw [s1, s2, s3]
  rfl

theorem whole_lower : readWhole source3 0 "Rocket.L".toList = .ok lowerRead := by
  have h1 : source3.getInt (readR "Rocket.L".toList) "stageNumber".toList = .ok 0 := by
    unfold Source.getInt
    rw [text_R, show text "Rocket.L".toList "stageNumber".toList = .ok ['0'] by decide +kernel]
    rfl
  have h2 : (readR "Rocket.L".toList).getVector "position".toList = .ok ⟨0, 0, 0⟩ := vector_zero (by decide +kernel)
  have h3 : (readR "Rocket.L".toList).text "separationTriggerType".toList = .ok "None".toList := by rw [text_R]; decide +kernel
  have h4 : (readR "Rocket.L".toList).getFloat "separationDelay".toList = .ok 0 := float_zero (by decide +kernel)
  have h5 : (readR "Rocket.L".toList).getFloat "separationTriggerValue".toList = .ok 0 := float_zero (by decide +kernel)
  have h6 : buildOrder (fun p => (readR "Rocket.L".toList).text (p ++ ".class".toList)) (source3.subs "Rocket.L".toList) =
      .ok ["Rocket.L.M".toList, "Rocket.L.W".toList] := by
    rw [subs_lower]
    simp only [text_R]
    decide +kernel
  have h7 : stageOverrides (readR "Rocket.L".toList) ⟨0, 0, 0⟩ = .ok (none, none, none) := by
    have a : (readR "Rocket.L".toList).text "constCG".toList = .error .keyError := by rw [text_R]; decide +kernel
    have b : (readR "Rocket.L".toList).text "constMass".toList = .error .keyError := by rw [text_R]; decide +kernel
    have c : (readR "Rocket.L".toList).text "constMOI".toList = .error .keyError := by rw [text_R]; decide +kernel
    unfold stageOverrides Reader.tryGetVector Reader.tryGetFloat Reader.getVector Reader.getFloat
    rw [a, b, c]
    rfl
  have s1 : readStage source3 0 "Rocket.L".toList = .ok lowerRead.draft := by
    unfold readStage
    dsimp only
    rw [dict_source3, h1, h2, h3, h4, h5]
    simp only [bind, Except.bind]
    rw [h6]
    simp only [Body.mapE, part_lower, part_ballast, h7]
    rfl
  have s2 : readTrigger source3 "Rocket.L".toList = .ok ⟨"None".toList, 0, 0⟩ := by
    unfold readTrigger
    rw [dict_source3, h3, h4, h5]
    rfl
  have s3 : stageSystems source3 "Rocket.L".toList = .ok [] := by
    unfold stageSystems
    rw [dict_source3, h6]
    simp only [bind, Except.bind, Body.mapE]
    rw [dict_source3, dict_source3, text_R, text_R, show text "Rocket.L.M".toList "class".toList = .ok "Motor".toList by decide +kernel,
      show text "Rocket.L.W".toList "class".toList = .ok "Mass".toList by decide +kernel]
    dsimp only
    rw [show classOf "Motor".toList = .ok .motor by decide +kernel, show classOf "Mass".toList = .ok .mass by decide +kernel]
    rfl
  unfold readWhole
  rw [s1, s2, s3]
  rfl

theorem number_upper : Numbered (readR "Rocket".toList) "Rocket.U".toList 1 := float_one (by decide +kernel)
theorem number_lower : Numbered (readR "Rocket".toList) "Rocket.L".toList 0 := float_zero (by decide +kernel)

theorem numbered_trip3 : NumberedUp source3 := by
  intro a ha b hb x y p q hx hy hp hq hxy
  rw [stages_trip3] at ha hb
  rw [dict_source3] at hx hy hp hq
  have hu : HasVector (readR "Rocket.U".toList) "position" ⟨0, 0, 1⟩ :=
    (Reader.getVector_ok _ _ _).1 (vector_up (by decide +kernel))
  have hl : HasVector (readR "Rocket.L".toList) "position" ⟨0, 0, 0⟩ :=
    (Reader.getVector_ok _ _ _).1 (vector_zero (by decide +kernel))
  have same : ∀ {r : Reader ℝ} {k : String} {u w : V3 ℝ}, HasVector r k u → HasVector r k w → u = w := by
    rintro r k u w ⟨s, h1, h2⟩ ⟨s', h3, h4⟩
    rw [h1] at h3
    obtain rfl := Except.ok.inj h3
    rw [h2] at h4
    exact Except.ok.inj h4
  have num : ∀ {d : Str} {u w : ℝ}, Numbered (readR "Rocket".toList) d u → Numbered (readR "Rocket".toList) d w → u = w := by
    intro d u w h1 h2
    unfold Numbered at h1 h2
    rw [h1] at h2
    exact Except.ok.inj h2
  simp only [List.mem_cons, List.not_mem_nil, or_false] at ha hb
  rcases ha with rfl | rfl <;> rcases hb with rfl | rfl
  · rw [num hx hy] at hxy; exact absurd hxy (lt_irrefl _)
  · rw [num hx number_upper, num hy number_lower] at hxy; norm_num at hxy
  · rw [same hp hl, same hq hu]; norm_num
  · rw [num hx hy] at hxy; exact absurd hxy (lt_irrefl _)

/-- the upper stage in flight -/
noncomputable def upper : LiveStage := ⟨⟨0, 0, 1⟩, ⟨none, none, none⟩, [⟨.motor { burner 1 with ignition := 1000000000 }, none, true⟩], some 1⟩
/-- the lower stage in flight -/
noncomputable def lower : LiveStage :=
  ⟨⟨0, 0, 0⟩, ⟨none, none, none⟩, [⟨.motor (burner 0), none, true⟩, ⟨.mass weight, none, false⟩], some 1⟩

/-- the rocket -/
noncomputable def duo (ph : Phase) : Vessel :=
  { vessel ph with stages := [upper, lower], chutes := [], current := [], events := ⟨[], none, 0, []⟩ }

set_option maxHeartbeats 800000 in
theorem duo_reads (stage : Option Nat) (h : stage = none ∨ stage = some 0) (ph : Phase) : ∃ v, readVessel source3 stage ph = .ok v ∧
    (stage = none → v = duo ph) := by
  have d1 : (readR "Rocket".toList).text ("Rocket.U.M".toList ++ ".class".toList) = .ok "Motor".toList := by
    rw [text_R]; decide +kernel
  have d2 : (readR "Rocket".toList).text ("Rocket.L.M".toList ++ ".class".toList) = .ok "Motor".toList := by
    rw [text_R]; decide +kernel
  have d3 : (readR "Rocket".toList).text ("Rocket.L.W".toList ++ ".class".toList) = .ok "Mass".toList := by
    rw [text_R]; decide +kernel
  have n1 : (readR "Rocket".toList).getFloat ("Rocket.U".toList ++ ".stageNumber".toList) = .ok 1 := number_upper
  have n2 : (readR "Rocket".toList).getFloat ("Rocket.L".toList ++ ".stageNumber".toList) = .ok 0 := number_lower
  have h1 : maxTubeDiameter (readR "Rocket".toList) (source3.subs "Rocket".toList) source3.subs = .ok 0 := by
    unfold maxTubeDiameter
    rw [stages_trip3]
    simp only [List.flatMap_cons, List.flatMap_nil, List.append_nil]
    rw [subs_upper, subs_lower]
    simp only [List.cons_append, List.nil_append, List.foldlM_cons, List.foldlM_nil, tubeStep, d1, d2, d3, bind, Except.bind, pure, Except.pure]
    rw [if_neg (by decide +kernel)]
    dsimp only
    rw [if_neg (by decide +kernel)]
    dsimp only
    rw [if_neg (by decide +kernel)]
  have h2 : getFlag (readR "Rocket".toList) "Aero.addZeroLengthBoatTailsToAccountForBaseDrag".toList = .ok false := by
    unfold getFlag
    rw [text_R]
    decide +kernel
  have h3 : getFlag (readR "Rocket".toList) "Aero.fullyTurbulentBL".toList = .ok true := by
    unfold getFlag
    rw [text_R]
    decide +kernel
  have h4 : (readR "Rocket".toList).getFloat "Aero.surfaceRoughness".toList = .ok 0 := float_zero (by decide +kernel)
  have h5 : getFlag (readR "Rocket".toList) "Environment.turbulenceOffWhenUnderChute".toList = .ok true := by
    unfold getFlag
    rw [text_R]
    decide +kernel
  have h7 : ∀ ss, tailStages 0 0 false ss = .ok ss := by
    intro s
    unfold tailStages
    simp
  rcases h with rfl | rfl
  · have h6 : createStages (readR "Rocket".toList) (readWhole source3 0) (source3.subs "Rocket".toList) none = .ok [upperRead, lowerRead] := by
      unfold createStages
      rw [stages_trip3]
      simp only [bind, Except.bind, buildStages, n1, n2, whole_upper, whole_lower, true_or, if_true]
    have h8 : stagingSubs false [(⟨"None".toList, 0, 0⟩ : Trigger ℝ), ⟨"None".toList, 0, 0⟩] = .ok [] := by
      unfold stagingSubs stagingTriggers
      simp [Body.mapE]
    refine ⟨duo ph, ?_, fun _ => rfl⟩
    unfold readVessel
    dsimp only
    rw [dict_source3, h1, h2, h3, h4, h5]
    simp only [bind, Except.bind]
    rw [h6]
    have ho : orderByZ (fun s : StageRead => s.draft.position.z) ([upperRead, lowerRead].map fun s => { s with draft := s.draft.sorted }) =
        [upperRead, lowerRead] := by
      simp [orderByZ, upperRead, lowerRead, StageDraft.sorted, List.insertionSort, List.orderedInsert]
    dsimp only
    rw [ho]
    simp only [List.map_cons, List.map_nil, h7]
    rw [show upperRead.trigger = ⟨"None".toList, 0, 0⟩ from rfl, show lowerRead.trigger = ⟨"None".toList, 0, 0⟩ from rfl]
    simp only [Option.isSome_none, h8]
    simp [upperRead, lowerRead, waitStages, StageDraft.wait, StageDraft.motor, Draft.wait, StageDraft.finish, Body.mapE, DraftKind.finish, bind,
      Except.bind, finenessRatio, stageMaxDiameter, liveStage, duo, vessel, upper, lower]
  · have h6 : createStages (readR "Rocket".toList) (readWhole source3 0) (source3.subs "Rocket".toList) (some 0) = .ok [lowerRead] := by
      unfold createStages stageNumbers
      rw [stages_trip3]
      have hw := whole_lower
      generalize readWhole source3 0 = f at hw ⊢
      generalize readR "Rocket".toList = r at n1 n2 ⊢
      generalize "Rocket.L".toList = b at hw n2 ⊢
      generalize "Rocket.U".toList = a at n1 ⊢
      simp only [List.mapM_cons, List.mapM_nil, bind, Except.bind, pure, Except.pure, n1, n2, buildStages, hw]
      have hs : ([1, 0] : List ℝ).insertionSort (· ≤ ·) = [0, 1] := by simp [List.insertionSort, List.orderedInsert]
      rw [hs]
      simp
    have h8 : stagingSubs true [(⟨"None".toList, 0, 0⟩ : Trigger ℝ)] = .ok [] := by
      unfold stagingSubs stagingTriggers
      simp [Body.mapE]
    unfold readVessel
    dsimp only
    rw [dict_source3, h1, h2, h3, h4, h5]
    simp only [bind, Except.bind]
    rw [h6]
    have ho : orderByZ (fun s : StageRead => s.draft.position.z) ([lowerRead].map fun s => { s with draft := s.draft.sorted }) =
        [lowerRead] := by
      simp [orderByZ, lowerRead, StageDraft.sorted, List.insertionSort, List.orderedInsert]
    dsimp only
    rw [ho]
    simp only [List.map_cons, List.map_nil, h7]
    rw [show lowerRead.trigger = ⟨"None".toList, 0, 0⟩ from rfl]
    simp only [Option.isSome_some, h8]
    simp [lowerRead, burnStages, StageDraft.motor, Draft.relit, StageDraft.finish, Body.mapE, DraftKind.finish, bind,
      Except.bind, finenessRatio, stageMaxDiameter]

theorem duo_separate (ph : Phase) : ∃ v' d, (duo ph).separate { setup with src := source3 } = .ok (v', [d]) := by
  obtain ⟨d, hd, -⟩ := duo_reads (some 0) (Or.inr rfl) ph.copy
  unfold Vessel.separate
  rw [show (duo ph).dropIndex = 0 from rfl, show (duo ph).phase = ph from rfl]
  simp only [setup, if_true, hd, Except.map, bind, Except.bind]
  simp [duo, vessel, upper, LiveStage.ignite, LiveStage.motor, tailLive, burner, finenessRatio, stageMaxDiameter, Item.lit]

theorem upper_inertia (t : ℝ) (h : t ≤ 1000000000) : upper.stageP.inertia t = .ok (Inertia.make ⟨0, 0, 0⟩ ⟨0, 0, 1⟩ 2) := by
  have := burner_full 1 1000000000 t h
  unfold StageP.inertia LiveStage.stageP upper
  simp only [List.map_cons, List.map_nil, List.filterMap_cons, List.filterMap_nil, Part.fixed, fixedTotal, bind, Except.bind, Body.mapE,
    Part.variable, this, Except.map, id]
  simp [Inertia.make, Inertia.combine, Inertia.withSelf, Inertia.definedAboutCG, Inertia.addMass, Inertia.addMOI, Inertia.axisDistSq, applyOverrides]
  apply V3.ext' <;> simp

theorem burner_spent (t : ℝ) (h : 1 ≤ t) : Motor.Spent (burner 0) t ∧ Motor.Spent { burner 0 with ignition := -1000000000 } t := by
  refine ⟨⟨by simp [burner], 1, rfl, ?_⟩, by simp [burner], 1, rfl, ?_⟩
  · simpa [burner] using h
  · dsimp only
    linarith

theorem burner_empty (t : ℝ) (h : 1 ≤ t) : ∃ i, (burner 0).inertia t = .ok i ∧ i.mass = 0 ∧ i.about = i.cg := by
  obtain ⟨i, h1, h2⟩ := spent_mass (burner_build 0) (u := 0) (burner_spent t h).1
  refine ⟨i, h1, h2, ?_⟩
  change (burner 0).inertia t = .ok i at h1
  unfold Motor.inertia at h1
  dsimp only at h1
  split at h1
  · cases h1
  split at h1
  · cases h1
  exact combine_about h1

theorem weight_alone : weight.combine [weight] = .ok weight := by
  have e : Inertia.withSelf weight [weight] = [weight] := by unfold Inertia.withSelf; rw [if_pos (by simp)]
  unfold Inertia.combine
  rw [e]
  have hm : weight.mass = 5 := rfl
  have hc : weight.cg = ⟨0, 0, 0⟩ := rfl
  have ha : weight.about = weight.cg := rfl
  have hb : [weight].foldl Inertia.addMass ((0 : ℝ), (0 : V3 ℝ)) = (5, 0) := by
    simp only [List.foldl_cons, List.foldl_nil, Inertia.addMass, hm, hc]
    congr 1
    · norm_num
    · apply V3.ext' <;> simp
  dsimp only
  rw [hb, if_pos (by simp [Inertia.definedAboutCG, ha])]
  dsimp only
  rw [if_pos (by norm_num), smul_zero]
  simp [weight, Inertia.make, Inertia.addMOI, Inertia.axisDistSq]
  refine ⟨?_, ?_⟩ <;> rfl

/-- the lower stage with a motor `m` -/
noncomputable def lowerWith (m : Motor ℝ) : LiveStage :=
  ⟨⟨0, 0, 0⟩, ⟨none, none, none⟩, [⟨.motor m, none, true⟩, ⟨.mass weight, none, false⟩], some 1⟩

theorem lowerWith_inertia {m : Motor ℝ} {t : ℝ} {i : Inertia ℝ} (h1 : m.inertia t = .ok i) (h2 : 0 ≤ i.mass) (h3 : i.about = i.cg) :
    ∃ j, (lowerWith m).stageP.inertia t = .ok j ∧ Inertia.IsTotal [weight, i] j := by
  obtain ⟨r, r1, r2⟩ := (Inertia.combine_partial weight [weight, i] (by
    intro x hx
    simp only [List.mem_cons, List.not_mem_nil, or_false] at hx
    rcases hx with rfl | rfl | rfl
    exacts [rfl, rfl, h3]) (by
    intro x hx
    simp only [List.mem_cons, List.not_mem_nil, or_false] at hx
    rcases hx with rfl | rfl | rfl
    · simp [weight, Inertia.make]
    · simp [weight, Inertia.make]
    · exact h2)).2 (by simp)
  refine ⟨r, ?_, r2⟩
  unfold StageP.inertia LiveStage.stageP lowerWith
  simp only [List.map_cons, List.map_nil, List.filterMap_cons, List.filterMap_nil, Part.fixed, fixedTotal, weight_alone, bind, Except.bind,
    Body.mapE, Part.variable, h1, Except.map, id, r1]
  rfl

theorem lower_inertia (t : ℝ) (h : 1 ≤ t) : ∃ j, lower.stageP.inertia t = .ok j ∧ j.mass = 5 ∧ j.about = j.cg ∧ j.cg = ⟨0, 0, 0⟩ := by
  obtain ⟨i, h1, h2, h3⟩ := burner_empty t h
  obtain ⟨r, r1, r2⟩ := lowerWith_inertia h1 h2.ge h3
  refine ⟨r, r1, ?_, r2.2.2.2, ?_⟩
  · rw [r2.1]; simp [h2, weight, Inertia.make]
  · have hm : r.mass = 5 := by rw [r2.1]; simp [h2, weight, Inertia.make]
    have := r2.2.1
    rw [hm] at this
    simp only [List.map_cons, List.map_nil, List.sum_cons, List.sum_nil, h2, zero_smul, add_zero] at this
    have e : (5 : ℝ) • r.cg = (5 : ℝ) • (⟨0, 0, 0⟩ : V3 ℝ) := by rw [this]; rfl
    apply V3.ext'
    · have := congrArg V3.x e; simpa using this
    · have := congrArg V3.y e; simpa using this
    · have := congrArg V3.z e; simpa using this

theorem duo_heavy (ph : Phase) (t : ℝ) (h : 1 ≤ t) (h' : t ≤ 1000000000) : (duo ph).craft.Heavy t := by
  intro s hs j hj
  obtain ⟨l, l1, l2, -⟩ := lower_inertia t h
  simp only [Vessel.craft, duo, List.map_cons, List.map_nil, List.mem_cons, List.not_mem_nil, or_false] at hs
  rcases hs with rfl | rfl
  · rw [upper_inertia t h'] at hj
    rw [← Except.ok.inj hj]
    simp [Inertia.make]
  · rw [l1] at hj
    rw [← Except.ok.inj hj, l2]
    norm_num

theorem duo_inertia (ph : Phase) (t : ℝ) (h : 1 ≤ t) (h' : t ≤ 1000000000) : ∃ i, (duo ph).craft.inertia t = .ok i ∧ i.mass = 7 := by
  obtain ⟨l, l1, l2, l3, -⟩ := lower_inertia t h
  obtain ⟨i, i1, i2⟩ := craft_inertia_ok (c := (duo ph).craft) (t := t) (vs := [Inertia.make ⟨0, 0, 0⟩ ⟨0, 0, 1⟩ 2, l])
    ((mapE_forall2 _ _ _).2 (.cons (upper_inertia t h') (.cons l1 .nil))) (by
      intro x hx
      simp only [List.mem_cons, List.not_mem_nil, or_false] at hx
      rcases hx with rfl | rfl
      · simp [Inertia.make]
      · rw [l2]; exact ⟨l3, by norm_num⟩)
  refine ⟨i, i1, ?_⟩
  rw [i2.1]
  simp only [List.map_cons, List.map_nil, List.sum_cons, List.sum_nil, l2]
  norm_num [Inertia.make]

theorem duo_unlit (ph : Phase) (t : ℝ) (h : t ≤ 1000000000) : ∀ s, (duo ph).stages.head? = some s → s.Unlit t := by
  intro s hs
  obtain rfl : upper = s := Option.some.inj hs
  rintro i hi - m hm
  simp only [upper, List.mem_singleton] at hi
  subst hi
  obtain rfl := Part.motor.inj hm
  exact h

theorem duo_burned (ph : Phase) (t : ℝ) (h : 1 ≤ t) : ∀ s, (duo ph).stages.getLast? = some s → s.BurnedOut t := by
  intro s hs
  obtain rfl : lower = s := Option.some.inj hs
  intro i hi hmain m hm
  simp only [lower, List.mem_cons, List.not_mem_nil, or_false] at hi
  rcases hi with rfl | rfl
  · obtain rfl := Part.motor.inj hm
    exact burner_spent t h
  · cases hm

/-- the hypotheses of `separation_conserves_partial`: the rocket of 7 kg comes apart five seconds after launch -/
example (w : InFlight) (hw : w.time = 5) : ∃ v' d i' k, (duo (.six w)).separate { setup with src := source3 } = .ok (v', [d]) ∧
    v'.craft.inertia v'.phase.time = .ok i' ∧ d.craft.inertia d.phase.time = .ok k ∧ i'.mass + k.mass = 7 := by
  obtain ⟨v', d, h⟩ := duo_separate (.six w)
  have ht : (duo (.six w)).phase.time = 5 := hw
  obtain ⟨i, i1, i2⟩ := duo_inertia (.six w) 5 (by norm_num) (by norm_num)
  obtain ⟨v0, r1, r2⟩ := duo_reads none (Or.inl rfl) (.six w)
  obtain rfl := r2 rfl
  obtain ⟨d', i', k, e1, e2, e3, e4, -⟩ := separation_conserves_partial (P := { setup with src := source3 }) r1 numbered_trip3 rfl rfl rfl h
    (by rw [ht]; exact i1) (by rw [ht]; exact duo_heavy _ 5 (by norm_num) (by norm_num)) (by rw [ht]; exact duo_unlit _ 5 (by norm_num))
    (by rw [ht]; exact duo_burned _ 5 (by norm_num))
  obtain rfl : d = d' := by simpa using e1
  exact ⟨v', d, i', k, h, e2, e3, by rw [← e4, i2]⟩

/-- the hypotheses of `separation_place_violated`: spinning about a transverse axis, the rocket loses angular momentum -/
example (w : InFlight) (hw : w.time = 5) (hspin : w.state.angVel.x = 3) : ∃ v' d i i' j,
    (duo (.six w)).separate { setup with src := source3 } = .ok (v', [d]) ∧ (duo (.six w)).craft.inertia 5 = .ok i ∧
    v'.craft.inertia 5 = .ok i' ∧ lower.stageP.inertia 5 = .ok j ∧ d.phase.pos = v'.phase.pos ∧
    i.moi.x * 3 ≠ i'.moi.x * 3 + j.moi.x * 3 ∧ 0 < (i.cg - i'.cg).length := by
  obtain ⟨v', d, h⟩ := duo_separate (.six w)
  have ht : (duo (.six w)).phase.time = 5 := hw
  obtain ⟨i, i1, i2⟩ := duo_inertia (.six w) 5 (by norm_num) (by norm_num)
  obtain ⟨l, l1, l2, -, l4⟩ := lower_inertia 5 (by norm_num)
  have hu := duo_unlit (.six w) 5 (by norm_num)
  have hh := duo_heavy (.six w) 5 (by norm_num) (by norm_num)
  obtain ⟨d', low, i', j, e1, e2, e3, e4, e5, e6, e7, -, -, e8⟩ := separation_place_violated (P := { setup with src := source3 }) rfl h rfl
    (by rw [ht]; exact i1) (by rw [ht]; exact hh) (by rw [i2]; norm_num) (by rw [ht]; exact hu)
  obtain ⟨low', j1, j2, f1, f2, f3, f4, f5, -, -, -, -⟩ := separation_inertia h (by rw [ht]; exact i1) (by rw [ht]; exact hh) (by rw [ht]; exact hu)
  obtain rfl : d = d' := by simpa using e1
  obtain rfl : lower = low := Option.some.inj e2
  obtain rfl : lower = low' := Option.some.inj f1
  rw [ht] at e3 f2 f3
  have ht' : v'.phase.time = 5 := by rw [e7]; exact hw
  rw [ht'] at e4
  obtain rfl := Except.ok.inj (f2.symm.trans e4)
  obtain rfl := Except.ok.inj (l1.symm.trans e3)
  obtain rfl := Except.ok.inj (l1.symm.trans f3)
  have hm : j1.mass = 2 := by linarith
  have hi : i.mass • i.cg = (2 : ℝ) • (⟨0, 0, 1⟩ : V3 ℝ) := by
    obtain ⟨vs, g1, -, g3⟩ := craft_total i1 hh
    have : vs = [Inertia.make ⟨0, 0, 0⟩ ⟨0, 0, 1⟩ 2, l] :=
      Except.ok.inj (g1.symm.trans ((mapE_forall2 _ _ _).2 (.cons (upper_inertia 5 (by norm_num)) (.cons l1 .nil))))
    rw [g3.2.1, this]
    simp only [List.map_cons, List.map_nil, List.sum_cons, List.sum_nil, l4, Inertia.make]
    apply V3.ext' <;> simp
  have hz : j1.cg.z = 1 := by
    have := congrArg V3.z (f5.symm.trans hi)
    simp only [V3.add_z, V3.smul_z, hm, l4] at this
    linarith
  obtain ⟨a, b⟩ := e8 (by rw [hm]; norm_num) (by rw [l2]; norm_num) (by rw [hz, l4]; norm_num) (by
    rw [hspin]; norm_num)
  rw [hspin] at a
  exact ⟨v', d, i, j1, l, h, i1, e4, l1, e5, a, b⟩

/-- the hypotheses of `unburnt_violated`: dropped before its motor was lit, the lower stage loses the 2 kg of its fuel -/
example : ∃ j k, lower.stageP.inertia 0 = .ok j ∧ (lowerWith { burner 0 with ignition := -1000000000 }).stageP.inertia 0 = .ok k ∧
    j.mass = k.mass + 2 := by
  have hf := burner_full 0 0 0 (le_refl _)
  have hsp : Motor.Spent { burner 0 with ignition := -1000000000 } 0 := by
    refine ⟨by simp [burner], 1, rfl, ?_⟩
    dsimp only
    norm_num
  obtain ⟨e, e1, e2⟩ := spent_mass (burner_build 0) hsp
  have e3 : e.about = e.cg := by
    unfold Motor.inertia at e1
    dsimp only at e1
    split at e1
    · cases e1
    split at e1
    · cases e1
    exact combine_about e1
  obtain ⟨j, hj, -⟩ := lowerWith_inertia (m := burner 0) hf (by simp [Inertia.make]) rfl
  obtain ⟨k, hk, -⟩ := lowerWith_inertia e1 e2.ge e3
  refine ⟨j, k, hj, hk, ?_⟩
  have := unburnt_violated (burner_build 0) (ign := 0) (low := lower) (xs := []) (ys := [⟨.mass weight, none, false⟩]) (body := none) (t := 0) rfl
    (by simp) (dl := lowerWith { burner 0 with ignition := -1000000000 })
    (.cons ⟨rfl, rfl, fun _ => ⟨_, rfl, rfl⟩, fun h => by cases h⟩ (.cons ⟨rfl, rfl, (fun h => by cases h), fun _ _ => ⟨rfl, rfl⟩⟩ .nil)) rfl rfl
    (by
      intro i hi q hq
      simp only [lower, List.mem_cons, List.not_mem_nil, or_false] at hi
      rcases hi with rfl | rfl
      · rcases hq with hq | ⟨-, hq⟩
        · cases hq
        · change ((burner 0).inertia 0).map some = _ at hq
          rw [show (burner 0).inertia 0 = _ from hf] at hq
          rw [← Option.some.inj (Except.ok.inj hq)]
          simp [Inertia.make]
      · rcases hq with hq | ⟨hq, -⟩
        · rw [← Option.some.inj hq]; simp [weight, Inertia.make]
        · cases hq)
    hsp hj hk hf
  simpa [Inertia.make] using this

end Mapleaf.Rocket.Trip
