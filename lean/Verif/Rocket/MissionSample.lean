import Verif.Rocket.MissionLandProps
import Verif.Rocket.BuildExample
import Verif.Rocket.AscentSample

/-!
# C99: a definition that is flown

One stage with a recovery system whose parachute opens at once, read with a toy `float`, and flown to its end time.
-/

namespace Mapleaf.Rocket.Trip
open Mapleaf.Motion V3 ENV
open Mapleaf.Motion.Stepper (RBDeriv3)
open Toy (digit)
open Ascent (z3 idq_rotate start)

/-- the entries, by full path -/
def entries : List (String × String) :=
  [("Rocket.Aero.addZeroLengthBoatTailsToAccountForBaseDrag", "False"), ("Rocket.Aero.fullyTurbulentBL", "True"),
   ("Rocket.Aero.surfaceRoughness", "0"), ("Environment.turbulenceOffWhenUnderChute", "True"),
   ("Rocket.P.stageNumber", "0"), ("Rocket.P.position", "(0 0 0)"),
   ("Rocket.P.separationTriggerType", "None"), ("Rocket.P.separationDelay", "0"), ("Rocket.P.separationTriggerValue", "0"),
   ("Rocket.P.R.class", "RecoverySystem"), ("Rocket.P.R.mass", "5"), ("Rocket.P.R.position", "(0 0 0)"), ("Rocket.P.R.cg", "(0 0 0)"),
   ("Rocket.P.R.numStages", "1"), ("Rocket.P.R.stage1Trigger", "Time"),
   ("Rocket.P.R.stage1TriggerValue", "0"), ("Rocket.P.R.stage1ChuteArea", "2"), ("Rocket.P.R.stage1Cd", "1"),
   ("Rocket.P.R.stage1DelayTime", "0"),
   ("Rocket.Q.stageNumber", "0"), ("Rocket.Q.position", "(0 0 0)"),
   ("Rocket.Q.separationTriggerType", "None"), ("Rocket.Q.separationDelay", "0"), ("Rocket.Q.separationTriggerValue", "0"),
   ("Rocket.Q.M.class", "Motor"), ("Rocket.Q.M.impulseAdjustFactor", "1"), ("Rocket.Q.M.burnTimeAdjustFactor", "1"),
   ("Rocket.Q.M.path", "m"),
   ("Rocket.U.stageNumber", "1"), ("Rocket.U.position", "(0 0 1)"),
   ("Rocket.U.separationTriggerType", "None"), ("Rocket.U.separationDelay", "0"), ("Rocket.U.separationTriggerValue", "0"),
   ("Rocket.U.M.class", "Motor"), ("Rocket.U.M.impulseAdjustFactor", "1"), ("Rocket.U.M.burnTimeAdjustFactor", "1"),
   ("Rocket.U.M.path", "m"),
   ("Rocket.L.stageNumber", "0"), ("Rocket.L.position", "(0 0 0)"),
   ("Rocket.L.separationTriggerType", "None"), ("Rocket.L.separationDelay", "0"), ("Rocket.L.separationTriggerValue", "0"),
   ("Rocket.L.M.class", "Motor"), ("Rocket.L.M.impulseAdjustFactor", "1"), ("Rocket.L.M.burnTimeAdjustFactor", "1"),
   ("Rocket.L.M.path", "m"),
   ("Rocket.L.W.class", "Mass"), ("Rocket.L.W.mass", "5"), ("Rocket.L.W.position", "(0 0 0)"), ("Rocket.L.W.cg", "(0 0 0)")]

/-- looking up a key in a dictionary, or by its full path -/
def text (path key : Str) : Except PyErr Str :=
  match entries.find? (fun p => p.1.toList == path ++ ['.'] ++ key || p.1.toList == key) with
  | some p => .ok p.2.toList
  | none => .error .keyError

/-- a reader -/
noncomputable def readR (path : Str) : Reader ℝ := ⟨text path, fun s => (digit s).map (fun x : ℚ => (x : ℝ))⟩

theorem text_R (path key : Str) : (readR path).text key = text path key := rfl

theorem float_of {path : Str} {key : Str} {s : Str} {x : ℚ} (h : text path key = .ok s) (hd : digit s = some x) :
    (readR path).getFloat key = .ok (x : ℝ) := by
  refine (Reader.getFloat_ok _ _ _).2 ⟨s, h, ?_⟩
  show (digit s).map _ = _
  rw [hd]; rfl

theorem float_zero {path key : Str} (h : text path key = .ok ['0']) : (readR path).getFloat key = .ok 0 := by
  rw [float_of h (x := 0) (by decide +kernel)]; simp

theorem float_five {path key : Str} (h : text path key = .ok ['5']) : (readR path).getFloat key = .ok 5 := by
  rw [float_of h (x := 5) (by decide +kernel)]; simp

theorem float_one {path key : Str} (h : text path key = .ok ['1']) : (readR path).getFloat key = .ok 1 := by
  rw [float_of h (x := 1) (by decide +kernel)]; simp

theorem float_two {path key : Str} (h : text path key = .ok ['2']) : (readR path).getFloat key = .ok 2 := by
  rw [float_of h (x := 2) (by decide +kernel)]; simp

theorem vector_zero {path key : Str} (h : text path key = .ok "(0 0 0)".toList) : (readR path).getVector key = .ok ⟨0, 0, 0⟩ := by
  unfold Reader.getVector
  rw [text_R, h]
  dsimp only
  unfold parseVector
  rw [show dropBrackets "(0 0 0)".toList = .ok "0 0 0".toList by decide +kernel]
  dsimp only
  rw [show splitComponents "0 0 0".toList = [['0'], ['0'], ['0']] by decide +kernel]
  dsimp only
  rw [show (readR path).float ['0'] = some 0 by
    show (digit ['0']).map _ = _
    rw [show digit ['0'] = some 0 by decide +kernel]; simp]

theorem vector_up {path key : Str} (h : text path key = .ok "(0 0 1)".toList) : (readR path).getVector key = .ok ⟨0, 0, 1⟩ := by
  unfold Reader.getVector
  rw [text_R, h]
  dsimp only
  unfold parseVector
  rw [show dropBrackets "(0 0 1)".toList = .ok "0 0 1".toList by decide +kernel]
  dsimp only
  rw [show splitComponents "0 0 1".toList = [['0'], ['0'], ['1']] by decide +kernel]
  dsimp only
  rw [show (readR path).float ['0'] = some 0 by
    show (digit ['0']).map _ = _
    rw [show digit ['0'] = some 0 by decide +kernel]; simp]
  rw [show (readR path).float ['1'] = some 1 by
    show (digit ['1']).map _ = _
    rw [show digit ['1'] = some 1 by decide +kernel]; simp]

/-- the definition -/
noncomputable def source : Source where
  dict := readR
  int s := if s = ['0'] then some 0 else if s = ['1'] then some 1 else none
  subs path := if path = "Rocket".toList then ["Rocket.P".toList, "Rocket.Aero".toList]
    else if path = "Rocket.P".toList then ["Rocket.P.R".toList] else []
  motorFile _ := .error .fileNotFound
  inertiaFile _ := .error .fileNotFound
  launchRe := 0
  cpSolve _ _ := 0

theorem dict_source (path : Str) : source.dict path = readR path := rfl
theorem subs_rocket : source.subs "Rocket".toList = ["Rocket.P".toList, "Rocket.Aero".toList] := rfl
theorem subs_stage : source.subs "Rocket.P".toList = ["Rocket.P.R".toList] := by
  have h : "Rocket.P".toList ≠ "Rocket".toList := by decide +kernel
  simp only [source, if_neg h, if_true]
theorem stages_trip : stageDicts (source.subs "Rocket".toList) = ["Rocket.P".toList] := by
  rw [subs_rocket]; decide +kernel

/-- the inertia of the recovery system -/
noncomputable def weight : Inertia ℝ := Inertia.make ⟨1 / 20, 1 / 20, 1 / 20⟩ ⟨0, 0, 0⟩ 5

theorem mass_trip : fixedMass (readR "Rocket.P.R".toList) ⟨0, 0, 0⟩ = .ok ⟨⟨0, 0, 0⟩, weight⟩ := by
  have h1 : (readR "Rocket.P.R".toList).getFloat "mass".toList = .ok 5 := float_five (by decide +kernel)
  have h2 : (readR "Rocket.P.R".toList).getVector "position".toList = .ok ⟨0, 0, 0⟩ := vector_zero (by decide +kernel)
  have h3 : (readR "Rocket.P.R".toList).getVector "cg".toList = .ok ⟨0, 0, 0⟩ := vector_zero (by decide +kernel)
  have h4 : (readR "Rocket.P.R".toList).getVector "MOI".toList = .error .keyError := by
    unfold Reader.getVector
    rw [text_R, show text "Rocket.P.R".toList "MOI".toList = .error .keyError by decide +kernel]
  have hz : (⟨0, 0, 0⟩ : V3 ℝ) + ⟨0, 0, 0⟩ = ⟨0, 0, 0⟩ := by apply V3.ext' <;> norm_num
  unfold fixedMass
  rw [h1, h2, h3, h4]
  dsimp only
  rw [hz, hz]
  unfold weight
  norm_num

/-- its parachute -/
noncomputable def chute : Chute ℝ := ⟨"Time", some 0, 2, 1, 0⟩

theorem chutes_trip : readChutes (readR "Rocket.P.R".toList) 1 1 = .ok [chute] := by
  have k1 : (readR "Rocket.P.R".toList).text ("stage" ++ toString 1 ++ "Trigger").toList = .ok "Time".toList := by
    rw [text_R]; decide +kernel
  have k2 : (readR "Rocket.P.R".toList).tryGetFloat ("stage" ++ toString 1 ++ "TriggerValue").toList = .ok (some 0) := by
    have := float_zero (path := "Rocket.P.R".toList) (key := ("stage" ++ toString 1 ++ "TriggerValue").toList) (by decide +kernel)
    unfold Reader.tryGetFloat
    rw [this]
  have k3 : (readR "Rocket.P.R".toList).getFloat ("stage" ++ toString 1 ++ "ChuteArea").toList = .ok 2 := float_two (by decide +kernel)
  have k4 : (readR "Rocket.P.R".toList).getFloat ("stage" ++ toString 1 ++ "Cd").toList = .ok 1 := float_one (by decide +kernel)
  have k5 : (readR "Rocket.P.R".toList).getFloat ("stage" ++ toString 1 ++ "DelayTime").toList = .ok 0 := float_zero (by decide +kernel)
  unfold readChutes
  dsimp only
  rw [k1, k2, k3, k4, k5]
  simp only [bind, Except.bind, readChutes]
  rw [show String.ofList "Time".toList = "Time" by decide +kernel]
  rfl

theorem num_trip : source.getInt (readR "Rocket.P.R".toList) "numStages".toList = .ok 1 := by
  unfold Source.getInt
  rw [text_R, show text "Rocket.P.R".toList "numStages".toList = .ok ['1'] by decide +kernel]
  rfl

theorem text_class : text "Rocket.P.R".toList "class".toList = .ok "RecoverySystem".toList := by decide +kernel

/-- how the recovery system is drafted -/
noncomputable def draft : Draft := ⟨0, none, .ready (.recovery weight)⟩

theorem kind_time (v : ℝ) : triggerKind "Time" (some v) = .ok (.timeReached v) := by
  unfold triggerKind
  simp

theorem part_trip : readPart source ⟨0, ⟨0, 0, 0⟩⟩ "Rocket.P.R".toList = .ok draft := by
  unfold readPart
  dsimp only
  rw [dict_source, text_R, text_class]
  dsimp only
  rw [show classOf "RecoverySystem".toList = .ok .recovery by decide +kernel]
  dsimp only
  unfold readRecovery
  rw [mass_trip, num_trip]
  simp only [bind, Except.bind]
  rw [show (1 : ℤ).toNat = 1 from rfl, chutes_trip]
  dsimp only
  have : ∃ r, initRecovery [chute] () = .ok r := by
    unfold initRecovery deployNext
    simp [chute, kind_time]
  obtain ⟨r, hr⟩ := this
  rw [hr]
  rfl

theorem stage_trip : readStage source 0 "Rocket.P".toList = .ok ⟨⟨0, 0, 0⟩, [draft], ⟨none, none, none⟩⟩ := by
  have h1 : source.getInt (readR "Rocket.P".toList) "stageNumber".toList = .ok 0 := by
    unfold Source.getInt
    rw [text_R, show text "Rocket.P".toList "stageNumber".toList = .ok ['0'] by decide +kernel]
    rfl
  have h2 : (readR "Rocket.P".toList).getVector "position".toList = .ok ⟨0, 0, 0⟩ := vector_zero (by decide +kernel)
  have h3 : (readR "Rocket.P".toList).text "separationTriggerType".toList = .ok "None".toList := by rw [text_R]; decide +kernel
  have h4 : (readR "Rocket.P".toList).getFloat "separationDelay".toList = .ok 0 := float_zero (by decide +kernel)
  have h5 : (readR "Rocket.P".toList).getFloat "separationTriggerValue".toList = .ok 0 := float_zero (by decide +kernel)
  have h6 : buildOrder (fun p => (readR "Rocket.P".toList).text (p ++ ".class".toList)) (source.subs "Rocket.P".toList) =
      .ok ["Rocket.P.R".toList] := by
    rw [subs_stage]
    simp only [text_R]
    decide +kernel
  have h7 : stageOverrides (readR "Rocket.P".toList) ⟨0, 0, 0⟩ = .ok (none, none, none) := by
    have a : (readR "Rocket.P".toList).text "constCG".toList = .error .keyError := by rw [text_R]; decide +kernel
    have b : (readR "Rocket.P".toList).text "constMass".toList = .error .keyError := by rw [text_R]; decide +kernel
    have c : (readR "Rocket.P".toList).text "constMOI".toList = .error .keyError := by rw [text_R]; decide +kernel
    unfold stageOverrides Reader.tryGetVector Reader.tryGetFloat Reader.getVector Reader.getFloat
    rw [a, b, c]
    rfl
  unfold readStage
  dsimp only
  rw [dict_source, h1, h2, h3, h4, h5]
  simp only [bind, Except.bind]
  rw [h6]
  simp only [Body.mapE, part_trip, h7]
  rfl

theorem whole_trip : readWhole source 0 "Rocket.P".toList =
    .ok ⟨⟨⟨0, 0, 0⟩, [draft], ⟨none, none, none⟩⟩, ⟨"None".toList, 0, 0⟩, [[chute]]⟩ := by
  have h1 : readTrigger source "Rocket.P".toList = .ok ⟨"None".toList, 0, 0⟩ := by
    have h3 : (readR "Rocket.P".toList).text "separationTriggerType".toList = .ok "None".toList := by rw [text_R]; decide +kernel
    have h4 : (readR "Rocket.P".toList).getFloat "separationDelay".toList = .ok 0 := float_zero (by decide +kernel)
    have h5 : (readR "Rocket.P".toList).getFloat "separationTriggerValue".toList = .ok 0 := float_zero (by decide +kernel)
    unfold readTrigger
    rw [dict_source, h3, h4, h5]
    rfl
  have h2 : stageSystems source "Rocket.P".toList = .ok [[chute]] := by
    have h6 : buildOrder (fun p => (readR "Rocket.P".toList).text (p ++ ".class".toList)) (source.subs "Rocket.P".toList) =
        .ok ["Rocket.P.R".toList] := by
      rw [subs_stage]
      simp only [text_R]
      decide +kernel
    unfold stageSystems
    rw [dict_source, h6]
    simp only [bind, Except.bind, Body.mapE]
    rw [dict_source, text_R, text_class]
    dsimp only
    rw [show classOf "RecoverySystem".toList = .ok .recovery by decide +kernel]
    dsimp only
    unfold readSystem
    rw [num_trip]
    simp only [bind, Except.bind]
    rw [show (1 : ℤ).toNat = 1 from rfl, chutes_trip]
    rfl
  unfold readWhole
  rw [stage_trip, h1, h2]
  rfl

/-- the rocket that is read -/
noncomputable def vessel (ph : Phase) : Vessel where
  ship := ⟨0, none, true⟩
  stages := [⟨⟨0, 0, 0⟩, ⟨none, none, none⟩, [⟨.recovery weight, none, false⟩], none⟩]
  diameter := 0
  roughness := 0
  addTails := false
  quietChute := true
  chutes := [[chute]]
  current := [0]
  underChute := false
  mainTime := none
  phase := ph
  events := ⟨[⟨.timeReached 0, 1, 0, 0⟩], none, 1, []⟩
  dropIndex := 0

/-- **C99.** The definition can be read. -/
theorem vessel_trip (ph : Phase) : readVessel source none ph = .ok (vessel ph) := by
  have d1 : (readR "Rocket".toList).text ("Rocket.P.R".toList ++ ".class".toList) = .ok "RecoverySystem".toList := by
    rw [text_R]; decide +kernel
  have d4 : (readR "Rocket".toList).getFloat ("Rocket.P".toList ++ ".stageNumber".toList) = .ok 0 := float_zero (by decide +kernel)
  have h1 : maxTubeDiameter (readR "Rocket".toList) (source.subs "Rocket".toList) source.subs = .ok 0 := by
    unfold maxTubeDiameter
    rw [stages_trip]
    simp only [List.flatMap_cons, List.flatMap_nil, List.append_nil]
    rw [subs_stage]
    simp only [List.foldlM_cons, List.foldlM_nil, tubeStep, d1, bind, Except.bind, pure, Except.pure]
    rw [if_neg (by decide +kernel)]
  have h2 : getFlag (readR "Rocket".toList) "Aero.addZeroLengthBoatTailsToAccountForBaseDrag".toList = .ok false := by
    unfold getFlag
    rw [text_R]
    decide +kernel
  have h3 : getFlag (readR "Rocket".toList) "Aero.fullyTurbulentBL".toList = .ok true := by
    unfold getFlag
    rw [text_R]
    decide +kernel
  have h4 : (readR "Rocket".toList).getFloat "Aero.surfaceRoughness".toList = .ok 0 := float_zero (by decide +kernel)
  have h5 : getFlag (readR "Rocket".toList) "Environment.turbulenceOffWhenUnderChute".toList = .ok true := by
    unfold getFlag
    rw [text_R]
    decide +kernel
  have h6 : createStages (readR "Rocket".toList) (readWhole source 0) (source.subs "Rocket".toList) none =
      .ok [⟨⟨⟨0, 0, 0⟩, [draft], ⟨none, none, none⟩⟩, ⟨"None".toList, 0, 0⟩, [[chute]]⟩] := by
    unfold createStages
    rw [stages_trip]
    simp only [bind, Except.bind, buildStages, d4, whole_trip, true_or, if_true]
  have h7 : ∀ s, tailStages 0 0 false [s] = .ok [s] := by
    intro s
    unfold tailStages
    simp
  have h8 : stagingSubs false [(⟨"None".toList, 0, 0⟩ : Trigger ℝ)] = .ok [] := by
    unfold stagingSubs stagingTriggers
    simp [Body.mapE]
  have h9 : Body.mapE firstSub [([chute], 0)] = .ok [⟨.timeReached 0, 1, 0⟩] := by
    simp [Body.mapE, firstSub, chute, kind_time, Except.map]
  unfold readVessel
  dsimp only
  rw [dict_source, h1, h2, h3, h4, h5]
  simp only [bind, Except.bind]
  rw [h6]
  simp only [List.flatMap_cons, List.flatMap_nil, List.append_nil, List.zipIdx_cons, List.zipIdx_nil, h9, orderByZ, List.map_cons, List.map_nil,
    List.insertionSort, List.foldr, List.orderedInsert, h7, Option.isSome_none, h8, waitStages]
  simp [StageDraft.finish, StageDraft.sorted, orderByZ, Body.mapE, DraftKind.finish, bind, Except.bind, draft, finenessRatio, liveStage,
    StageDraft.motor, vessel, Detector.subscribe, stageMaxDiameter]

/-- flat ground and still air, no launch rail -/
noncomputable def env : Env := { Ascent.env with rail := none }

theorem env_calm : Calm env := ⟨Ascent.env_calm.1, Ascent.env_calm.2, Ascent.env_calm.3⟩

/-- the simulation -/
noncomputable def setup : Setup := ⟨source, env, "Euler", false, 0, true, "Time".toList, 0, fun _ dt => (dt, 1)⟩

/-- the rocket at the start -/
noncomputable def first : Vessel := vessel (.six ⟨0, start, none, none⟩)

theorem first_inertia (ph : Phase) (t : ℝ) : (vessel ph).craft.inertia t = .ok weight := by
  have h1 : fixedTotal [weight] = .ok weight := by
    unfold fixedTotal Inertia.combine
    simp [Inertia.withSelf, Inertia.definedAboutCG, Inertia.addMass, Inertia.addMOI, Inertia.axisDistSq, weight, Inertia.make, z3]
  have h2 : (⟨⟨none, none, none⟩, [.recovery weight]⟩ : StageP).inertia t = .ok weight := by
    unfold StageP.inertia
    simp only [List.filterMap, Part.fixed, bind, Except.bind, h1, Body.mapE, Part.variable, id]
    unfold Inertia.combine
    simp [Inertia.withSelf, Inertia.definedAboutCG, Inertia.addMass, Inertia.addMOI, Inertia.axisDistSq, weight, Inertia.make, z3,
      zeroInertia, applyOverrides]
  unfold Craft.inertia
  simp only [vessel, Vessel.craft, LiveStage.stageP, List.map_cons, List.map_nil, bind, Except.bind, Body.mapE, h2]
  unfold fixedTotal Inertia.combine
  simp [Inertia.withSelf, Inertia.definedAboutCG, Inertia.addMass, Inertia.addMOI, Inertia.axisDistSq, weight, Inertia.make, z3]

theorem first_state : env.initialState ⟨0, 0, 0⟩ ⟨0, 0, 0⟩ ⟨0, 0, 0⟩ (some (⟨0, 0, 1⟩, 0)) ⟨0, 0, 1⟩ ⟨0, 0, 0⟩ = .ok start := by
  unfold Env.initialState initialOrientation Env.initialToGlobal moveToCG
  simp only [env, Ascent.env, flatEarth, noEarth, radians, Quat.axisAngle]
  simp [idq_rotate, start, z3]

theorem first_rail : makeRail env.earth env.elevation env.lat env.lon 0 ⟨0, 0, 0⟩ (some (⟨0, 0, 1⟩, 0)) ⟨0, 0, 1⟩ = .ok env.rail := by
  unfold makeRail railOrientation
  simp [env, Ascent.env, flatEarth, noEarth, radians, Quat.axisAngle, idq_rotate, z3, Rail.make]

/-- the rocket under its parachute -/
noncomputable def second (w : InFlight3) : Vessel :=
  { vessel (.three w) with current := [1], underChute := true, mainTime := some 0 }

/-- the acceleration at the start -/
noncomputable def down : V3 ℝ := ⟨0, 0, -(398600.5e9 / 6371000 ^ 2)⟩

theorem second_rhs (w : InFlight3) : (second w).chuteRhs env 0 ⟨0, 0⟩ = .ok ⟨0, down⟩ := by
  have hair : env.conditions true (0 : V3 ℝ) (some 0) = .ok ⟨0, 300, 100000, 1, 1, 0, 0, 0⟩ := by
    unfold Env.conditions Env.airProperties Env.getWind
    simp [env, Ascent.env, flatEarth, noEarth, z3, idq_rotate]
  have hg : env.earth.gravity weight.mass (0 : V3 ℝ) = .ok ((5 : ℝ) • down) := by
    show flatGravity _ _ = _
    unfold flatGravity
    rw [if_neg (by simp)]
    congr 1
    apply V3.ext' <;> simp [weight, down, Inertia.make]
    norm_num
  have hi : (second w).craft.inertia 0 = .ok weight := first_inertia (.three w) 0
  unfold Vessel.chuteRhs
  rw [show (second w).quietChute = true from rfl, hair]
  simp only [bind, Except.bind]
  rw [hi]
  dsimp only
  rw [show (second w).chutes.getLast? = some [chute] from rfl, show (second w).current.getLast? = some 1 from rfl, hg]
  have hf : chuteForce [chute] ((1 : ℕ) : Int) (0 : V3 ℝ) 0 1 = .ok (FMS.make 0 none none) := by
    unfold chuteForce
    rw [if_neg (by norm_num)]
    simp [pyGet, chute, V3.normalize]
    rw [z3, smul_zero]
  dsimp only
  rw [hf]
  simp only [env]
  unfold envForce rigidBodyDerivative3
  dsimp only
  rw [if_neg (show weight.mass ≠ 0 by norm_num [weight, Inertia.make])]
  simp only [weight, Inertia.make, Except.ok.injEq, RBDeriv3.mk.injEq, true_and]
  apply V3.ext' <;> simp [FMS.getAt, FMS.add, FMS.make]

theorem first_deploy : first.deploy 0 = .ok (second ⟨0, ⟨0, 0⟩, none, none⟩, []) := by
  unfold Vessel.deploy
  simp [first, vessel, second, start, Phase.toThree, Phase.time, z3]

theorem first_step (dt : ℝ) : first.timeStep setup dt = .ok
    ⟨{ second ⟨0 + dt, ⟨0, dt • down⟩, none, none⟩ with events := ⟨[], some (0, 0), 1, [0]⟩ }, dt, 1, []⟩ := by
  have hz : enuVz env first.phase = 0 := by
    unfold enuVz
    show (match (Quat.conj ⟨1, 0, 0, 0⟩).rotate start.vel with | .error _ => 0 | .ok (v, _) => v.z) = (0 : ℝ)
    rw [show (⟨1, 0, 0, 0⟩ : Quat ℝ).conj = ⟨1, 0, 0, 0⟩ by simp [Quat.conj], idq_rotate]
    rfl
  have hcon : envConstrain first.phase.rail ⟨first.phase.pos, first.phase.vel⟩ first.phase.time = .ok (⟨0, 0⟩, none) := rfl
  have hmoved : ({ first with phase := first.phase.moved ⟨0, 0⟩ none } : Vessel) = first := rfl
  have hcall : (missionWorld setup).call 1 ⟨first, [], none⟩ = (⟨second ⟨0, ⟨0, 0⟩, none, none⟩, [], none⟩, []) := by
    rw [show (missionWorld setup).call = Live.call setup from rfl]
    unfold Live.call
    dsimp only
    rw [first_deploy]
  have htrig : triggerEvents (missionWorld setup) ⟨first, [], none⟩ first.events =
      .ok (⟨second ⟨0, ⟨0, 0⟩, none, none⟩, [], none⟩, ⟨[], some (0, 0), 1, [0]⟩, 10 ^ 10, false) := by
    have hev : first.events = ⟨[⟨.timeReached 0, 1, 0, 0⟩], none, 1, []⟩ := rfl
    have ho : occurs (missionWorld setup) ((missionWorld setup).posZ ⟨first, [], none⟩) ((missionWorld setup).velZ ⟨first, [], none⟩)
        ⟨first, [], none⟩ (.timeReached 0) = true := by
      show decide (first.phase.time ≥ 0) = true
      simp [first, vessel, Phase.time]
    have hv : (missionWorld setup).velZ ⟨first, [], none⟩ = 0 := hz
    unfold triggerEvents
    rw [hev]
    simp only [List.length_cons, List.length_nil, zero_add, show List.range 1 = [0] from rfl, passLoop, passBody, List.getElem?_cons_zero,
      ho, if_true, hcall]
    have hcall' : Live.call setup 1 ⟨first, [], none⟩ = (⟨second ⟨0, ⟨0, 0⟩, none, none⟩, [], none⟩, []) := hcall
    simp only [if_true, hcall, List.foldl_nil, deleteMarked, hv]
    simp [missionWorld, hcall', second, vessel, Phase.time]
  unfold Vessel.timeStep
  rw [hcon]
  simp only [bind, Except.bind]
  rw [hmoved, htrig]
  dsimp only
  have hov : overrideStep setup.adaptive setup.eventStep (10 ^ 10) false dt = dt := by simp [overrideStep, setup]
  rw [hov]
  have hadv : (second ⟨0, ⟨0, 0⟩, none, none⟩).advance setup.env setup.method dt = .ok (.three ⟨0 + dt, ⟨0, dt • down⟩, none, none⟩) := by
    have h1 : (second ⟨0, ⟨0, 0⟩, none, none⟩).chuteRhs { env with rail := none } 0 ⟨0, 0⟩ = .ok ⟨0, down⟩ := second_rhs _
    show (do
      let (s, kept) ← integrateStep3 "Euler" ((second ⟨0, ⟨0, 0⟩, none, none⟩).chuteRhs { env with rail := none }) ⟨0, ⟨0, 0⟩, none, none⟩ dt
      Except.ok (Phase.three ⟨0 + dt, s, none, kept⟩)) = _
    unfold integrateStep3
    have e1 : ∃ e, RK.adaptiveTableau "Euler" = .error e := ⟨_, rfl⟩
    obtain ⟨e, e1⟩ := e1
    rw [e1]
    unfold Body.classicalStep
    rw [show RK.classicalTableau "Euler" = .ok none from rfl]
    unfold Body.eulerStep Body.plus
    simp only [h1, bind, Except.bind, arith3, Stepper.dMul3, Stepper.add3]
    simp
  rw [show (setup.accepted (second ⟨0, ⟨0, 0⟩, none, none⟩) dt) = (dt, 1) from rfl]
  dsimp only
  rw [hadv]
  rfl

/-- **C99.** The simulation of the example runs to its end. -/
theorem mission_trip : ∃ u : Vessel, 0 < u.phase.time ∧ u.phase.vel.z < 0 ∧ u.underChute = true ∧
    mission setup 2 first (1 / 10) (.endTime (1 / 10)) = .ok [⟨u, 1 / 10 + 1 / 10 ^ 14 - 0, .endTime (1 / 10), [first, u]⟩] := by
  have h1 := first_step (1 / 10 + 1 / 10 ^ 14 - 0)
  generalize hu : ({ second ⟨0 + (1 / 10 + 1 / 10 ^ 14 - 0), ⟨0, (1 / 10 + 1 / 10 ^ 14 - 0 : ℝ) • down⟩, none, none⟩ with
    events := ⟨[], some (0, 0), 1, [0]⟩ } : Vessel) = u at h1
  have ht : u.phase.time = 0 + (1 / 10 + 1 / 10 ^ 14 - 0) := by rw [← hu]; rfl
  refine ⟨u, by rw [ht]; norm_num, ?_, by rw [← hu]; rfl, ?_⟩
  · rw [← hu]
    simp only [second, vessel, Phase.vel, smul_z, down]
    norm_num
  have d1 : (Run.EndCond.endTime (1 / 10 : ℝ)).detect (setup.sim.obs first) (1 / 10) = (false, some (1 / 10 + 1 / 10 ^ 14 - 0)) := by
    have : (setup.sim.obs first).time = 0 := rfl
    unfold Run.EndCond.detect
    rw [this]
    norm_num
  have d2 : (Run.EndCond.endTime (1 / 10 : ℝ)).detect (setup.sim.obs u) ((1 / 10 + 1 / 10 ^ 14 - 0) * 1) = (true, none) := by
    have : (setup.sim.obs u).time = 0 + (1 / 10 + 1 / 10 ^ 14 - 0) := ht
    unfold Run.EndCond.detect
    rw [this]
    norm_num
  have hs : setup.sim.step first (1 / 10 + 1 / 10 ^ 14 - 0) = .ok ⟨u, 1 / 10 + 1 / 10 ^ 14 - 0, 1, []⟩ := h1
  unfold mission flyAll
  have hset : ([⟨first, 1 / 10, .endTime (1 / 10), [first]⟩] : List (Run.Slot Vessel ℝ)).set 0
      ⟨{ first with phase := first.phase.onRail first.phase.rail }, 1 / 10, .endTime (1 / 10), [first]⟩ =
      [⟨first, 1 / 10, .endTime (1 / 10), [first]⟩] := rfl
  simp only [List.getElem?_cons_zero]
  rw [hset]
  have hin : Run.inner setup.sim 0 2 [⟨first, 1 / 10, .endTime (1 / 10), [first]⟩] =
      .ok [⟨u, 1 / 10 + 1 / 10 ^ 14 - 0, .endTime (1 / 10), [first, u]⟩] := by
    simp only [Run.inner, List.getElem?_cons_zero, d1, Run.advance, Option.getD_some, hs, List.head?_cons, List.set_cons_zero, List.map_nil,
      List.append_nil, d2]
    simp
  rw [hin]
  rfl

theorem even_trip : EvenDefinition source ∧ PlainDefinition source := by
  have hp : HasVector (readR "Rocket.P".toList) "position" ⟨0, 0, 0⟩ := (Reader.getVector_ok _ _ _).1 (vector_zero (by decide +kernel))
  have hp1 : HasVector (readR "Rocket.P.R".toList) "position" ⟨0, 0, 0⟩ := (Reader.getVector_ok _ _ _).1 (vector_zero (by decide +kernel))
  have hg1 : HasVector (readR "Rocket.P.R".toList) "cg" ⟨0, 0, 0⟩ := (Reader.getVector_ok _ _ _).1 (vector_zero (by decide +kernel))
  have nocg : ∀ v, ¬ HasVector (readR "Rocket.P".toList) "constCG" v := by
    rintro v ⟨s, hs, -⟩
    rw [text_R, show text "Rocket.P".toList "constCG".toList = .error .keyError by decide +kernel] at hs
    cases hs
  have nm : ∀ b : String, b.toList ≠ "RecoverySystem".toList → ¬ SaysClass (readR "Rocket.P.R".toList) b := by
    intro b hb h
    unfold SaysClass at h
    rw [text_R, text_class] at h
    exact hb (Except.ok.inj h).symm
  refine ⟨?_, ?_⟩
  · unfold EvenDefinition
    rw [stages_trip]
    intro s hs
    rw [List.mem_singleton] at hs
    subst hs
    rw [subs_stage]
    simp only [dict_source]
    refine ⟨fun v hv => by rw [HasVector.unique hv hp]; exact ⟨rfl, rfl⟩, fun v hv => absurd hv (nocg v), ?_⟩
    intro k hk
    rw [List.mem_singleton] at hk
    subst hk
    exact {
      place := fun v hv => by rw [HasVector.unique hv hp1]; exact ⟨rfl, rfl⟩
      cg := fun v hv => by rw [HasVector.unique hv hg1]; exact ⟨rfl, rfl⟩
      nose := fun h => absurd h (nm _ (by decide +kernel))
      tube := fun h => absurd h (nm _ (by decide +kernel))
      cone := fun h => h.elim (fun h => absurd h (nm _ (by decide +kernel))) (fun h => absurd h (nm _ (by decide +kernel)))
      fins := fun h => absurd h (nm _ (by decide +kernel))
      force := fun h => absurd h (nm _ (by decide +kernel))
      aero := fun h => absurd h (nm _ (by decide +kernel))
      damping := fun h => absurd h (nm _ (by decide +kernel))
      table := fun h => absurd h (nm _ (by decide +kernel)) }
  · unfold PlainDefinition
    rw [stages_trip]
    intro s hs
    rw [List.mem_singleton] at hs
    subst hs
    rw [subs_stage]
    simp only [dict_source]
    intro k hk
    rw [List.mem_singleton] at hk
    subst hk
    exact ⟨fun h => absurd h (nm _ (by decide +kernel)), fun h => absurd h (nm _ (by decide +kernel)),
      fun h => absurd h (nm _ (by decide +kernel))⟩

/-- the hypotheses of `mission_lands` are met by a simulation in which a parachute opens and the body falls -/
example : ∃ slots : List (Run.Slot Vessel ℝ), mission setup 2 first (1 / 10) (.endTime (1 / 10)) = .ok slots ∧
    ∀ b ∈ slots, (∃ u ∈ b.flight, u.underChute = true ∧ u.phase.vel.z < 0 ∧ u.phase.pos.x = 0) ∧
      ∀ l, Run.getLandingLocation (b.flight.map fun u => u.phase.pos) = .ok l → l.x = 0 ∧ l.y = 0 := by
  obtain ⟨u, -, h2, h3, h⟩ := mission_trip
  have key := mission_lands (P := setup) (s := start) (vessel_trip _) even_trip.1 env_calm weight (first_inertia _ 0) ⟨0, 0, 0⟩ ⟨0, 0, 0⟩ ⟨0, 0, 0⟩
    ⟨0, 0, 1⟩ (some (⟨0, 0, 1⟩, 0)) 0 (fun p hp => by rw [← Option.some.inj hp]; exact ⟨rfl, rfl⟩) ⟨rfl, rfl⟩ ⟨rfl, rfl⟩ ⟨rfl, rfl⟩ first_rail
    first_state 2 (1 / 10) (.endTime (1 / 10)) _ h
  refine ⟨_, h, fun b hb => ?_⟩
  obtain ⟨k1, k2⟩ := key b hb
  rw [List.mem_singleton] at hb
  subst hb
  exact ⟨⟨u, by simp, h3, h2, (k1 u (by simp)).1⟩, k2⟩

end Mapleaf.Rocket.Trip
