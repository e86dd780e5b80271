import Verif.ENV.EnvModel
import Verif.ENV.TurbModel
import Verif.ENV.RoseModel
import Verif.ENV.AtmModel
import Verif.ENV.WindModel
import Verif.Rocket.PartModel

/-!
# Model of how an environment is set up from a simulation definition (MAPLEAF/ENV/environment.py, the factories of
MeanWindModelling.py, TurbulenceModelling.py and AtmosphereModelling.py, and the selection of a radio sonde profile)

Printed output is left out. `UnboundLocalError` is represented by `runtimeError`. The module `random` of the standard library is a
state with three operations; nothing is assumed about the numbers it produces except where a theorem says so.
-/

namespace Mapleaf.ENV
open Mapleaf.Motion

/-- What the factories are given: simDefinition.py:451-474 `getValue` and Python's conversions of text to numbers -/
structure Source where
  get : Str → Except PyErr Str
  float : Str → Option ℝ
  int : Str → Option Int

namespace Source

/-- subDictReader.py:21-36 `getString`, for a reader of the dictionary `path` -/
def text (d : Source) (path key : Str) : Except PyErr Str :=
  match d.get (path ++ '.' :: key) with
  | .ok s => .ok s
  | .error .keyError => d.get key
  | .error e => .error e

/-- the reader of a dictionary in the form used for the rocket's components -/
def reader (d : Source) (path : Str) : Rocket.Reader ℝ := ⟨d.text path, d.float⟩

/-- subDictReader.py:52-56 `tryGetString(key, defaultValue=None)` -/
def tryString (d : Source) (path key : Str) : Except PyErr (Option Str) :=
  match d.text path key with
  | .ok s => .ok (some s)
  | .error .keyError => .ok none
  | .error e => .error e

/-- subDictReader.py:58-62 `tryGetInt(key, defaultValue=None)` -/
def tryInt (d : Source) (path key : Str) : Except PyErr (Option Int) :=
  match d.text path key with
  | .ok s => match d.int s with
    | some i => .ok (some i)
    | none => .error .valueError
  | .error .keyError => .ok none
  | .error e => .error e

end Source

/-- What the set-up takes from its surroundings: the random number generator of the module `random` (`uniform` is `random.random()`,
`below n` is `random.randrange(n)`, `seeded` is `random.seed` of a text, and `fresh` is `random.seed(None)`, which asks the operating
system for a seed), the files and numpy's `argsort` -/
structure World (σ : Type) where
  uniform : σ → ℝ × σ
  below : Nat → σ → Nat × σ
  seeded : Str → σ
  fresh : σ → σ
  /-- `np.loadtxt(path, skiprows=1)`: the rows -/
  loadtxt : Str → Except PyErr (List (List ℝ))
  /-- `open(path).readlines()` -/
  readlines : Str → Except PyErr (List Str)
  /-- simDefinition.py:915-940 `getAbsoluteFilePath` -/
  absolute : Str → Str
  /-- MeanWindModelling.py:231-268 `_readWindRose` -/
  readRose : Str → Except PyErr (List Rose.Row)
  argsort : List ℝ → List Nat

/-- a mean wind model: MeanWindModelling.py:132-196. `unusable`: a table whose rows are not four numbers, which raises when asked -/
inductive WindModel where
  | constant (wind : V3 ℝ)
  | hellman (ground : V3 ℝ) (limit alpha : ℝ)
  | profile (altitudes : List ℝ) (winds : List (V3 ℝ))
  | unusable

/-- MeanWindModelling.py:139-140, 159-163, 195-196 `getMeanWind` -/
noncomputable def WindModel.at : WindModel → ℝ → Except PyErr (V3 ℝ)
  | .constant w, h => .ok (constantWind w h)
  | .hellman g limit alpha, h => .ok (hellmanWind g limit alpha h)
  | .profile a w, h => interpolatedWind a w h
  | .unusable, _ => .error .typeError

/-- MeanWindModelling.py:47-52, 103-108: names (1st, 3rd, 5th, ... word) and weights (2nd, 4th, 6th, ... word) -/
def namesAndWeights (float : Str → Option ℝ) : List Str → Except PyErr (List Str × List ℝ)
  | [] => .ok ([], [])
  | [_] => .error .indexError
  | name :: weight :: rest =>
    match float weight with
    | none => .error .valueError
    | some x =>
      match namesAndWeights float rest with
      | .error e => .error e
      | .ok (names, weights) => .ok (name :: names, x :: weights)

/-- MeanWindModelling.py:274: the file of a wind rose -/
def rosePath (month location : Str) : Str :=
  "MAPLEAF/Examples/Wind/Windrose".toList ++ month ++ location ++ ".txt".toList

/-- MeanWindModelling.py:270-278: the tables of the locations with their weights -/
def readRoses {σ : Type} (w : World σ) (month : Str) : List (Str × ℝ) → Except PyErr (List (ℝ × List Rose.Row))
  | [] => .ok []
  | (name, x) :: rest =>
    match w.readRose (w.absolute (rosePath month name)) with
    | .error e => .error e
    | .ok rows =>
      match readRoses w month rest with
      | .error e => .error e
      | .ok r => .ok ((x, rows) :: r)

/-- MeanWindModelling.py:45-56 `getLocationSampledGroundWindVel` and 209-225 `sampleWindRoses` -/
noncomputable def sampledGroundWind {σ : Type} (d : Source) (w : World σ) (path : Str) (s : σ) : Except PyErr (V3 ℝ × σ) := do
  let words ← d.text path "SampledGroundWindData.locationsToSample".toList
  let (names, weights) ← namesAndWeights d.float (Str.wsSplit words)
  let month ← d.text path "SampledGroundWindData.launchMonth".toList
  let base ← w.readRose (w.absolute (rosePath "Apr".toList "MedecineHat".toList))
  let roses ← readRoses w month (names.zip weights)
  let (q₁, s₁) := w.uniform s
  let (q₂, s₂) := w.uniform s₁
  let wind ← Rose.sampleWind (Rose.average base roses) q₁ q₂
  .ok (wind, s₂)

/-- Python's `random.choices(names, weights, k=1)[0]` for the random number `u`: the position chosen -/
noncomputable def choose (n : Nat) (weights : List ℝ) (u : ℝ) : Except PyErr Nat :=
  open Classical in
  let cum := (Rose.sums 0 weights).tail
  if cum.length ≠ n then .error .valueError
  else
    match cum.getLast? with
    | none => .error .indexError
    | some total =>
      if total ≤ 0 then .error .valueError
      else .ok (bisectLoop cum (u * total) n 0 (n - 1))

/-- MeanWindModelling.py:362: the file of a location's soundings -/
def sondePath (location : Str) : Str :=
  "MAPLEAF/Examples/Wind/RadioSonde".toList ++ location ++ "_filtered.txt".toList

/-- MeanWindModelling.py:441-454 `_parseRadioSondeHeader`: raises unless the second to fifth word are whole numbers -/
def parseHeader (int : Str → Option Int) (header : Str) : Except PyErr (Str × Int × Int × Int × Int) :=
  match Str.wsSplit header with
  | id :: y :: m :: day :: h :: _ =>
    match int y, int m, int day, int h with
    | some y, some m, some day, some h => .ok (id.tail, y, m, day, h)
    | _, _, _, _ => .error .valueError
  | _ => .error .indexError

/-- MeanWindModelling.py:355: `random.seed(randomSeed)` -/
def World.seed {σ : Type} (w : World σ) (seed : Option Str) (s : σ) : σ :=
  match seed with
  | some t => w.seeded t
  | none => w.fresh s

/-- MeanWindModelling.py:341-388 `getRadioSondeWindProfile`; the altitude is that of the first location of the chosen name -/
noncomputable def sondeProfile {σ : Type} (d : Source) (w : World σ) (names : List Str) (weights asl : List ℝ) (month : Str)
    (seed : Option Str) (s : σ) : Except PyErr ((List ℝ × List (V3 ℝ)) × σ) := do
  let s := w.seed seed s
  let (u, s₁) := w.uniform s
  let i ← choose names.length weights u
  let name ← pyGet names i
  let z ← pyGet asl (names.idxOf name)
  let data ← w.readlines (w.absolute (sondePath name))
  let m ← Sonde.monthFilter (some month)
  let starts ← Sonde.startLines d.int m 0 data
  if starts.length = 0 then .error .valueError
  else
    let (k, s₂) := w.below starts.length s₁
    let (header, sounding) ← Sonde.extract starts data k
    let _ ← parseHeader d.int header
    let p ← Sonde.parse d.float w.argsort sounding z
    .ok (p, s₂)

/-- MeanWindModelling.py:190-193 `_readCustomWindProfile`. Rows with other than four numbers make a model that raises when asked. -/
noncomputable def windTable (rows : List (List ℝ)) : Except PyErr WindModel :=
  match Rocket.load2D rows with
  | .error e => .error e
  | .ok n =>
    if n = 4 then .ok (.profile (rows.map fun r => r.getD 0 0) (rows.map fun r => ⟨r.getD 1 0, r.getD 2 0, r.getD 3 0⟩))
    else .ok .unusable

/-- `[ float(x) for x in words ]` -/
def floats (float : Str → Option ℝ) (words : List Str) : Except PyErr (List ℝ) :=
  match words.mapM float with
  | some l => .ok l
  | none => .error .valueError

/-- MeanWindModelling.py:25-130 `meanWindModelFactory`, given a reader of the dictionary `path` -/
noncomputable def windFactory {σ : Type} (d : Source) (w : World σ) (path : Str) (s : σ) : Except PyErr (WindModel × σ) := do
  let kind ← d.text path "MeanWindModel".toList
  if kind = "Constant".toList then
    let v ← (d.reader path).getVector "ConstantMeanWind.velocity".toList
    .ok (.constant v, s)
  else if kind = "SampledGroundWindData".toList then
    let (v, s') ← sampledGroundWind d w path s
    .ok (.constant v, s')
  else if kind = "Hellman".toList then
    let ground ← d.text path "Hellman.groundWindModel".toList
    let (v, s') ← (
      if ground = "Constant".toList then do
        let v ← (d.reader path).getVector "ConstantMeanWind.velocity".toList
        Except.ok (some v, s)
      else if ground = "SampledGroundWindData".toList then do
        let (v, s') ← sampledGroundWind d w path s
        Except.ok (some v, s')
      else Except.ok (none, s))
    let alpha ← (d.reader path).getFloat "Hellman.alphaCoeff".toList
    let limit ← (d.reader path).getFloat "Hellman.altitudeLimit".toList
    match v with
    | none => .error .runtimeError
    | some v => .ok (.hellman v limit alpha, s')
  else if kind = "CustomWindProfile".toList then
    let file ← d.text path "CustomWindProfile.filePath".toList
    let rows ← w.loadtxt file
    let m ← windTable rows
    .ok (m, s)
  else if kind = "SampledRadioSondeData".toList then
    let words ← d.text path "SampledRadioSondeData.locationsToSample".toList
    let (names, weights) ← namesAndWeights d.float (Str.wsSplit words)
    let heights ← d.text path "SampledRadioSondeData.locationASLAltitudes".toList
    let asl ← floats d.float (Str.wsSplit heights)
    let month ← d.text path "SampledRadioSondeData.launchMonth".toList
    let seed ← d.tryString path "SampledRadioSondeData.randomSeed".toList
    let ((alts, winds), s') ← sondeProfile d w names weights asl month seed s
    .ok (.profile alts winds, s')
  else .error .valueError

/-- a turbulence model: TurbulenceModelling.py:80-145. The numbers are the scaled intensity and standard deviation, the seeds those
of the pink noise generators. -/
inductive Turbulence where
  | none
  | pink1 (intensity stdDev : Option ℝ) (seed : Int)
  | pink2 (intensity stdDev : Option ℝ) (seed₁ seed₂ : Int)
  | pink3 (intensity stdDev : Option ℝ) (seed₁ seed₂ seed₃ : Int)
  | gust (g : SineGust)

/-- TurbulenceModelling.py:190-195: the seed of a pink noise generator -/
def noiseSeed {σ : Type} (w : World σ) (seed : Option Int) (s : σ) : Int × σ :=
  match seed with
  | some i => (i, s)
  | none => ((w.below 1000000 s).1, (w.below 1000000 s).2)

/-- TurbulenceModelling.py:19-78 `turbulenceModelFactory` -/
noncomputable def turbulenceFactory {σ : Type} (d : Source) (w : World σ) (path : Str) (s : σ) : Except PyErr (Turbulence × σ) := do
  let kind ← d.text path "Environment.TurbulenceModel".toList
  if kind = "None".toList then .ok (.none, s)
  else if "PinkNoise".toList <:+: kind then
    let intensity ← d.tryInt path "PinkNoiseModel.turbulenceIntensity".toList
    let dev ← d.tryInt path "PinkNoiseModel.velocityStdDeviation".toList
    let seed₁ ← d.tryInt path "PinkNoiseModel.randomSeed1".toList
    let seed₂ ← d.tryInt path "PinkNoiseModel.randomSeed2".toList
    let seed₃ ← d.tryInt path "PinkNoiseModel.randomSeed3".toList
    let intensity := intensity.map fun (i : Int) => (i : ℝ) / (2.26 * 100)
    let dev := dev.map fun (i : Int) => (i : ℝ) / 2.26
    if kind = "PinkNoise1D".toList then
      let (a, s₁) := noiseSeed w seed₁ s
      .ok (.pink1 intensity dev a, s₁)
    else if kind = "PinkNoise2D".toList then
      let (a, s₁) := noiseSeed w seed₁ s
      let (b, s₂) := noiseSeed w seed₂ s₁
      .ok (.pink2 intensity dev a b, s₂)
    else if kind = "PinkNoise3D".toList then
      let (a, s₁) := noiseSeed w seed₁ s
      let (b, s₂) := noiseSeed w seed₂ s₁
      let (c, s₃) := noiseSeed w seed₃ s₂
      .ok (.pink3 intensity dev a b c, s₃)
    else .error .runtimeError
  else if kind = "customSineGust".toList then
    let start ← (d.reader path).getFloat "CustomSineGust.startAltitude".toList
    let magnitude ← (d.reader path).getFloat "CustomSineGust.magnitude".toList
    let blend ← (d.reader path).getFloat "CustomSineGust.sineBlendDistance".toList
    let thickness ← (d.reader path).getFloat "CustomSineGust.thickness".toList
    let direction ← (d.reader path).getVector "CustomSineGust.direction".toList
    .ok (.gust ⟨start, blend, thickness, magnitude, direction.normalize⟩, s)
  else .error .valueError

/-- an atmosphere: AtmosphereModelling.py:72-182. `unusable`: a table with more than five columns, which raises when asked -/
inductive Atmosphere where
  | constant (air : Atm.Air)
  | table (rows : List (Fin 5 → ℝ))
  | unusable
  | standard

/-- AtmosphereModelling.py:85-93 `TabulatedAtmosphere.__init__` -/
noncomputable def airTable (rows : List (List ℝ)) : Except PyErr Atmosphere :=
  match Rocket.load2D rows with
  | .error e => .error e
  | .ok n =>
    if n < 5 then .error .indexError
    else if n = 5 then .ok (.table (rows.map fun r => Rocket.slice r 0 5))
    else .ok .unusable

/-- AtmosphereModelling.py:29-70 `atmosphericModelFactory`, given a reader of the dictionary `path`; also returns the dictionary the
reader reads from afterwards -/
noncomputable def atmosphereFactory {σ : Type} (d : Source) (w : World σ) (path : Str) : Except PyErr (Atmosphere × Str) := do
  let kind ← d.text path "AtmosphericPropertiesModel".toList
  if kind = "Constant".toList then
    let path := "Environment.ConstantAtmosphere".toList
    let temp ← (d.reader path).getFloat "temp".toList
    let pressure ← (d.reader path).getFloat "pressure".toList
    let density ← (d.reader path).getFloat "density".toList
    let viscosity ← (d.reader path).getFloat "viscosity".toList
    .ok (.constant ⟨temp + 273.15, pressure, density, viscosity⟩, "Environment".toList)
  else if kind = "TabulatedAtmosphere".toList then
    let file ← d.text path "TabulatedAtmosphere.filePath".toList
    let rows ← w.loadtxt (w.absolute file)
    let a ← airTable rows
    .ok (a, path)
  else if kind = "USStandardAtmosphere".toList then .ok (.standard, path)
  else .error .valueError

/-- the attributes of an `Environment`: environment.py:40-105 -/
structure Built where
  wind : WindModel
  /-- `none`: the attribute is `None` -/
  turbulence : Option Turbulence
  air : Atmosphere
  earth : Earth
  elevation : Option ℝ
  latitude : Option ℝ
  longitude : Option ℝ
  rail : Option Rail

open Classical in
/-- environment.py:55-91: the launch rail. Without a value for the launch site (there are default values) computing it raises. -/
noncomputable def railFactory (d : Source) (path : Str) (earth : Earth) (elevation lat lon : Option ℝ) :
    Except PyErr (Option Rail) := do
  let length ← (d.reader path).getFloat "LaunchSite.railLength".toList
  if length > 0 then
    let pos ← (d.reader path).getVector "Rocket.position".toList
    let axis ← (d.reader path).tryGetVector "Rocket.rotationAxis".toList
    match elevation, lat, lon with
    | some z, some lat, some lon =>
      match axis with
      | some axis =>
        let angle ← (d.reader path).getFloat "Rocket.rotationAngle".toList
        makeRail earth z lat lon length pos (some (axis, angle)) ⟨0, 0, 0⟩
      | none =>
        let dir ← (d.reader path).getVector "Rocket.initialDirection".toList
        makeRail earth z lat lon length pos none dir
    | _, _, _ => .error .typeError
  else .ok none

/-- environment.py:40-91 `Environment.__init__` with a simulation definition -/
noncomputable def buildEnvironment {σ : Type} (d : Source) (w : World σ) (fuel : Nat) (s : σ) : Except PyErr (Built × σ) := do
  let path := "Environment".toList
  let (wind, s₁) ← windFactory d w path s
  let (turb, s₂) ← turbulenceFactory d w path s₁
  let (air, path) ← atmosphereFactory d w path
  let name ← d.text path "EarthModel".toList
  let earth ← earthModelFactory fuel (some name)
  let elevation ← (d.reader path).tryGetFloat "LaunchSite.elevation".toList
  let lat ← (d.reader path).tryGetFloat "LaunchSite.latitude".toList
  let lon ← (d.reader path).tryGetFloat "LaunchSite.longitude".toList
  let rail ← railFactory d path earth elevation lat lon
  .ok (⟨wind, some turb, air, earth, elevation, lat, lon, rail⟩, s₂)

/-- environment.py:93-103 `Environment.__init__` without a simulation definition, from the default values of simDefinition.py:46-53 -/
noncomputable def defaultEnvironment (float : Str → Option ℝ) : Except PyErr Built := do
  let v ← parseVector float "(0 0 0)".toList
  let number (t : Str) : Except PyErr ℝ := match float t with
    | some x => .ok x
    | none => .error .valueError
  let z ← number "0".toList
  let lat ← number "0".toList
  let lon ← number "0".toList
  .ok ⟨.constant v, none, .standard, flatEarth, some z, some lat, some lon, none⟩

end Mapleaf.ENV
