import Verif.Rocket.BuildModel
import Verif.Rocket.PartProps
import Verif.Rocket.SetupProps
import Verif.Rocket.AscentLaunchProps
import Verif.Rocket.FinDragProps

/-!
# C98, first part: the rocket that flies is the one in the definition
-/

namespace Mapleaf.Rocket
open Mapleaf.Motion V3

/-! ## What a dictionary says -/

/-- a whole number under a key -/
def HasInt (src : Source) (r : Reader ℝ) (key : String) (n : ℤ) : Prop := ∃ s, r.text key.toList = .ok s ∧ src.int s = some n

/-- the class given to a component -/
def SaysClass (r : Reader ℝ) (name : String) : Prop := r.text "class".toList = .ok name.toList

/-- mass, place and inertia of a component with a fixed mass on a stage at `stage`: its position is relative to the stage's, its centre of
gravity to its position -/
def SaysMass (r : Reader ℝ) (stage position : V3 ℝ) (i : Inertia ℝ) : Prop :=
  ∃ m p g, HasFloat r "mass" m ∧ HasVector r "position" p ∧ HasVector r "cg" g ∧ position = stage + p ∧ i.mass = m ∧
    i.cg = stage + p + g ∧ i.about = stage + p + g ∧
    (HasVector r "MOI" i.moi ∨ ((∀ v, ¬ HasVector r "MOI" v) ∧ i.moi = ⟨m / 100, m / 100, m / 100⟩))

/-- the roughness given, or else the rocket's -/
def SaysRoughness (r : Reader ℝ) (rocket x : ℝ) : Prop :=
  HasFloat r "surfaceRoughness" x ∨ (r.text "surfaceRoughness".toList = .error .keyError ∧ x = rocket)

/-- the shape of a nose cone -/
def SaysNose (r : Reader ℝ) (n : Nose) : Prop :=
  HasFloat r "aspectRatio" n.aspectRatio ∧ HasFloat r "baseDiameter" n.baseDiameter ∧
    ∃ s, r.text "shape".toList = .ok s ∧ (s = "tangentOgive".toList → n.shape = .tangentOgive) ∧ (s = "cone".toList → n.shape = .cone) ∧
      (s = "halfSeries".toList → n.shape = .halfSeries) ∧
      (s ∉ ["tangentOgive".toList, "cone".toList, "halfSeries".toList] → n.shape = .other)

/-- the shape of a transition or boat tail -/
def SaysCone (r : Reader ℝ) (t : Trans) : Prop :=
  HasFloat r "startDiameter" t.startDiameter ∧ HasFloat r "endDiameter" t.endDiameter ∧ HasFloat r "length" t.length

/-- the body component described by `r` has radius `R` at height `z` -/
def SaysRadius (r : Reader ℝ) (stage : V3 ℝ) (z R : ℝ) : Prop :=
  ∃ p, HasVector r "position" p ∧ z ≤ stage.z + p.z ∧
    ((SaysClass r "Nosecone" ∧ ∃ n, SaysNose r n ∧ stage.z + p.z - n.length ≤ z ∧ n.getRadius (stage.z + p.z - z) = .ok (some R)) ∨
     (SaysClass r "Bodytube" ∧ ∃ len d, HasFloat r "length" len ∧ HasFloat r "outerDiameter" d ∧ stage.z + p.z - len ≤ z ∧ R = d / 2) ∨
     ((SaysClass r "Transition" ∨ SaysClass r "BoatTail") ∧ ∃ t, SaysCone r t ∧ t.length ≠ 0 ∧ stage.z + p.z - t.length ≤ z ∧
       R = (t.startDiameter + (stage.z + p.z - z) / t.length * (t.endDiameter - t.startDiameter)) / 2))

/-- the motor described by `r`, as it is before anything is known about staging, and its shut-off time -/
def SaysMotor (src : Source) (r : Reader ℝ) (stage : V3 ℝ) (m : Motor ℝ) (off : ℝ) : Prop :=
  SaysClass r "Motor" ∧ ∃ file h rows a b, r.text "path".toList = .ok file ∧ src.motorFile file = .ok (h, rows) ∧
    HasFloat r "impulseAdjustFactor" a ∧ HasFloat r "burnTimeAdjustFactor" b ∧ Motor.build h rows stage.z a b = .ok (m, off)

/-- the leading edge of fins -/
def SaysLead (r : Reader ℝ) (thickness : ℝ) (e : LeadEdge) : Prop :=
  (r.text "LeadingEdge.shape".toList = .ok "Round".toList ∧ ((∃ x, HasFloat r "LeadingEdge.radius" x ∧ e = .round x) ∨
    (r.text "LeadingEdge.radius".toList = .error .keyError ∧ e = .round (thickness / 100)))) ∨
  (r.text "LeadingEdge.shape".toList = .ok "Blunt".toList ∧ ((∃ x, HasFloat r "LeadingEdge.thickness" x ∧ e = .blunt x) ∨
    (r.text "LeadingEdge.thickness".toList = .error .keyError ∧ e = .blunt thickness)))

/-- the trailing edge of fins -/
def SaysTrail (r : Reader ℝ) (e : TrailEdge) : Prop :=
  (r.text "TrailingEdge.shape".toList = .ok "Round".toList ∧ ∃ x, HasFloat r "TrailingEdge.radius" x ∧ e = .round x) ∨
  (r.text "TrailingEdge.shape".toList = .ok "Blunt".toList ∧ ∃ x, HasFloat r "TrailingEdge.thickness" x ∧ e = .blunt x) ∨
  (r.text "TrailingEdge.shape".toList = .ok "Tapered".toList ∧ e = .tapered)

/-- the fins described by `r`, all of them deflected by the cant angle -/
def SaysFins (src : Source) (r : Reader ℝ) (rocketRoughness : ℝ) (p : FinSet) : Prop :=
  HasInt src r "numFins" p.shape.geom.numFins ∧ HasInt src r "numFinSpanSlicesForIntegration" p.shape.geom.nSlices ∧
    HasFloat r "firstFinAngle" p.shape.geom.firstFinAngle ∧ HasFloat r "finCantAngle" p.shape.geom.cant ∧
    (∃ degrees, HasFloat r "sweepAngle" degrees ∧ p.shape.geom.sweep = degrees * (Real.pi / 180)) ∧
    HasFloat r "rootChord" p.shape.geom.rootChord ∧ HasFloat r "tipChord" p.shape.geom.tipChord ∧ HasFloat r "span" p.shape.geom.span ∧
    HasFloat r "thickness" p.shape.thickness ∧ SaysRoughness r rocketRoughness p.shape.roughness ∧
    SaysLead r p.shape.thickness p.shape.lead ∧ SaysTrail r p.shape.trail ∧
    ∀ i t, HasFloat r "finCantAngle" (p.deflection i t)

/-- the part `p` is what the dictionary `path` says. `stage` is the position of its stage, `comps` are the dictionaries of the stage's
components -/
def PartSays (src : Source) (rough : ℝ) (stage : V3 ℝ) (comps : List Str) (path : Str) : Part → Prop
  | .mass i => SaysClass (src.dict path) "Mass" ∧ ∃ pos, SaysMass (src.dict path) stage pos i
  | .nose i n ro => SaysClass (src.dict path) "Nosecone" ∧ (∃ pos, SaysMass (src.dict path) stage pos i) ∧ SaysNose (src.dict path) n ∧
      SaysRoughness (src.dict path) rough ro
  | .tube i pos len d ro => SaysClass (src.dict path) "Bodytube" ∧ SaysMass (src.dict path) stage pos i ∧
      HasFloat (src.dict path) "length" len ∧ HasFloat (src.dict path) "outerDiameter" d ∧ SaysRoughness (src.dict path) rough ro
  | .trans i t ro => SaysClass (src.dict path) "Transition" ∧ SaysMass (src.dict path) stage t.position i ∧ SaysCone (src.dict path) t ∧
      SaysRoughness (src.dict path) rough ro
  | .boatTail i t ro off => SaysClass (src.dict path) "BoatTail" ∧ SaysMass (src.dict path) stage t.position i ∧ SaysCone (src.dict path) t ∧
      SaysRoughness (src.dict path) rough ro ∧ ∀ x, off = some x → ∃ c ∈ comps, ∃ m, SaysMotor src (src.dict c) stage m x
  | .fins i p => SaysClass (src.dict path) "FinSet" ∧ SaysMass (src.dict path) stage p.position i ∧ SaysFins src (src.dict path) rough p ∧
      (∃ c ∈ comps, SaysRadius (src.dict c) stage p.position.z p.shape.geom.bodyRadius) ∧
      ∃ thickness roughness lead trail cfStar, FinSet.build p.shape.geom thickness roughness lead trail p.position cfStar p.cpCoeffs
        p.deflection = .ok p
  | .motor m => ∃ m0 off, SaysMotor src (src.dict path) stage m0 off ∧ (m = m0 ∨ m = { m0 with ignition := 1000000000 })
  | .force f => SaysClass (src.dict path) "Force" ∧ HasVector (src.dict path) "force" f.force ∧ HasVector (src.dict path) "position" f.loc ∧
      HasVector (src.dict path) "moment" f.moment
  | .aero pos aref lref cd cl cmx cmy cmz => SaysClass (src.dict path) "AeroForce" ∧ HasVector (src.dict path) "position" pos ∧
      HasFloat (src.dict path) "Aref" aref ∧ HasFloat (src.dict path) "Lref" lref ∧ HasFloat (src.dict path) "Cd" cd ∧
      HasFloat (src.dict path) "Cl" cl ∧ HasVector (src.dict path) "momentCoeffs" ⟨cmx, cmy, cmz⟩
  | .damping cx cy cz aref lref => SaysClass (src.dict path) "AeroDamping" ∧ HasVector (src.dict path) "xDampingCoeffs" cx ∧
      HasVector (src.dict path) "yDampingCoeffs" cy ∧ HasVector (src.dict path) "zDampingCoeffs" cz ∧
      HasFloat (src.dict path) "Aref" aref ∧ HasFloat (src.dict path) "Lref" lref
  | .jet ign off x => SaysClass (src.dict path) "FractionalJetDamping" ∧ HasFloat (src.dict path) "fraction" x ∧
      ∃ c ∈ comps, ∃ m, SaysMotor src (src.dict c) stage m off ∧ (ign = 0 ∨ ign = 1000000000)
  | .table t => SaysClass (src.dict path) "TabulatedInertia" ∧ ∃ file rows, (src.dict path).text "filePath".toList = .ok file ∧
      src.inertiaFile file = .ok rows ∧ t = (rows.map (fun row => row.getD 0 0), rows.map (fun row (j : Fin 7) => row.getD (1 + j) 0))
  | .recovery i => SaysClass (src.dict path) "RecoverySystem" ∧ ∃ pos, SaysMass (src.dict path) stage pos i

/-! ## Reading -/

theorem hasFloat_of {r : Reader ℝ} {key : String} {x : ℝ} (h : r.getFloat key.toList = .ok x) : HasFloat r key x := (r.getFloat_ok _ _).1 h

theorem hasVector_of {r : Reader ℝ} {key : String} {x : V3 ℝ} (h : r.getVector key.toList = .ok x) : HasVector r key x :=
  (r.getVector_ok _ _).1 h

theorem hasInt_of {src : Source} {r : Reader ℝ} {key : String} {n : ℤ} (h : src.getInt r key.toList = .ok n) : HasInt src r key n := by
  unfold Source.getInt at h
  split at h
  · cases h
  · rename_i s hs
    split at h
    · rename_i n' hn
      obtain rfl := Except.ok.inj h
      exact ⟨s, hs, hn⟩
    · cases h

theorem saysMass_of {r : Reader ℝ} {stage : V3 ℝ} {c : MassPart ℝ} (h : fixedMass r stage = .ok c) : SaysMass r stage c.position c.inertia :=
  (fixedMass_spec r stage c).1 h

theorem saysRoughness_of {r : Reader ℝ} {rough : ℝ} {o : Option ℝ} (h : r.tryGetFloat "surfaceRoughness".toList = .ok o) :
    SaysRoughness r rough (o.getD rough) := by
  have := (tryGetFloat_ok r "surfaceRoughness" o).1 h
  cases o with
  | none => exact Or.inr ⟨this, rfl⟩
  | some x => exact Or.inl this

theorem noseShape_spec (s : Str) : (s = "tangentOgive".toList → noseShape s = .tangentOgive) ∧ (s = "cone".toList → noseShape s = .cone) ∧
    (s = "halfSeries".toList → noseShape s = .halfSeries) ∧
    (s ∉ ["tangentOgive".toList, "cone".toList, "halfSeries".toList] → noseShape s = .other) := by
  refine ⟨?_, ?_, ?_, ?_⟩
  · rintro rfl; decide +kernel
  · rintro rfl; decide +kernel
  · rintro rfl; decide +kernel
  · intro h
    simp only [List.mem_cons, List.not_mem_nil, or_false, not_or] at h
    unfold noseShape
    rw [if_neg h.1, if_neg h.2.1, if_neg h.2.2]

/-- splitting a chain of steps that succeeded -/
theorem bind_ok {α β : Type} {x : Except PyErr α} {f : α → Except PyErr β} {b : β} (h : (x >>= f) = .ok b) : ∃ a, x = .ok a ∧ f a = .ok b := by
  cases x with
  | error e => cases h
  | ok a => exact ⟨a, rfl, h⟩

theorem map_ok {α β : Type} {x : Except PyErr α} {f : α → β} {b : β} (h : x.map f = .ok b) : ∃ a, x = .ok a ∧ f a = b := by
  cases x with
  | error e => cases h
  | ok a => exact ⟨a, rfl, Except.ok.inj h⟩

theorem readNose_ok {r : Reader ℝ} {site : Site} {d : Draft} (h : readNose r site = .ok d) :
    ∃ pos i n ro, SaysMass r site.position pos i ∧ SaysNose r n ∧ SaysRoughness r site.roughness ro ∧
      d = ⟨pos.z, some ⟨pos.z, n.length, n.baseDiameter, n.radiusE, true⟩, .ready (.nose i n ro)⟩ := by
  unfold readNose at h
  obtain ⟨c, h1, h⟩ := bind_ok h
  obtain ⟨ar, h2, h⟩ := bind_ok h
  obtain ⟨dm, h3, h⟩ := bind_ok h
  obtain ⟨sh, h4, h⟩ := bind_ok h
  obtain ⟨ro, h5, h⟩ := bind_ok h
  obtain ⟨_, _, h⟩ := bind_ok h
  obtain ⟨_, _, h⟩ := bind_ok h
  obtain ⟨_, _, h⟩ := bind_ok h
  exact ⟨_, _, ⟨ar, dm, noseShape sh⟩, _, saysMass_of h1, ⟨hasFloat_of h2, hasFloat_of h3, sh, h4, noseShape_spec sh⟩, saysRoughness_of h5,
    (Except.ok.inj h).symm⟩

theorem readTube_ok {r : Reader ℝ} {site : Site} {d : Draft} (h : readTube r site = .ok d) :
    ∃ pos i len dm ro, SaysMass r site.position pos i ∧ HasFloat r "length" len ∧ HasFloat r "outerDiameter" dm ∧
      SaysRoughness r site.roughness ro ∧
      d = ⟨pos.z, some ⟨pos.z, len, dm, fun _ => .ok (dm / 2), true⟩, .ready (.tube i pos len dm ro)⟩ := by
  unfold readTube at h
  obtain ⟨c, h1, h⟩ := bind_ok h
  obtain ⟨len, h2, h⟩ := bind_ok h
  obtain ⟨dm, h3, h⟩ := bind_ok h
  obtain ⟨ro, h4, h⟩ := bind_ok h
  exact ⟨_, _, _, _, _, saysMass_of h1, hasFloat_of h2, hasFloat_of h3, saysRoughness_of h4, (Except.ok.inj h).symm⟩

theorem readCone_ok {r : Reader ℝ} {site : Site} {i : Inertia ℝ} {t : Trans} {ro : ℝ} (h : readCone r site = .ok (i, t, ro)) :
    SaysMass r site.position t.position i ∧ SaysCone r t ∧ SaysRoughness r site.roughness ro := by
  unfold readCone at h
  obtain ⟨c, h1, h⟩ := bind_ok h
  obtain ⟨len, h2, h⟩ := bind_ok h
  obtain ⟨a, h3, h⟩ := bind_ok h
  obtain ⟨b, h4, h⟩ := bind_ok h
  obtain ⟨ro', h5, h⟩ := bind_ok h
  obtain ⟨_, _, h⟩ := bind_ok h
  have e := Except.ok.inj h
  simp only [Prod.mk.injEq] at e
  obtain ⟨rfl, rfl, rfl⟩ := e
  exact ⟨saysMass_of h1, ⟨hasFloat_of h3, hasFloat_of h4, hasFloat_of h2⟩, saysRoughness_of h5⟩

theorem readMotor_ok {src : Source} {r : Reader ℝ} {site : Site} {d : Draft} (hc : SaysClass r "Motor") (h : readMotor src r site = .ok d) :
    ∃ m off z, SaysMotor src r site.position m off ∧ d = ⟨z, none, .motor m off true⟩ := by
  unfold readMotor at h
  obtain ⟨a, h1, h⟩ := bind_ok h
  obtain ⟨b, h2, h⟩ := bind_ok h
  obtain ⟨file, h3, h⟩ := bind_ok h
  obtain ⟨⟨hd, rows⟩, h4, h⟩ := bind_ok h
  obtain ⟨⟨m, off⟩, h5, h⟩ := bind_ok h
  obtain ⟨i, h6, h⟩ := bind_ok h
  exact ⟨m, off, _, ⟨hc, file, hd, rows, a, b, h3, h4, hasFloat_of h1, hasFloat_of h2, h5⟩, (Except.ok.inj h).symm⟩

theorem saysLead_of {r : Reader ℝ} {th : ℝ} {e : LeadEdge} (h : readLeading r th = .ok e) : SaysLead r th e := by
  unfold readLeading at h
  split at h
  · cases h
  rename_i shape hs
  split at h
  · cases h
  rename_i radius hr
  split at h
  · cases h
  rename_i thick ht
  rcases (readLead_iff shape radius thick th e).1 h with ⟨rfl, h1⟩ | ⟨rfl, h1⟩
  · refine Or.inl ⟨hs, ?_⟩
    rw [if_pos rfl] at hr
    have h2 := (tryGetFloat_ok r "LeadingEdge.radius" radius).1 hr
    rcases h1 with ⟨x, rfl, rfl⟩ | ⟨rfl, rfl⟩
    · exact Or.inl ⟨x, h2, rfl⟩
    · exact Or.inr ⟨h2, rfl⟩
  · refine Or.inr ⟨hs, ?_⟩
    rw [if_pos rfl] at ht
    have h2 := (tryGetFloat_ok r "LeadingEdge.thickness" thick).1 ht
    rcases h1 with ⟨x, rfl, rfl⟩ | ⟨rfl, rfl⟩
    · exact Or.inl ⟨x, h2, rfl⟩
    · exact Or.inr ⟨h2, rfl⟩

theorem saysTrail_of {r : Reader ℝ} {e : TrailEdge} (h : readTrailing r = .ok e) : SaysTrail r e := by
  unfold readTrailing at h
  split at h
  · cases h
  rename_i shape hs
  split at h
  · cases h
  rename_i radius hr
  split at h
  · cases h
  rename_i thick ht
  rcases (readTrail_iff shape radius thick e).1 h with ⟨rfl, x, rfl, rfl⟩ | ⟨rfl, x, rfl, rfl⟩ | ⟨rfl, rfl⟩
  · rw [if_pos rfl] at hr
    obtain ⟨y, h1, h2⟩ := map_ok hr
    obtain rfl := Option.some.inj h2
    exact Or.inl ⟨hs, _, hasFloat_of h1, rfl⟩
  · rw [if_pos rfl] at ht
    obtain ⟨y, h1, h2⟩ := map_ok ht
    obtain rfl := Option.some.inj h2
    exact Or.inr (Or.inl ⟨hs, _, hasFloat_of h1, rfl⟩)
  · exact Or.inr (Or.inr ⟨hs, rfl⟩)

/-- what a fin set reads -/
structure SpecSays (src : Source) (r : Reader ℝ) (site : Site) (f : FinSpec) : Prop where
  mass : SaysMass r site.position f.position f.inertia
  count : HasInt src r "numFins" f.numFins
  slices : HasInt src r "numFinSpanSlicesForIntegration" f.nSlices
  first : HasFloat r "firstFinAngle" f.firstFinAngle
  cant : HasFloat r "finCantAngle" f.cant
  sweep : ∃ degrees, HasFloat r "sweepAngle" degrees ∧ f.sweep = degrees * (Real.pi / 180)
  root : HasFloat r "rootChord" f.rootChord
  tip : HasFloat r "tipChord" f.tipChord
  span : HasFloat r "span" f.span
  thickness : HasFloat r "thickness" f.thickness
  roughness : SaysRoughness r site.roughness f.roughness
  lead : SaysLead r f.thickness f.lead
  trail : SaysTrail r f.trail

theorem readFins_ok {src : Source} {r : Reader ℝ} {site : Site} {d : Draft} (h : readFins src r site = .ok d) :
    ∃ f z, SpecSays src r site f ∧ d = ⟨z, none, .fins f⟩ := by
  unfold readFins at h
  obtain ⟨c, h1, h⟩ := bind_ok h
  obtain ⟨n, h2, h⟩ := bind_ok h
  obtain ⟨first, h3, h⟩ := bind_ok h
  obtain ⟨cant, h4, h⟩ := bind_ok h
  obtain ⟨sweep, h5, h⟩ := bind_ok h
  obtain ⟨root, h6, h⟩ := bind_ok h
  obtain ⟨tip, h7, h⟩ := bind_ok h
  obtain ⟨span, h8, h⟩ := bind_ok h
  obtain ⟨ro, h9, h⟩ := bind_ok h
  obtain ⟨thick, h10, h⟩ := bind_ok h
  obtain ⟨sl, h11, h⟩ := bind_ok h
  obtain ⟨le, h12, h⟩ := bind_ok h
  obtain ⟨tr, h13, h⟩ := bind_ok h
  split at h
  · cases h
  · rename_i hn
    rw [not_or, not_lt, not_lt] at hn
    refine ⟨_, _, ?_, (Except.ok.inj h).symm⟩
    refine ⟨saysMass_of h1, ?_, ?_, hasFloat_of h3, hasFloat_of h4, ⟨sweep, hasFloat_of h5, by ring⟩, hasFloat_of h6, hasFloat_of h7,
      hasFloat_of h8, hasFloat_of h10, saysRoughness_of h9, saysLead_of h12, saysTrail_of h13⟩
    · show HasInt src r "numFins" ((n.toNat : ℕ) : ℤ)
      rw [Int.toNat_of_nonneg hn.1]
      exact hasInt_of h2
    · show HasInt src r _ ((sl.toNat : ℕ) : ℤ)
      rw [Int.toNat_of_nonneg hn.2]
      exact hasInt_of h11

/-- a component after its constructor is what its dictionary says -/
def DraftSays (src : Source) (site : Site) (path : Str) (d : Draft) : Prop :=
  match d.kind with
  | .ready p => PartSays src site.roughness site.position [] path p
  | .tail i t ro => SaysClass (src.dict path) "BoatTail" ∧ SaysMass (src.dict path) site.position t.position i ∧
      SaysCone (src.dict path) t ∧ SaysRoughness (src.dict path) site.roughness ro
  | .fins f => SaysClass (src.dict path) "FinSet" ∧ SpecSays src (src.dict path) site f
  | .motor m off _ => ∃ m0, SaysMotor src (src.dict path) site.position m0 off ∧ (m = m0 ∨ m = { m0 with ignition := 1000000000 })
  | .jet x => SaysClass (src.dict path) "FractionalJetDamping" ∧ HasFloat (src.dict path) "fraction" x

/-- the length of a body component -/
def SaysLength (r : Reader ℝ) (len : ℝ) : Prop :=
  (SaysClass r "Nosecone" ∧ ∃ d a, HasFloat r "baseDiameter" d ∧ HasFloat r "aspectRatio" a ∧ len = d * a) ∨
    ((SaysClass r "Bodytube" ∨ SaysClass r "Transition" ∨ SaysClass r "BoatTail") ∧ HasFloat r "length" len)

/-- what the stage asks of it as well -/
def BodySays (src : Source) (site : Site) (path : Str) (d : Draft) : Prop :=
  ∀ b, d.body = some b → (∃ p, HasVector (src.dict path) "position" p ∧ b.z = site.position.z + p.z ∧ SaysLength (src.dict path) b.length) ∧
    ∀ z R, z ≤ b.z → b.z - b.length ≤ z → b.radius (b.z - z) = .ok R → SaysRadius (src.dict path) site.position z R

theorem className_of {name : Str} {c : PartClass} (h : classOf name = .ok c) : name = (match c with
    | .aeroDamping => "AeroDamping" | .aeroForce => "AeroForce" | .boatTail => "BoatTail" | .bodyTube => "Bodytube" | .finSet => "FinSet"
    | .force => "Force" | .jetDamping => "FractionalJetDamping" | .mass => "Mass" | .motor => "Motor" | .noseCone => "Nosecone"
    | .recovery => "RecoverySystem" | .stateful => "StatefulSample" | .tabulatedAero => "TabulatedAeroForce"
    | .tabulatedInertia => "TabulatedInertia" | .transition => "Transition" : String).toList := by
  have := ((classOf_spec name).1 c).1 h
  cases c <;> simp_all

theorem body_none {src : Source} {site : Site} {path : Str} {d : Draft} (h : d.body = none) : BodySays src site path d := by
  intro b hb
  rw [h] at hb
  cases hb

theorem saysMass_position {r : Reader ℝ} {stage pos : V3 ℝ} {i : Inertia ℝ} (h : SaysMass r stage pos i) :
    ∃ p, HasVector r "position" p ∧ pos = stage + p := by
  obtain ⟨_, p, _, _, hp, _, e, _⟩ := h
  exact ⟨p, hp, e⟩

theorem cone_radius {src : Source} {site : Site} {path : Str} {i : Inertia ℝ} {t : Trans}
    (hc : SaysClass (src.dict path) "Transition" ∨ SaysClass (src.dict path) "BoatTail") (hm : SaysMass (src.dict path) site.position t.position i)
    (ht : SaysCone (src.dict path) t) (z R : ℝ) (h1 : z ≤ t.position.z) (h2 : t.position.z - t.length ≤ z)
    (h3 : t.getRadius (t.position.z - z) = .ok R) : SaysRadius (src.dict path) site.position z R := by
  obtain ⟨p, hp, e⟩ := saysMass_position hm
  have ez : t.position.z = site.position.z + p.z := by rw [e]; rfl
  rw [ez] at h1 h2 h3
  unfold Trans.getRadius at h3
  split at h3
  · cases h3
  · rename_i h0
    refine ⟨p, hp, h1, Or.inr (Or.inr ⟨hc, t, ht, h0, h2, ?_⟩)⟩
    rw [← Except.ok.inj h3]
    ring

theorem readPart_says {src : Source} {site : Site} {path : Str} {d : Draft} (h : readPart src site path = .ok d) :
    DraftSays src site path d ∧ BodySays src site path d := by
  unfold readPart at h
  dsimp only at h
  split at h
  · cases h
  rename_i name hname
  split at h
  · cases h
  all_goals rename_i hcls
  all_goals have hn := className_of hcls
  all_goals dsimp only at hn
  all_goals subst hn
  · obtain ⟨c, h1, rfl⟩ := map_ok h
    exact ⟨⟨hname, _, saysMass_of h1⟩, body_none rfl⟩
  · obtain ⟨pos, i, n, ro, h1, h2, h3, rfl⟩ := readNose_ok h
    refine ⟨⟨hname, ⟨_, h1⟩, h2, h3⟩, ?_⟩
    rintro b hb
    obtain rfl := Option.some.inj hb
    obtain ⟨p, hp, e⟩ := saysMass_position h1
    have ez : pos.z = site.position.z + p.z := by rw [e]; rfl
    refine ⟨⟨p, hp, ez, Or.inl ⟨hname, _, _, h2.2.1, h2.1, rfl⟩⟩, ?_⟩
    intro z R hz1 hz2 hR
    dsimp only at hz1 hz2 hR
    rw [ez] at hz1 hz2 hR
    refine ⟨p, hp, hz1, Or.inl ⟨hname, n, h2, hz2, ?_⟩⟩
    unfold Nose.radiusE at hR
    split at hR
    · cases hR
    · rename_i x hx
      obtain rfl := Except.ok.inj hR
      exact hx
    · cases hR
  · obtain ⟨pos, i, len, dm, ro, h1, h2, h3, h4, rfl⟩ := readTube_ok h
    refine ⟨⟨hname, h1, h2, h3, h4⟩, ?_⟩
    rintro b hb
    obtain rfl := Option.some.inj hb
    obtain ⟨p, hp, e⟩ := saysMass_position h1
    have ez : pos.z = site.position.z + p.z := by rw [e]; rfl
    refine ⟨⟨p, hp, ez, Or.inr ⟨Or.inl hname, h2⟩⟩, ?_⟩
    intro z R hz1 hz2 hR
    dsimp only at hz1 hz2 hR
    rw [ez] at hz1 hz2
    exact ⟨p, hp, hz1, Or.inr (Or.inl ⟨hname, len, dm, h2, h3, hz2, (Except.ok.inj hR).symm⟩)⟩
  · unfold readTransition at h
    obtain ⟨⟨i, t, ro⟩, h1, h⟩ := bind_ok h
    obtain ⟨h2, h3, h4⟩ := readCone_ok h1
    obtain rfl := Except.ok.inj h
    refine ⟨⟨hname, h2, h3, h4⟩, ?_⟩
    rintro b hb
    obtain rfl := Option.some.inj hb
    obtain ⟨p, hp, e⟩ := saysMass_position h2
    refine ⟨⟨p, hp, (by show t.position.z = _; rw [e]; rfl), Or.inr ⟨Or.inr (Or.inl hname), h3.2.2⟩⟩, ?_⟩
    intro z R hz1 hz2 hR
    exact cone_radius (Or.inl hname) h2 h3 z R hz1 hz2 hR
  · unfold readTail at h
    obtain ⟨⟨i, t, ro⟩, h1, h⟩ := bind_ok h
    obtain ⟨h2, h3, h4⟩ := readCone_ok h1
    obtain rfl := Except.ok.inj h
    refine ⟨⟨hname, h2, h3, h4⟩, ?_⟩
    rintro b hb
    obtain rfl := Option.some.inj hb
    obtain ⟨p, hp, e⟩ := saysMass_position h2
    refine ⟨⟨p, hp, (by show t.position.z = _; rw [e]; rfl), Or.inr ⟨Or.inr (Or.inr hname), h3.2.2⟩⟩, ?_⟩
    intro z R hz1 hz2 hR
    exact cone_radius (Or.inr hname) h2 h3 z R hz1 hz2 hR
  · obtain ⟨f, z, h1, rfl⟩ := readFins_ok h
    exact ⟨⟨hname, h1⟩, body_none rfl⟩
  · obtain ⟨m, off, z, h1, rfl⟩ := readMotor_ok hname h
    exact ⟨⟨m, h1, Or.inl rfl⟩, body_none rfl⟩
  · obtain ⟨f, h1, rfl⟩ := map_ok h
    exact ⟨⟨hname, (fixedForce_spec _ _ f).1 h1⟩, body_none rfl⟩
  · unfold readAero at h
    obtain ⟨a, h1, h⟩ := bind_ok h
    obtain rfl := Except.ok.inj h
    obtain ⟨h2, h3, h4, cd, cl, m, h5, h6, h7, h8⟩ := (aeroForce_spec _ _ a).1 h1
    refine ⟨⟨hname, h2, h3, h4, ?_⟩, body_none rfl⟩
    rw [h8]
    exact ⟨h5, h6, h7⟩
  · unfold readDamping at h
    obtain ⟨aref, h1, h⟩ := bind_ok h
    obtain ⟨lref, h2, h⟩ := bind_ok h
    obtain ⟨cz, h3, h⟩ := bind_ok h
    obtain ⟨cy, h4, h⟩ := bind_ok h
    obtain ⟨cx, h5, h⟩ := bind_ok h
    obtain rfl := Except.ok.inj h
    exact ⟨⟨hname, hasVector_of h5, hasVector_of h4, hasVector_of h3, hasFloat_of h1, hasFloat_of h2⟩, body_none rfl⟩
  · obtain ⟨x, h1, rfl⟩ := map_ok h
    exact ⟨⟨hname, hasFloat_of h1⟩, body_none rfl⟩
  · unfold readTable at h
    obtain ⟨file, h1, h⟩ := bind_ok h
    obtain ⟨rows, h2, h⟩ := bind_ok h
    obtain ⟨t, h3, h⟩ := bind_ok h
    obtain ⟨i, h4, h⟩ := bind_ok h
    obtain rfl := Except.ok.inj h
    refine ⟨⟨hname, file, rows, h1, h2, ?_⟩, body_none rfl⟩
    unfold loadInertia at h3
    split at h3
    · cases h3
    split at h3
    · cases h3
    exact (Except.ok.inj h3).symm
  · unfold readRecovery at h
    obtain ⟨c, h1, h⟩ := bind_ok h
    obtain ⟨n, _, h⟩ := bind_ok h
    obtain ⟨cs, _, h⟩ := bind_ok h
    obtain ⟨_, _, h⟩ := bind_ok h
    obtain rfl := Except.ok.inj h
    exact ⟨⟨hname, _, saysMass_of h1⟩, body_none rfl⟩
  · cases h
  · cases h

end Mapleaf.Rocket
