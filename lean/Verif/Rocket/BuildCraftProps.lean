import Verif.Rocket.BuildProps
import Verif.Rocket.MotorProps

/-!
# C98, second part: stages and rocket
-/

namespace Mapleaf.Rocket
open Mapleaf.Motion V3

/-! ## Lists -/

theorem mapE_forall2 {X Y : Type} (f : X → Except PyErr Y) (l : List X) (m : List Y) :
    Body.mapE f l = .ok m ↔ List.Forall₂ (fun x y => f x = .ok y) l m := by
  induction l generalizing m with
  | nil =>
    constructor
    · intro h; obtain rfl := Except.ok.inj h; exact .nil
    · intro h; cases h; rfl
  | cons x l ih =>
    unfold Body.mapE
    constructor
    · intro h
      cases hy : f x with
      | error e => rw [hy] at h; cases h
      | ok y =>
        rw [hy] at h
        cases hys : Body.mapE f l with
        | error e => rw [hys] at h; cases h
        | ok ys =>
          rw [hys] at h
          obtain rfl := Except.ok.inj h
          exact .cons hy ((ih ys).1 hys)
    · intro h
      cases h with
      | cons h1 h2 => rw [h1, (ih _).2 h2]

theorem forall2_perm {X Y : Type} {R : X → Y → Prop} {l : List X} {m m' : List Y} (h : List.Forall₂ R l m) (hp : m'.Perm m) :
    ∃ l', l'.Perm l ∧ List.Forall₂ R l' m' := by
  replace hp := hp.symm
  induction hp generalizing l with
  | nil => exact ⟨l, .refl _, h⟩
  | cons x _ ih =>
    cases h with
    | cons h1 h2 =>
      obtain ⟨l', e1, e2⟩ := ih h2
      exact ⟨_, e1.cons _, .cons h1 e2⟩
  | swap x y l0 =>
    cases h with
    | cons h1 h2 =>
      cases h2 with
      | cons h2 h3 => exact ⟨_, List.Perm.swap _ _ _, .cons h2 (.cons h1 h3)⟩
  | trans _ _ ih1 ih2 =>
    obtain ⟨l1, e1, e2⟩ := ih1 h
    obtain ⟨l2, e3, e4⟩ := ih2 e2
    exact ⟨l2, e3.trans e1, e4⟩

/-! ## Components of a complete stage -/

theorem partSays_mono {src : Source} {rough : ℝ} {stage : V3 ℝ} {A B : List Str} {path : Str} {p : Part} (hAB : ∀ c ∈ A, c ∈ B)
    (h : PartSays src rough stage A path p) : PartSays src rough stage B path p := by
  cases p with
  | boatTail i t ro off =>
    obtain ⟨h1, h2, h3, h4, h5⟩ := h
    exact ⟨h1, h2, h3, h4, fun x hx => (h5 x hx).imp fun c hc => ⟨hAB c hc.1, hc.2⟩⟩
  | fins i p =>
    obtain ⟨h1, h2, h3, ⟨c, h4, h5⟩, h6⟩ := h
    exact ⟨h1, h2, h3, ⟨c, hAB c h4, h5⟩, h6⟩
  | jet a b x =>
    obtain ⟨h1, h2, c, h3, h4⟩ := h
    exact ⟨h1, h2, c, hAB c h3, h4⟩
  | _ => exact h

/-- the boat tail added at the end of the rocket -/
noncomputable def autoTail (d rough : ℝ) (stage : V3 ℝ) (z : ℝ) : Draft :=
  ⟨z, some ((⟨d, d, 0, ⟨stage.x, stage.y, z⟩⟩ : Trans).body false), .tail zeroInertia ⟨d, d, 0, ⟨stage.x, stage.y, z⟩⟩ rough⟩

/-- the components of a stage are those of its dictionaries, in any order, followed by `tail` -/
def Drafted (src : Source) (rough : ℝ) (comps : List Str) (s : StageDraft) (tail : List Draft) : Prop :=
  ∃ order ds, order.Perm comps ∧
    List.Forall₂ (fun p d => DraftSays src ⟨rough, s.position⟩ p d ∧ BodySays src ⟨rough, s.position⟩ p d) order ds ∧ s.drafts = ds ++ tail

theorem drafted_mem {src : Source} {rough : ℝ} {comps : List Str} {s : StageDraft} {tail : List Draft} (h : Drafted src rough comps s tail)
    (d : Draft) (hd : d ∈ s.drafts) :
    (∃ c ∈ comps, DraftSays src ⟨rough, s.position⟩ c d ∧ BodySays src ⟨rough, s.position⟩ c d) ∨ d ∈ tail := by
  obtain ⟨order, ds, h1, h2, h3⟩ := h
  rw [h3, List.mem_append] at hd
  rcases hd with hd | hd
  · obtain ⟨i, hi, rfl⟩ := List.mem_iff_getElem.1 hd
    have hl := h2.length_eq
    refine Or.inl ⟨order[i]'(by omega), h1.mem_iff.1 (List.getElem_mem _), ?_⟩
    exact (List.forall₂_iff_get.1 h2).2 i (by omega) hi
  · exact Or.inr hd

theorem motor_mem {s : StageDraft} {m : Motor ℝ} {off : ℝ} (h : s.motor = some (m, off)) : ∃ d ∈ s.drafts, d.kind = .motor m off true := by
  unfold StageDraft.motor at h
  obtain ⟨d, hd, h⟩ := List.exists_of_findSome?_eq_some h
  refine ⟨d, hd, ?_⟩
  split at h
  · rename_i m' off' hk
    obtain ⟨rfl, rfl⟩ := Prod.mk.inj (Option.some.inj h)
    exact hk
  · cases h

theorem motor_says {src : Source} {rough : ℝ} {comps : List Str} {s : StageDraft} {tail : List Draft} (h : Drafted src rough comps s tail)
    (ht : ∀ d ∈ tail, ∃ z dm, d = autoTail dm rough s.position z) {m : Motor ℝ} {off : ℝ} (hm : s.motor = some (m, off)) :
    ∃ c ∈ comps, ∃ m0, SaysMotor src (src.dict c) s.position m0 off ∧ (m = m0 ∨ m = { m0 with ignition := 1000000000 }) := by
  obtain ⟨d, hd, hk⟩ := motor_mem hm
  rcases drafted_mem h d hd with ⟨c, hc, h1, -⟩ | h1
  · unfold DraftSays at h1
    rw [hk] at h1
    exact ⟨c, hc, h1⟩
  · obtain ⟨z, dm, rfl⟩ := ht d h1
    cases hk

theorem stageRadius_ok {posZ d R : ℝ} {comps : List (BodyComp ℝ)} (h : stageRadius posZ comps d = .ok R) :
    ∃ b, some b ∈ comps ∧ posZ - d ≤ b.z ∧ b.z - b.length ≤ posZ - d ∧ b.radius (b.z - (posZ - d)) = .ok R := by
  induction comps with
  | nil => cases h
  | cons c l ih =>
    have up : stageRadius posZ l d = .ok R → ∃ b, some b ∈ c :: l ∧ posZ - d ≤ b.z ∧ b.z - b.length ≤ posZ - d ∧
        b.radius (b.z - (posZ - d)) = .ok R := fun h => by
      obtain ⟨b, h1, h2⟩ := ih h
      exact ⟨b, List.mem_cons_of_mem _ h1, h2⟩
    cases c with
    | none => exact up h
    | some b =>
      rw [stageRadius] at h
      split at h
      · rename_i hz
        split at h
        · exact up h
        · exact ⟨b, by simp, hz.1, hz.2, h⟩
      · exact up h

theorem finSet_fields {geom : FinGeom} {th ro : ℝ} {le : LeadEdge} {tr : TrailEdge} {pos : V3 ℝ} {cf : ℝ} {x : Fin 6 → ℝ} {d : Nat → ℝ → ℝ}
    {p : FinSet} (h : FinSet.build geom th ro le tr pos cf x d = .ok p) :
    p.shape.geom = geom ∧ p.shape.thickness = th ∧ p.shape.roughness = ro ∧ p.shape.lead = le ∧ p.shape.trail = tr ∧ p.position = pos ∧
      p.cpCoeffs = x ∧ p.deflection = d := by
  unfold FinSet.build at h
  obtain ⟨_, _, h⟩ := bind_ok h
  obtain ⟨_, _, h⟩ := bind_ok h
  obtain ⟨_, _, h⟩ := bind_ok h
  obtain ⟨_, _, h⟩ := bind_ok h
  obtain ⟨_, _, h⟩ := bind_ok h
  obtain rfl := Except.ok.inj h
  exact ⟨rfl, rfl, rfl, rfl, rfl, rfl, rfl, rfl⟩

theorem finish_says {src : Source} {rough : ℝ} {comps : List Str} {s : StageDraft} {tail : List Draft} (h : Drafted src rough comps s tail)
    (ht : ∀ d ∈ tail, ∃ z dm, d = autoTail dm rough s.position z) {turb : Bool} {path : Str} {d : Draft}
    (hd : DraftSays src ⟨rough, s.position⟩ path d) {p : Part} (hp : d.kind.finish src turb s = .ok p) :
    PartSays src rough s.position comps path p := by
  obtain ⟨z, body, kind⟩ := d
  unfold DraftSays at hd
  cases kind with
  | ready q =>
    obtain rfl := Except.ok.inj hp
    exact partSays_mono (by simp) hd
  | tail i t ro =>
    obtain rfl := Except.ok.inj hp
    refine ⟨hd.1, hd.2.1, hd.2.2.1, hd.2.2.2, fun x hx => ?_⟩
    cases hm : s.motor with
    | none => rw [hm] at hx; cases hx
    | some mo =>
      obtain ⟨m, off⟩ := mo
      rw [hm] at hx
      obtain rfl := Option.some.inj hx
      obtain ⟨c, hc, m0, h1, -⟩ := motor_says h ht hm
      exact ⟨c, hc, m0, h1⟩
  | fins f =>
    obtain ⟨hc, hs⟩ := hd
    change f.finish src turb s = .ok p at hp
    unfold FinSpec.finish at hp
    obtain ⟨R, hR, hp⟩ := bind_ok hp
    dsimp only at hp
    obtain ⟨q, hq, hp⟩ := bind_ok hp
    obtain rfl := Except.ok.inj hp
    obtain ⟨e1, e2, e3, e4, e5, e6, e7, e8⟩ := finSet_fields hq
    refine ⟨hc, by rw [e6]; exact hs.mass, ?_, ?_, ?_⟩
    · unfold SaysFins
      rw [e1, e2, e3, e4, e5, e8]
      exact ⟨hs.count, hs.slices, hs.first, hs.cant, hs.sweep, hs.root, hs.tip, hs.span, hs.thickness, hs.roughness, hs.lead, hs.trail,
        fun _ _ => hs.cant⟩
    · rw [e1, e6]
      obtain ⟨b, hb, h1, h2, h3⟩ := stageRadius_ok hR
      rw [show s.position.z - (s.position.z - f.position.z) = f.position.z by ring] at h1 h2 h3
      obtain ⟨d', hd', hb'⟩ := List.mem_map.1 hb
      rcases drafted_mem h d' hd' with ⟨c, hc', -, h4⟩ | h4
      · exact ⟨c, hc', (h4 b hb').2 _ R h1 h2 h3⟩
      · obtain ⟨z', dm, rfl⟩ := ht d' h4
        obtain rfl := Option.some.inj hb'
        change Trans.getRadius _ _ = _ at h3
        unfold Trans.getRadius at h3
        rw [if_pos rfl] at h3
        cases h3
    · rw [e1, e6, e7, e8]
      exact ⟨_, _, _, _, _, hq⟩
  | motor m off main =>
    obtain rfl := Except.ok.inj hp
    obtain ⟨m0, h1, h2⟩ := hd
    exact ⟨m0, off, h1, h2⟩
  | jet x =>
    change (match s.motor with | none => Except.error PyErr.attributeError | some (m, off) => .ok (Part.jet m.ignition off x)) = .ok p at hp
    cases hm : s.motor with
    | none => rw [hm] at hp; cases hp
    | some mo =>
      obtain ⟨m, off⟩ := mo
      rw [hm] at hp
      obtain rfl := Except.ok.inj hp
      obtain ⟨c, hc, m0, h1, h2⟩ := motor_says h ht hm
      refine ⟨hd.1, hd.2, c, hc, m0, h1, ?_⟩
      rcases h2 with rfl | rfl
      · obtain ⟨-, _, _, _, _, _, _, _, _, _, hb⟩ := h1
        exact Or.inl (build_ok hb).2.2.2.2.2.2.2.2.2.2.2.1
      · exact Or.inr rfl

/-! ## Stages -/

/-- a motor that waits for its stage's turn -/
def Part.Waits (p : Part) : Prop := ∃ m, p = .motor m ∧ m.ignition = 1000000000

/-- `stage.motor` -/
def Draft.isMain (d : Draft) : Bool :=
  match d.kind with
  | .motor _ _ true => true
  | _ => false

/-- any motor -/
def Draft.isMotor (d : Draft) : Bool :=
  match d.kind with
  | .motor _ _ _ => true
  | _ => false

theorem mark_count (ds : List Draft) : (markMotors ds).countP Draft.isMain = if ds.any Draft.isMotor then 1 else 0 := by
  induction ds with
  | nil => rfl
  | cons d ds ih =>
    obtain ⟨z, b, k⟩ := d
    cases k with
    | motor m off mn =>
      have e : (ds.all fun e => match e.kind with | .motor _ _ _ => false | _ => true) = !(ds.any Draft.isMotor) := by
        rw [List.not_any_eq_all_not]
        congr 1
        funext e
        unfold Draft.isMotor
        cases e.kind <;> rfl
      show List.countP Draft.isMain (({ z := z, body := b, kind := .motor m off (ds.all fun e => match e.kind with | .motor _ _ _ => false | _ => true) } : Draft) :: markMotors ds) = _
      rw [e, List.countP_cons, ih]
      have h1 : (⟨z, b, .motor m off mn⟩ :: ds : List Draft).any Draft.isMotor = true := by simp [Draft.isMotor]
      rw [h1]
      cases ds.any Draft.isMotor <;> simp [Draft.isMain]
    | _ =>
      simp only [markMotors, List.countP_cons, ih, List.any_cons]
      simp [Draft.isMain, Draft.isMotor]

theorem mark_says {src : Source} {site : Site} {order : List Str} {ds : List Draft}
    (h : List.Forall₂ (fun p d => readPart src site p = .ok d) order ds) :
    List.Forall₂ (fun p d => DraftSays src site p d ∧ BodySays src site p d) order (markMotors ds) := by
  induction h with
  | nil => exact .nil
  | @cons p d order ds h1 h2 ih =>
    obtain ⟨h3, h4⟩ := readPart_says h1
    obtain ⟨z, b, k⟩ := d
    cases k with
    | motor m off mn => exact .cons ⟨h3, h4⟩ ih
    | _ => exact .cons ⟨h3, h4⟩ ih

/-- no motor waits yet -/
def Draft.Unlit (d : Draft) : Prop :=
  (∀ m off mn, d.kind = .motor m off mn → m.ignition = 0) ∧ ∀ q, d.kind = .ready q → ¬ q.Waits

theorem readPart_unlit {src : Source} {site : Site} {path : Str} {d : Draft} (h1 : readPart src site path = .ok d) : d.Unlit := by
  unfold readPart at h1
  dsimp only at h1
  split at h1
  · cases h1
  rename_i name hname
  split at h1
  · cases h1
  all_goals rename_i hcls
  · obtain ⟨c, -, rfl⟩ := map_ok h1; simp [Draft.Unlit, Part.Waits]
  · obtain ⟨_, _, _, _, _, _, _, rfl⟩ := readNose_ok h1; simp [Draft.Unlit, Part.Waits]
  · obtain ⟨_, _, _, _, _, _, _, _, _, rfl⟩ := readTube_ok h1; simp [Draft.Unlit, Part.Waits]
  · unfold readTransition at h1
    obtain ⟨_, _, h1⟩ := bind_ok h1
    rw [← Except.ok.inj h1]; simp [Draft.Unlit, Part.Waits]
  · unfold readTail at h1
    obtain ⟨_, _, h1⟩ := bind_ok h1
    rw [← Except.ok.inj h1]; simp [Draft.Unlit]
  · obtain ⟨_, _, _, rfl⟩ := readFins_ok h1; simp [Draft.Unlit]
  · have hn := className_of hcls
    dsimp only at hn
    subst hn
    obtain ⟨m', off', z, h2, rfl⟩ := readMotor_ok hname h1
    refine ⟨fun m off mn hk => ?_, by simp⟩
    simp only [DraftKind.motor.injEq] at hk
    rw [← hk.1]
    obtain ⟨-, _, _, _, _, _, _, _, _, _, hb⟩ := h2
    exact (build_ok hb).2.2.2.2.2.2.2.2.2.2.2.1
  · obtain ⟨c, -, rfl⟩ := map_ok h1; simp [Draft.Unlit, Part.Waits]
  · unfold readAero at h1
    obtain ⟨_, _, h1⟩ := bind_ok h1
    rw [← Except.ok.inj h1]; simp [Draft.Unlit, Part.Waits]
  · unfold readDamping at h1
    obtain ⟨_, _, h1⟩ := bind_ok h1
    obtain ⟨_, _, h1⟩ := bind_ok h1
    obtain ⟨_, _, h1⟩ := bind_ok h1
    obtain ⟨_, _, h1⟩ := bind_ok h1
    obtain ⟨_, _, h1⟩ := bind_ok h1
    rw [← Except.ok.inj h1]; simp [Draft.Unlit, Part.Waits]
  · obtain ⟨c, -, rfl⟩ := map_ok h1; simp [Draft.Unlit]
  · unfold readTable at h1
    obtain ⟨_, _, h1⟩ := bind_ok h1
    obtain ⟨_, _, h1⟩ := bind_ok h1
    obtain ⟨_, _, h1⟩ := bind_ok h1
    obtain ⟨_, _, h1⟩ := bind_ok h1
    rw [← Except.ok.inj h1]; simp [Draft.Unlit, Part.Waits]
  · unfold readRecovery at h1
    obtain ⟨_, _, h1⟩ := bind_ok h1
    obtain ⟨_, _, h1⟩ := bind_ok h1
    obtain ⟨_, _, h1⟩ := bind_ok h1
    obtain ⟨_, _, h1⟩ := bind_ok h1
    rw [← Except.ok.inj h1]; simp [Draft.Unlit, Part.Waits]
  · cases h1
  · cases h1

theorem mark_unlit (ds : List Draft) (h : ∀ d ∈ ds, d.Unlit) : ∀ d ∈ markMotors ds, d.Unlit := by
  induction ds with
  | nil => intro d hd; cases hd
  | cons d0 ds ih =>
    intro d hd
    have h0 := h d0 (by simp)
    have ih := ih fun d hd => h d (List.mem_cons_of_mem _ hd)
    obtain ⟨z, b, k⟩ := d0
    cases k with
    | motor m0 off0 mn0 =>
      rcases List.mem_cons.1 hd with rfl | hd
      · refine ⟨fun m off mn hk => ?_, by simp⟩
        simp only [DraftKind.motor.injEq] at hk
        rw [← hk.1]
        exact h0.1 m0 off0 mn0 rfl
      · exact ih d hd
    | _ =>
      rcases List.mem_cons.1 hd with rfl | hd
      · exact h0
      · exact ih d hd

/-- the overrides of a stage: given or not; the centre of gravity is relative to the stage -/
def SaysOverrides (r : Reader ℝ) (stage : V3 ℝ) (o : Overrides ℝ) : Prop :=
  ∃ c, OptVector r "constCG" c ∧ OptVector r "constMOI" o.moi ∧ OptFloat r "constMass" o.mass ∧ o.cg = c.map (fun x => stage + x)

/-- a stage as its dictionary says, with `tail` at its end -/
structure Staged (src : Source) (rough : ℝ) (path : Str) (s : StageDraft) (tail : List Draft) : Prop where
  number : ∃ n, HasInt src (src.dict path) "stageNumber" n
  position : HasVector (src.dict path) "position" s.position
  comps : Drafted src rough (src.subs path) s tail
  over : SaysOverrides (src.dict path) s.position s.over

/-- before the motors of upper stages are told to wait -/
structure Fresh (s : StageDraft) : Prop where
  unlit : ∀ d ∈ s.drafts, d.Unlit
  one : s.drafts.countP Draft.isMain ≤ 1

theorem readStage_ok {src : Source} {rough : ℝ} {path : Str} {s : StageDraft} (h : readStage src rough path = .ok s) :
    Staged src rough path s [] ∧ Fresh s := by
  unfold readStage at h
  dsimp only at h
  obtain ⟨n, h1, h⟩ := bind_ok h
  obtain ⟨pos, h2, h⟩ := bind_ok h
  obtain ⟨_, _, h⟩ := bind_ok h
  obtain ⟨_, _, h⟩ := bind_ok h
  obtain ⟨_, _, h⟩ := bind_ok h
  obtain ⟨order, h3, h⟩ := bind_ok h
  obtain ⟨ds, h4, h⟩ := bind_ok h
  obtain ⟨⟨cg, moi, mass⟩, h5, h⟩ := bind_ok h
  obtain rfl := Except.ok.inj h
  have h6 := (mapE_forall2 _ _ _).1 h4
  refine ⟨⟨⟨n, hasInt_of h1⟩, hasVector_of h2, ⟨order, markMotors ds, (buildOrder_spec _ _ _ h3).1, mark_says h6, by simp⟩,
    (stageOverrides_spec _ _ _ _ _).1 h5⟩, ⟨mark_unlit ds fun d hd => ?_, ?_⟩⟩
  · obtain ⟨p, -, hp⟩ := mapE_mem _ _ _ h4 d hd
    exact readPart_unlit hp
  show (markMotors ds).countP Draft.isMain ≤ 1
  rw [mark_count]
  split <;> omega

theorem sorted_ok {src : Source} {rough : ℝ} {path : Str} {s : StageDraft} (h : Staged src rough path s [] ∧ Fresh s) :
    Staged src rough path s.sorted [] ∧ Fresh s.sorted := by
  have hp : (orderByZ Draft.z s.drafts).Perm s.drafts := (orderByZ_spec _ _).1
  obtain ⟨⟨h1, h2, ⟨order, ds, h3, h4, h5⟩, h6⟩, ⟨h7, h8⟩⟩ := h
  rw [List.append_nil] at h5
  subst h5
  obtain ⟨order', h9, h10⟩ := forall2_perm h4 hp
  exact ⟨⟨h1, h2, ⟨order', _, h9.trans h3, h10, by simp [StageDraft.sorted]⟩, h6⟩, ⟨fun d hd => h7 d (hp.mem_iff.1 hd), by
    show (orderByZ Draft.z s.drafts).countP _ ≤ 1
    rw [hp.countP_eq]; exact h8⟩⟩

theorem wait_ok {src : Source} {rough : ℝ} {path : Str} {s s' : StageDraft} {tail : List Draft} (h : Staged src rough path s tail) (hf : Fresh s)
    (ht : ∀ d ∈ tail, ∃ z dm, d = autoTail dm rough s.position z) (hw : s.wait = .ok s') :
    Staged src rough path s' tail ∧ s'.position = s.position ∧ s.drafts.countP Draft.isMain = 1 ∧
      List.Forall₂ (fun d d' : Draft => (d.isMain = true ↔ ∃ m off mn, d'.kind = .motor m off mn ∧ m.ignition = 1000000000)) s.drafts s'.drafts ∧
      s'.over = s.over := by
  unfold StageDraft.wait at hw
  split at hw
  · cases hw
  rename_i mo hmo
  obtain ⟨m, off⟩ := mo
  obtain rfl := Except.ok.inj hw
  obtain ⟨h1, h2, ⟨order, ds, h3, h4, h5⟩, h6⟩ := h
  have htail : tail.map Draft.wait = tail := by
    have : ∀ d ∈ tail, d.wait = id d := by
      intro d hd
      obtain ⟨z, dm, rfl⟩ := ht d hd
      rfl
    rw [List.map_congr_left this, List.map_id]
  refine ⟨⟨h1, h2, ⟨order, ds.map Draft.wait, h3, ?_, by dsimp only; rw [h5, List.map_append, htail]⟩, h6⟩, rfl, ?_, ?_, rfl⟩
  · rw [List.forall₂_map_right_iff]
    refine h4.imp ?_
    rintro p ⟨z, b, k⟩ ⟨hd, hb⟩
    cases k with
    | motor m off mn =>
      cases mn with
      | false => exact ⟨hd, hb⟩
      | true =>
        refine ⟨?_, hb⟩
        obtain ⟨m0, e1, e2⟩ := hd
        refine ⟨m0, e1, Or.inr ?_⟩
        rcases e2 with rfl | rfl <;> rfl
    | _ => exact ⟨hd, hb⟩
  · have h7 := hf.one
    obtain ⟨d, hd, hk⟩ := motor_mem hmo
    have : 0 < s.drafts.countP Draft.isMain := List.countP_pos_iff.2 ⟨d, hd, by simp [Draft.isMain, hk]⟩
    omega
  · dsimp only
    rw [List.forall₂_map_right_iff, List.forall₂_same]
    rintro ⟨z, b, k⟩ hd
    cases k with
    | motor m off mn =>
      have h0 := (hf.unlit _ hd).1 m off mn rfl
      cases mn with
      | false =>
        simp only [Draft.isMain, DraftKind.motor.injEq, false_iff, not_exists, not_and]
        constructor
        · intro h; cases h
        · rintro ⟨m', off', mn', ⟨rfl, -, -⟩, e⟩
          rw [h0] at e
          norm_num at e
      | true => exact ⟨fun _ => ⟨_, _, _, rfl, rfl⟩, fun _ => rfl⟩
    | _ => simp [Draft.isMain, Draft.wait]

theorem countP_forall2 {X Y : Type} {P : X → Bool} {Q : Y → Bool} {l : List X} {m : List Y}
    (h : List.Forall₂ (fun x y => (P x = true ↔ Q y = true)) l m) : l.countP P = m.countP Q := by
  induction h with
  | nil => rfl
  | @cons a b _ _ h1 _ ih =>
    rw [List.countP_cons, List.countP_cons, ih]
    congr 1
    by_cases hp : P a = true
    · rw [if_pos hp, if_pos (h1.1 hp)]
    · rw [if_neg hp, if_neg fun hq => hp (h1.2 hq)]

theorem finish_waits {src : Source} {turb : Bool} {s : StageDraft} {d : Draft} {p : Part} (h : d.kind.finish src turb s = .ok p)
    (hr : ∀ q, d.kind = .ready q → ¬ q.Waits) :
    p.Waits ↔ ∃ m off mn, d.kind = .motor m off mn ∧ m.ignition = 1000000000 := by
  obtain ⟨z, b, k⟩ := d
  cases k with
  | ready q =>
    obtain rfl := Except.ok.inj h
    simp [hr _ rfl]
  | tail i t ro =>
    obtain rfl := Except.ok.inj h
    simp [Part.Waits]
  | fins f =>
    change f.finish src turb s = .ok p at h
    unfold FinSpec.finish at h
    obtain ⟨R, hR, h⟩ := bind_ok h
    dsimp only at h
    obtain ⟨q, hq, h⟩ := bind_ok h
    obtain rfl := Except.ok.inj h
    simp [Part.Waits]
  | motor m off mn =>
    obtain rfl := Except.ok.inj h
    simp [Part.Waits]
  | jet x =>
    change (match s.motor with | none => Except.error PyErr.attributeError | some (m, off) => .ok (Part.jet m.ignition off x)) = .ok p at h
    split at h
    · cases h
    · obtain rfl := Except.ok.inj h
      simp [Part.Waits]

/-! ## The rocket -/

/-- a switch of the definition -/
def SaysFlag (r : Reader ℝ) (key : String) (b : Bool) : Prop := ∃ s, r.text key.toList = .ok s ∧ Run.Fig.strtobool s = .ok b

/-- the boat tail without length a rocket gets at its lower end, to account for base drag: if its largest body tube has a diameter, the
switch is on, and the lowest stage has none of its own -/
def TailSays (src : Source) (d rough : ℝ) (path : Str) (stage : V3 ℝ) (tail : List Part) : Prop :=
  (tail = [] ∧ (d = 0 ∨ SaysFlag (src.dict "Rocket".toList) "Aero.addZeroLengthBoatTailsToAccountForBaseDrag" false ∨
      ∃ c ∈ src.subs path, SaysClass (src.dict c) "BoatTail")) ∨
  (0 < d ∧ SaysFlag (src.dict "Rocket".toList) "Aero.addZeroLengthBoatTailsToAccountForBaseDrag" true ∧
    ∃ z off, tail = [.boatTail zeroInertia ⟨d, d, 0, ⟨stage.x, stage.y, z⟩⟩ rough off] ∧
      ∃ c ∈ src.subs path, ∃ p len, HasVector (src.dict c) "position" p ∧ SaysLength (src.dict c) len ∧ z = stage.z + p.z - len)

open Classical in
/-- the stage `s` is what the dictionary `path` says, with a tail, and with a number of waiting motors -/
def StageSays (src : Source) (rough : ℝ) (path : Str) (tail : V3 ℝ → List Part → Prop) (waiting : Nat) (s : StageP) : Prop :=
  ∃ pos, HasVector (src.dict path) "position" pos ∧ (∃ n, HasInt src (src.dict path) "stageNumber" n) ∧
    SaysOverrides (src.dict path) pos s.over ∧
    (∃ order ps t, order.Perm (src.subs path) ∧ List.Forall₂ (PartSays src rough pos (src.subs path)) order ps ∧ tail pos t ∧ s.parts = ps ++ t) ∧
    s.parts.countP (fun p => decide p.Waits) = waiting

theorem tail_noMotor {d rough : ℝ} {stage : V3 ℝ} {z : ℝ} : (autoTail d rough stage z).Unlit := by simp [autoTail, Draft.Unlit]

theorem forall2_append_left {X Y : Type} {R : X → Y → Prop} {a b : List X} {m : List Y} (h : List.Forall₂ R (a ++ b) m) :
    ∃ m1 m2, m = m1 ++ m2 ∧ List.Forall₂ R a m1 ∧ List.Forall₂ R b m2 := by
  induction a generalizing m with
  | nil => exact ⟨[], m, rfl, .nil, h⟩
  | cons x a ih =>
    cases h with
    | cons h1 h2 =>
      obtain ⟨m1, m2, rfl, h3, h4⟩ := ih h2
      exact ⟨_ :: m1, m2, rfl, .cons h1 h3, h4⟩

theorem forall2_trans {X Y Z : Type} {R : X → Y → Prop} {S : Y → Z → Prop} {T : X → Z → Prop} (h : ∀ x y z, R x y → S y z → T x z)
    {a : List X} {b : List Y} {c : List Z} (h1 : List.Forall₂ R a b) (h2 : List.Forall₂ S b c) : List.Forall₂ T a c := by
  induction h1 generalizing c with
  | nil => cases h2; exact .nil
  | cons e _ ih =>
    cases h2 with
    | cons e' h2 => exact .cons (h _ _ _ e e') (ih h2)

/-- finishing a stage -/
theorem stageFinish_says {src : Source} {rough : ℝ} {path : Str} {s : StageDraft} {tail : List Draft} (h : Staged src rough path s tail)
    (ht : ∀ d ∈ tail, ∃ z dm, d = autoTail dm rough s.position z) {turb : Bool} {p : StageP} (hp : s.finish src turb = .ok p) :
    p.over = s.over ∧ List.Forall₂ (fun (d : Draft) q => d.kind.finish src turb s = .ok q) s.drafts p.parts ∧
    ∃ order ps t, order.Perm (src.subs path) ∧ List.Forall₂ (PartSays src rough s.position (src.subs path)) order ps ∧
      List.Forall₂ (fun (d : Draft) q => d.kind.finish src turb s = .ok q) tail t ∧ p.parts = ps ++ t := by
  unfold StageDraft.finish at hp
  obtain ⟨parts, h1, hp⟩ := bind_ok hp
  obtain rfl := Except.ok.inj hp
  have h2 := (mapE_forall2 _ _ _).1 h1
  refine ⟨rfl, h2, ?_⟩
  obtain ⟨order, ds, h3, h4, h5⟩ := h.comps
  rw [h5] at h2
  obtain ⟨ps, t, e, h6, h7⟩ := forall2_append_left h2
  exact ⟨order, ps, t, h3, forall2_trans (T := PartSays src rough s.position (src.subs path)) (fun p d q hd hq => finish_says h.comps ht hd.1 hq) h4 h6, h7, e⟩

open Classical in
theorem upper_says {src : Source} {rough : ℝ} {path : Str} {s s' : StageDraft} (h : Staged src rough path s []) (hf : Fresh s)
    (hw : s.wait = .ok s') {turb : Bool} {p : StageP} (hp : s'.finish src turb = .ok p) :
    StageSays src rough path (fun _ t => t = []) 1 p := by
  obtain ⟨h1, e1, h2, h3, -⟩ := wait_ok h hf (by simp) hw
  obtain ⟨e2, h4, order, ps, t, h5, h6, h7, e3⟩ := stageFinish_says h1 (by simp) hp
  refine ⟨s'.position, h1.position, h1.number, by rw [e2]; exact h1.over, ⟨order, ps, t, h5, h6, by cases h7; rfl, e3⟩, ?_⟩
  rw [← h2]
  symm
  apply countP_forall2
  have hun : List.Forall₂ (fun d d' : Draft => (d.isMain = true ↔ ∃ m off mn, d'.kind = .motor m off mn ∧ m.ignition = 1000000000) ∧
      ∀ q, d'.kind = .ready q → ¬ q.Waits) s.drafts s'.drafts := by
    have h8 : s'.drafts = s.drafts.map Draft.wait := by
      unfold StageDraft.wait at hw
      split at hw
      · cases hw
      · rw [← Except.ok.inj hw]
    rw [h8, List.forall₂_map_right_iff, List.forall₂_same] at h3 ⊢
    intro d hd
    refine ⟨h3 d hd, fun q hq => ?_⟩
    obtain ⟨z, b, k⟩ := d
    cases k with
    | ready q' => exact (hf.unlit _ hd).2 q hq
    | motor m off mn => cases mn <;> cases hq
    | _ => cases hq
  refine forall2_trans (fun d d' q hd hq => ?_) hun h4
  rw [decide_eq_true_eq, finish_waits hq hd.2]
  exact hd.1

open Classical in
theorem lowest_says {src : Source} {rough : ℝ} {path : Str} {s : StageDraft} {tail : List Draft} (h : Staged src rough path s tail)
    (hf : ∀ d ∈ s.drafts, d.Unlit) (ht : ∀ d ∈ tail, ∃ z dm, d = autoTail dm rough s.position z) {turb : Bool} {p : StageP}
    (hp : s.finish src turb = .ok p) :
    StageSays src rough path (fun pos t => pos = s.position ∧
      List.Forall₂ (fun (d : Draft) q => d.kind.finish src turb s = .ok q) tail t) 0 p := by
  obtain ⟨e2, h4, order, ps, t, h5, h6, h7, e3⟩ := stageFinish_says h ht hp
  refine ⟨s.position, h.position, h.number, by rw [e2]; exact h.over, ⟨order, ps, t, h5, h6, ⟨rfl, h7⟩, e3⟩, ?_⟩
  rw [List.countP_eq_zero]
  intro q hq
  rw [decide_eq_true_eq]
  obtain ⟨i, hi, rfl⟩ := List.mem_iff_getElem.1 hq
  have hl := h4.length_eq
  have h8 := (List.forall₂_iff_get.1 h4).2 i (by omega) hi
  simp only [List.get_eq_getElem] at h8
  have h9 := hf (s.drafts[i]'(by omega)) (List.getElem_mem _)
  rw [finish_waits h8 h9.2]
  rintro ⟨m, off, mn, e4, e5⟩
  rw [h9.1 m off mn e4] at e5
  norm_num at e5

theorem waitStages_ok {ups : List StageDraft} {low : StageDraft} {out : List StageDraft} (h : waitStages (ups ++ [low]) = .ok out) :
    ∃ ups', out = ups' ++ [low] ∧ List.Forall₂ (fun s s' : StageDraft => s.wait = .ok s') ups ups' := by
  induction ups generalizing out with
  | nil => obtain rfl := Except.ok.inj h; exact ⟨[], rfl, .nil⟩
  | cons s ups ih =>
    obtain ⟨t, rest, e⟩ : ∃ t rest, ups ++ [low] = t :: rest := List.exists_cons_of_ne_nil (by simp)
    rw [List.cons_append, e] at h
    unfold waitStages at h
    obtain ⟨s', h1, h⟩ := bind_ok h
    obtain ⟨out', h2, h⟩ := bind_ok h
    obtain rfl := Except.ok.inj h
    rw [← e] at h2
    obtain ⟨ups', rfl, h3⟩ := ih h2
    exact ⟨s' :: ups', rfl, .cons h1 h3⟩

theorem withTail_ok {src : Source} {d rough : ℝ} {path : Str} {s s' : StageDraft} (h : Staged src rough path s []) (hf : Fresh s)
    (hw : s.withTail d rough = .ok s') :
    ∃ z, Staged src rough path s' [autoTail d rough s.position z] ∧ (∀ x ∈ s'.drafts, x.Unlit) ∧ s'.position = s.position ∧
      ∃ c ∈ src.subs path, ∃ p len, HasVector (src.dict c) "position" p ∧ SaysLength (src.dict c) len ∧ z = s.position.z + p.z - len := by
  unfold StageDraft.withTail at hw
  split at hw
  · cases hw
  rename_i b hb
  dsimp only at hw
  obtain rfl := Except.ok.inj hw
  have hmem : some b ∈ s.drafts.map Draft.body := by
    unfold firstBody at hb
    obtain ⟨o, ho, e⟩ := List.exists_of_findSome?_eq_some hb
    rw [List.mem_reverse] at ho
    change o = some b at e
    rwa [e] at ho
  obtain ⟨d0, hd0, hb0⟩ := List.mem_map.1 hmem
  refine ⟨b.z - b.length, ⟨h.number, h.position, ?_, h.over⟩, ?_, rfl, ?_⟩
  · obtain ⟨order, ds, h3, h4, h5⟩ := h.comps
    exact ⟨order, ds, h3, h4, by rw [h5, List.append_nil]; rfl⟩
  · intro x hx
    rcases List.mem_append.1 hx with hx | hx
    · exact hf.unlit x hx
    · rw [List.mem_singleton] at hx
      rw [hx]
      simp [Draft.Unlit]
  · rcases drafted_mem h.comps d0 hd0 with ⟨c, hc, -, h1⟩ | h1
    · obtain ⟨⟨p, hp, hz, hl⟩, -⟩ := h1 b hb0
      exact ⟨c, hc, p, b.length, hp, hl, by rw [hz]⟩
    · cases h1

theorem hasTail_says {src : Source} {rough : ℝ} {path : Str} {s : StageDraft} (h : Staged src rough path s []) (ht : s.hasTail = true) :
    ∃ c ∈ src.subs path, SaysClass (src.dict c) "BoatTail" := by
  unfold StageDraft.hasTail at ht
  split at ht
  · rename_i d hd
    split at ht
    · rename_i i t ro hk
      have hmem := List.mem_of_find?_eq_some hd
      rw [List.mem_reverse] at hmem
      rcases drafted_mem h.comps d hmem with ⟨c, hc, h1, -⟩ | h1
      · unfold DraftSays at h1
        rw [hk] at h1
        exact ⟨c, hc, h1.1⟩
      · cases h1
    · cases ht
  · cases ht

theorem saysFlag_of {r : Reader ℝ} {key : String} {b : Bool} (h : getFlag r key.toList = .ok b) : SaysFlag r key b := by
  unfold getFlag at h
  split at h
  · cases h
  · rename_i s hs
    exact ⟨s, hs, h⟩

/-- **C98.** The rocket that is built is the one in the definition. Its stages are the dictionaries of the definition (all of them, once
each), from top to bottom; the components of each stage are its dictionaries (all of them, once each), with the numbers given there and the
places given there relative to the stage; the reference area is that of the widest body tube. Exactly one motor of each upper stage waits.
The one part that is not in the definition is a boat tail without length or mass at the lower end of the rocket. -/
theorem craft_says {src : Source} {c : Craft} (h : readCraft src = .ok c) : ∃ d rough,
    (0 ≤ d ∧ (∀ s ∈ stageDicts (src.subs "Rocket".toList), ∀ k ∈ src.subs s, ∀ x, TubeOf (src.dict "Rocket".toList) k x → x ≤ d) ∧
      (d = 0 ∨ ∃ s ∈ stageDicts (src.subs "Rocket".toList), ∃ k ∈ src.subs s, TubeOf (src.dict "Rocket".toList) k d)) ∧
    HasFloat (src.dict "Rocket".toList) "Aero.surfaceRoughness" rough ∧ c.ship.aref = Real.pi * (d / 2) ^ 2 ∧
    SaysFlag (src.dict "Rocket".toList) "Aero.fullyTurbulentBL" c.ship.turbulent ∧
    ∃ upper low ss s, (upper ++ [low]).Perm (stageDicts (src.subs "Rocket".toList)) ∧ c.stages = ss ++ [s] ∧
      List.Forall₂ (fun p => StageSays src rough p (fun _ t => t = []) 1) upper ss ∧ StageSays src rough low (TailSays src d rough low) 0 s ∧
      ∀ p ∈ upper, ∀ v w, HasVector (src.dict p) "position" v → HasVector (src.dict low) "position" w → w.z ≤ v.z := by
  unfold readCraft at h
  dsimp only at h
  obtain ⟨d, h1, h⟩ := bind_ok h
  obtain ⟨flag, h2, h⟩ := bind_ok h
  obtain ⟨turb, h3, h⟩ := bind_ok h
  obtain ⟨rough, h4, h⟩ := bind_ok h
  obtain ⟨built, h5, h⟩ := bind_ok h
  obtain ⟨tailed, h6, h⟩ := bind_ok h
  obtain ⟨waiting, h7, h⟩ := bind_ok h
  obtain ⟨stages, h8, h⟩ := bind_ok h
  obtain ⟨fin, h9, h⟩ := bind_ok h
  obtain rfl := Except.ok.inj h
  have hd := maxTubeDiameter_spec _ _ _ _ h1
  refine ⟨d, rough, hd, hasFloat_of h4, by dsimp only; ring, saysFlag_of h3, ?_⟩
  -- the stages in order
  have hb : List.Forall₂ (fun p s => Staged src rough p s [] ∧ Fresh s) (stageDicts (src.subs "Rocket".toList)) (built.map StageDraft.sorted) := by
    rw [List.forall₂_map_right_iff]
    exact ((createStages_pad _ _ _ _).1 h5).imp fun p s hs => sorted_ok (readStage_ok hs.2)
  obtain ⟨hperm, hsorted, -⟩ := orderByZ_spec (fun s : StageDraft => s.position.z) (built.map StageDraft.sorted)
  obtain ⟨order, hord, hss⟩ := forall2_perm hb hperm
  generalize orderByZ (fun s : StageDraft => s.position.z) (built.map StageDraft.sorted) = l at *
  have h8' := (mapE_forall2 _ _ _).1 h8
  -- there is a lowest one
  have hne : l ≠ [] := by
    rintro rfl
    cases hss
    unfold tailStages at h6
    split at h6
    · cases h6
    · obtain rfl := Except.ok.inj h6
      obtain rfl := Except.ok.inj h7
      cases h9
  obtain ⟨ups, low, rfl⟩ : ∃ ups low, l = ups ++ [low] := ⟨_, _, (List.dropLast_append_getLast hne).symm⟩
  obtain ⟨paths1, paths2, rfl, hs1, hs2⟩ : ∃ p1 p2, order = p1 ++ p2 ∧
      List.Forall₂ (fun p s => Staged src rough p s [] ∧ Fresh s) p1 ups ∧
      List.Forall₂ (fun p s => Staged src rough p s [] ∧ Fresh s) p2 [low] := by
    obtain ⟨m1, m2, e, e1, e2⟩ := forall2_append_left hss.flip
    exact ⟨m1, m2, e, e1.flip, e2.flip⟩
  cases hs2 with
  | cons hl hn =>
    rename_i pl _
    cases hn
    -- the tail
    have htail : ∃ low' tail, tailed = ups ++ [low'] ∧ Staged src rough pl low' tail ∧ (∀ x ∈ low'.drafts, x.Unlit) ∧
        low'.position = low.position ∧ ((tail = [] ∧ (d = 0 ∨ flag = false ∨ ∃ c ∈ src.subs pl, SaysClass (src.dict c) "BoatTail")) ∨
          (0 < d ∧ flag = true ∧ ∃ z, tail = [autoTail d rough low'.position z] ∧
            ∃ c ∈ src.subs pl, ∃ p len, HasVector (src.dict c) "position" p ∧ SaysLength (src.dict c) len ∧ z = low'.position.z + p.z - len)) := by
      unfold tailStages at h6
      split at h6
      · rename_i hpos
        rw [List.getLast?_append, List.getLast?_singleton, Option.some_or] at h6
        dsimp only at h6
        split at h6
        · rename_i hc
          obtain ⟨s', e1, e2⟩ := map_ok h6
          rw [List.dropLast_concat] at e2
          obtain ⟨z, e3, e4, e5, e6⟩ := withTail_ok hl.1 hl.2 e1
          exact ⟨s', _, e2.symm, e3, e4, e5, Or.inr ⟨hpos, hc.2, z, by rw [e5], by rw [e5]; exact e6⟩⟩
        · rename_i hc
          obtain rfl := Except.ok.inj h6
          refine ⟨low, [], rfl, hl.1, hl.2.unlit, rfl, Or.inl ⟨rfl, ?_⟩⟩
          rw [not_and_or] at hc
          rcases hc with hc | hc
          · exact Or.inr (Or.inr (hasTail_says hl.1 (by simpa using hc)))
          · exact Or.inr (Or.inl (by simpa using hc))
      · rename_i hpos
        obtain rfl := Except.ok.inj h6
        exact ⟨low, [], rfl, hl.1, hl.2.unlit, rfl, Or.inl ⟨rfl, Or.inl (le_antisymm (not_lt.1 hpos) hd.1)⟩⟩
    obtain ⟨low', tail, rfl, hl1, hl2, hl3, hl4⟩ := htail
    obtain ⟨ups', rfl, hw⟩ := waitStages_ok h7
    obtain ⟨ss, s1, rfl, hf1, hf2⟩ := forall2_append_left h8'
    cases hf2 with
    | cons hf2 hn =>
      cases hn
      refine ⟨paths1, pl, ss, _, hord, rfl, ?_, ?_, ?_⟩
      · exact forall2_trans (fun p s' q ha hb => ha s' q rfl hb) (forall2_trans (T := fun p s' => ∀ s'' q, s' = s'' →
          StageDraft.finish src turb s'' = .ok q → StageSays src rough p (fun _ t => t = []) 1 q)
          (fun p s s' ha hb s'' q e hq => by subst e; exact upper_says ha.1 ha.2 hb hq) hs1 hw) hf1
      · have ht : ∀ x ∈ tail, ∃ z dm, x = autoTail dm rough low'.position z := by
          intro x hx
          rcases hl4 with ⟨rfl, -⟩ | ⟨-, -, z, rfl, -⟩
          · cases hx
          · rw [List.mem_singleton] at hx
            exact ⟨z, d, hx⟩
        obtain ⟨pos, e1, e2, e3, ⟨ord, ps, t, e4, e5, ⟨e6, e7⟩, e8⟩, e9⟩ := lowest_says hl1 hl2 ht hf2
        subst e6
        refine ⟨_, e1, e2, e3, ⟨ord, ps, t, e4, e5, ?_, e8⟩, e9⟩
        rcases hl4 with ⟨rfl, e10⟩ | ⟨e10, e11, z, rfl, e12⟩
        · cases e7
          refine Or.inl ⟨rfl, e10.imp id (Or.imp (fun e => ?_) id)⟩
          rw [← e]
          exact saysFlag_of h2
        · cases e7 with
          | cons e7 hn =>
            cases hn
            obtain rfl := Except.ok.inj e7
            refine Or.inr ⟨e10, ?_, z, _, rfl, e12⟩
            rw [← e11]
            exact saysFlag_of h2
      · intro p hp v w hv hw'
        obtain ⟨i, hi, rfl⟩ := List.mem_iff_getElem.1 hp
        have hlen := hs1.length_eq
        have e := (List.forall₂_iff_get.1 hs1).2 i hi (by omega)
        simp only [List.get_eq_getElem] at e
        rw [hv.unique e.1.position, hw'.unique hl.1.position]
        exact (List.pairwise_append.1 hsorted).2.2 _ (List.getElem_mem _) _ (by simp)

end Mapleaf.Rocket
