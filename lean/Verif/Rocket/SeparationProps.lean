import Verif.Rocket.MissionProps
import Verif.Motion.InterpProps

/-!
# C100: what a separation does to mass, momentum and place
-/

namespace Mapleaf.Rocket
open Mapleaf.Motion V3 ENV

/-! ## Inertia of stages whose parts have changed -/

theorem mapE_append {X Y : Type} (f : X → Except PyErr Y) (l m : List X) :
    Body.mapE f (l ++ m) = match Body.mapE f l with
      | .error e => .error e
      | .ok a => match Body.mapE f m with
        | .error e => .error e
        | .ok b => .ok (a ++ b) := by
  generalize hr : Body.mapE f m = r
  induction l with
  | nil =>
    rw [List.nil_append, hr]
    cases r <;> rfl
  | cons x l ih =>
    rw [List.cons_append]
    unfold Body.mapE
    cases f x with
    | error e => rfl
    | ok y =>
      dsimp only
      rw [ih]
      cases Body.mapE f l with
      | error e => rfl
      | ok a => cases r <;> rfl

theorem addMOI_zero (c x : V3 ℝ) : Inertia.addMOI c x zeroInertia = x := by
  rw [Inertia.addMOI_spec _ _ _ rfl]
  have : Inertia.secondMoment c (zeroInertia : Inertia ℝ) = 0 := by
    apply V3.ext' <;> simp [Inertia.secondMoment, zeroInertia, Inertia.make]
  rw [this, add_zero]

theorem combine_zero (a : Inertia ℝ) (l : List (Inertia ℝ)) : a.combine (a :: l ++ [zeroInertia]) = a.combine (a :: l) := by
  have h1 : Inertia.withSelf a (a :: l ++ [zeroInertia]) = a :: l ++ [zeroInertia] := by unfold Inertia.withSelf; rw [if_pos (by simp)]
  have h2 : Inertia.withSelf a (a :: l) = a :: l := by unfold Inertia.withSelf; rw [if_pos (by simp)]
  have h3 : ∀ x : List (Inertia ℝ), Inertia.definedAboutCG (x ++ [zeroInertia]) = Inertia.definedAboutCG x := by
    intro x
    unfold Inertia.definedAboutCG
    rw [List.all_append]
    simp [zeroInertia, Inertia.make]
  have h4 : ∀ p : ℝ × V3 ℝ, Inertia.addMass p zeroInertia = p := by
    intro p
    unfold Inertia.addMass
    simp [zeroInertia, Inertia.make]
  unfold Inertia.combine
  rw [h1, h2]
  dsimp only
  have h5 : (a :: l ++ [zeroInertia]).foldl Inertia.addMass ((0 : ℝ), (0 : V3 ℝ)) = (a :: l).foldl Inertia.addMass (0, 0) := by
    rw [List.foldl_append, List.foldl_cons, List.foldl_nil, h4]
  rw [h3, h5]
  simp only [List.foldl_append, List.foldl_cons, List.foldl_nil, addMOI_zero]

/-- a boat tail without mass at the end changes nothing -/
theorem inertia_tail (o : Overrides ℝ) (parts : List Part) (tr : Trans) (r : ℝ) (off : Option ℝ) (t : ℝ) :
    StageP.inertia ⟨o, parts ++ [.boatTail zeroInertia tr r off]⟩ t = StageP.inertia ⟨o, parts⟩ t := by
  unfold StageP.inertia
  dsimp only
  have h1 : fixedTotal ((parts ++ [Part.boatTail zeroInertia tr r off]).filterMap Part.fixed) = fixedTotal (parts.filterMap Part.fixed) := by
    rw [List.filterMap_append]
    cases parts.filterMap Part.fixed with
    | nil =>
      change Inertia.combine zeroInertia [zeroInertia] = .ok (Inertia.make ⟨0, 0, 0⟩ ⟨0, 0, 0⟩ 0)
      unfold Inertia.combine
      have : Inertia.withSelf (zeroInertia : Inertia ℝ) [zeroInertia] = [zeroInertia] := by unfold Inertia.withSelf; rw [if_pos (by simp)]
      rw [this]
      dsimp only
      rw [if_pos (by simp [Inertia.definedAboutCG, zeroInertia, Inertia.make])]
      have h0 : [zeroInertia].foldl Inertia.addMass ((0 : ℝ), (0 : V3 ℝ)) = (0, 0) := by simp [Inertia.addMass, zeroInertia, Inertia.make]
      rw [h0]
      simp only [List.foldl_cons, List.foldl_nil, addMOI_zero]
      simp only [gt_iff_lt, lt_irrefl, if_false]
      rfl
    | cons a l => exact combine_zero a l
  rw [h1, mapE_append]
  cases Body.mapE (Part.variable t) parts with
  | error e => rfl
  | ok vs =>
    change _ = (do
      let fixed ← fixedTotal (parts.filterMap Part.fixed)
      let total ← fixed.combine (fixed :: vs.filterMap id)
      .ok (applyOverrides o total))
    have : (vs ++ [none] : List (Option (Inertia ℝ))).filterMap id = vs.filterMap id := by simp
    change (do
      let fixed ← fixedTotal (parts.filterMap Part.fixed)
      let total ← fixed.combine (fixed :: (vs ++ [none] : List (Option (Inertia ℝ))).filterMap id)
      .ok (applyOverrides o total)) = _
    rw [this]

/-- two parts which weigh the same at a time -/
def SameMass (t : ℝ) (p q : Part) : Prop := q.fixed = p.fixed ∧ q.variable t = p.variable t

theorem inertia_same {o : Overrides ℝ} {ps qs : List Part} {t : ℝ} (h : List.Forall₂ (SameMass t) ps qs) :
    StageP.inertia ⟨o, qs⟩ t = StageP.inertia ⟨o, ps⟩ t := by
  have h1 : qs.filterMap Part.fixed = ps.filterMap Part.fixed := by
    induction h with
    | nil => rfl
    | cons e _ ih => rw [List.filterMap_cons, List.filterMap_cons, e.1, ih]
  have h2 : Body.mapE (Part.variable t) qs = Body.mapE (Part.variable t) ps := by
    clear h1
    induction h with
    | nil => rfl
    | cons e _ ih => unfold Body.mapE; rw [e.2, ih]
  unfold StageP.inertia
  dsimp only
  rw [h1, h2]

/-! ## The rocket that goes on -/

/-- a motor weighs the same before it is lit, whenever that will be -/
theorem unlit_inertia (m : Motor ℝ) {t u w : ℝ} (hu : t ≤ u) (hw : t ≤ w) :
    Motor.inertia { m with ignition := u } t = Motor.inertia { m with ignition := w } t := by
  unfold Motor.inertia Motor.oxInertia Motor.fuelInertia
  dsimp only
  rw [max_eq_left (by linarith), max_eq_left (by linarith)]

/-- the motor of a stage (`stage.motor`) has not been lit at time `t` -/
def LiveStage.Unlit (s : LiveStage) (t : ℝ) : Prop := ∀ i ∈ s.items, i.main = true → ∀ m, i.part = .motor m → t ≤ m.ignition

theorem lit_same {t off : ℝ} {i : Item} (h : i.main = true → ∀ m, i.part = .motor m → t ≤ m.ignition) :
    SameMass t i.part (i.lit t off).part := by
  obtain ⟨p, b, mn⟩ := i
  cases p with
  | motor m =>
    cases mn with
    | false => exact ⟨rfl, rfl⟩
    | true =>
      refine ⟨rfl, ?_⟩
      change (Motor.inertia { m with ignition := t } t).map some = (Motor.inertia m t).map some
      rw [unlit_inertia m (le_refl t) (h rfl m rfl)]
  | _ => cases mn <;> exact ⟨rfl, rfl⟩

theorem ignite_same {t : ℝ} {s s' : LiveStage} (h : s.ignite t = .ok s') (hu : s.Unlit t) : s'.stageP.inertia t = s.stageP.inertia t := by
  unfold LiveStage.ignite at h
  split at h
  · cases h
  split at h
  · cases h
  obtain rfl := Except.ok.inj h
  unfold LiveStage.stageP
  dsimp only
  apply inertia_same
  rw [List.map_map, List.forall₂_map_left_iff, List.forall₂_map_right_iff, List.forall₂_same]
  exact fun i hi => lit_same (hu i hi)

theorem tailLive_same {d r t : ℝ} {flag : Bool} {ss out : List LiveStage} (h : tailLive d r flag ss = .ok out) :
    out.map (fun s => s.stageP.inertia t) = ss.map fun s => s.stageP.inertia t := by
  unfold tailLive at h
  split at h
  · cases h
  rename_i s hlast
  split at h
  · obtain ⟨s', h1, rfl⟩ := map_ok h
    have hs : s'.stageP.inertia t = s.stageP.inertia t := by
      unfold LiveStage.withTail at h1
      split at h1
      · cases h1
      dsimp only at h1
      split at h1
      · cases h1
      obtain rfl := Except.ok.inj h1
      unfold LiveStage.stageP
      rw [List.map_append]
      exact inertia_tail _ _ _ _ _ _
    conv_rhs => rw [← List.dropLast_append_getLast? s hlast]
    rw [List.map_append, List.map_append, List.map_singleton, List.map_singleton, hs]
  · obtain rfl := Except.ok.inj h; rfl

theorem mapE_congr {X Y Z : Type} {f : X → Except PyErr Y} {g : Z → Except PyErr Y} {l : List X} {m : List Z} (h : l.map f = m.map g) :
    Body.mapE f l = Body.mapE g m := by
  induction l generalizing m with
  | nil => cases m with
    | nil => rfl
    | cons _ _ => simp at h
  | cons x l ih => cases m with
    | nil => simp at h
    | cons y m =>
      rw [List.map_cons, List.map_cons] at h
      obtain ⟨h1, h2⟩ := List.cons.inj h
      unfold Body.mapE
      rw [h1, ih h2]

theorem craft_combine {c : Craft} {t : ℝ} {i : Inertia ℝ} (h : c.inertia t = .ok i) :
    ∃ vs, Body.mapE (fun s : StageP => s.inertia t) c.stages = .ok vs ∧
      (Inertia.make ⟨0, 0, 0⟩ ⟨0, 0, 0⟩ (0 : ℝ)).combine (Inertia.make ⟨0, 0, 0⟩ ⟨0, 0, 0⟩ (0 : ℝ) :: vs) = .ok i := by
  unfold Craft.inertia at h
  obtain ⟨f, h1, h⟩ := bind_ok h
  obtain ⟨vs, h2, h⟩ := bind_ok h
  obtain rfl := Except.ok.inj h1
  exact ⟨vs, h2, h⟩

theorem combine_guard {a : Inertia ℝ} {l : List (Inertia ℝ)} {r : Inertia ℝ} (h : a.combine (a :: l) = .ok r) : ∀ i ∈ l, i.about = i.cg := by
  intro i hi
  by_contra hc
  have := (Inertia.combine_refuses a (a :: l) i (by simp [hi]) hc ⟨0, 0, 0⟩).1
  rw [this] at h
  cases h

theorem isTotal_zero_cons {l : List (Inertia ℝ)} {i : Inertia ℝ} :
    Inertia.IsTotal (Inertia.make ⟨0, 0, 0⟩ ⟨0, 0, 0⟩ (0 : ℝ) :: l) i ↔ Inertia.IsTotal l i := by
  have hs : ∀ p, Inertia.secondMoment p (Inertia.make ⟨0, 0, 0⟩ ⟨0, 0, 0⟩ (0 : ℝ)) = 0 := by
    intro p; apply V3.ext' <;> simp [Inertia.secondMoment, Inertia.make]
  have hm : (Inertia.make ⟨0, 0, 0⟩ ⟨0, 0, 0⟩ (0 : ℝ)).mass = 0 := rfl
  unfold Inertia.IsTotal
  simp only [List.map_cons, List.sum_cons, hs, hm, zero_add, zero_smul]

/-- no stage of the rocket has a negative mass at time `t` -/
def Craft.Heavy (c : Craft) (t : ℝ) : Prop := ∀ s ∈ c.stages, ∀ j, s.inertia t = .ok j → 0 ≤ j.mass

theorem mapE_from {X Y : Type} {f : X → Except PyErr Y} {l : List X} {vs : List Y} (h : Body.mapE f l = .ok vs) : ∀ y ∈ vs, ∃ x ∈ l, f x = .ok y := by
  have h1 := (mapE_forall2 _ _ _).1 h
  intro y hy
  obtain ⟨n, hn, rfl⟩ := List.mem_iff_getElem.1 hy
  have hl := h1.length_eq
  exact ⟨l[n]'(by omega), List.getElem_mem _, (List.forall₂_iff_get.1 h1).2 n (by omega) hn⟩

/-- the inertia of a rocket is the total of its stages -/
theorem craft_total {c : Craft} {t : ℝ} {i : Inertia ℝ} (h : c.inertia t = .ok i) (hm : c.Heavy t) :
    ∃ vs, Body.mapE (fun s : StageP => s.inertia t) c.stages = .ok vs ∧ (∀ v ∈ vs, v.about = v.cg ∧ 0 ≤ v.mass) ∧ Inertia.IsTotal vs i := by
  obtain ⟨vs, h1, h2⟩ := craft_combine h
  have h3 := combine_guard h2
  have h4 : ∀ v ∈ vs, 0 ≤ v.mass := by
    intro v hv
    obtain ⟨s, hs, e⟩ := mapE_from h1 v hv
    exact hm s hs v e
  refine ⟨vs, h1, fun v hv => ⟨h3 v hv, h4 v hv⟩, isTotal_zero_cons.1 (combine_total _ vs i ?_ ?_ h2)⟩
  · rintro v hv
    rcases List.mem_cons.1 hv with rfl | hv
    · rfl
    · exact h3 v hv
  · rintro v hv
    rcases List.mem_cons.1 hv with rfl | hv
    · exact le_refl _
    · exact h4 v hv

theorem craft_inertia_ok {c : Craft} {t : ℝ} {vs : List (Inertia ℝ)} (h : Body.mapE (fun s : StageP => s.inertia t) c.stages = .ok vs)
    (hv : ∀ v ∈ vs, v.about = v.cg ∧ 0 ≤ v.mass) : ∃ i, c.inertia t = .ok i ∧ Inertia.IsTotal vs i := by
  obtain ⟨r, h1, h2⟩ := (Inertia.combine_partial (Inertia.make ⟨0, 0, 0⟩ ⟨0, 0, 0⟩ (0 : ℝ)) (Inertia.make ⟨0, 0, 0⟩ ⟨0, 0, 0⟩ (0 : ℝ) :: vs) (by
    intro i hi
    rcases List.mem_cons.1 hi with rfl | hi
    · rfl
    rcases List.mem_cons.1 hi with rfl | hi
    · rfl
    · exact (hv i hi).1) (by
    intro i hi
    rcases List.mem_cons.1 hi with rfl | hi
    · exact le_refl _
    rcases List.mem_cons.1 hi with rfl | hi
    · exact le_refl _
    · exact (hv i hi).2)).2 (by simp)
  refine ⟨r, ?_, isTotal_zero_cons.1 h2⟩
  unfold Craft.inertia
  change (do
    let vs ← Body.mapE (fun s : StageP => s.inertia t) c.stages
    (Inertia.make ⟨0, 0, 0⟩ ⟨0, 0, 0⟩ (0 : ℝ)).combine (Inertia.make ⟨0, 0, 0⟩ ⟨0, 0, 0⟩ (0 : ℝ) :: vs)) = .ok r
  rw [h]
  exact h1

/-- **C100.** At a separation the rocket loses the inertia of its lowest stage and nothing else: mass, first moment and second moments about
every point before it are those of the rocket that goes on and of the lowest stage together (the motor lit by the separation not having
burned before). -/
theorem separation_inertia {P : Setup} {v v' : Vessel} {ds : List Vessel} (h : v.separate P = .ok (v', ds)) {i : Inertia ℝ}
    (hi : v.craft.inertia v.phase.time = .ok i) (hm : v.craft.Heavy v.phase.time) (hu : ∀ s, v.stages.head? = some s → s.Unlit v.phase.time) :
    ∃ low i' j, v.stages.getLast? = some low ∧ v'.craft.inertia v.phase.time = .ok i' ∧ low.stageP.inertia v.phase.time = .ok j ∧
      i.mass = i'.mass + j.mass ∧ i.mass • i.cg = i'.mass • i'.cg + j.mass • j.cg ∧
      (∀ p, Inertia.secondMoment p i = Inertia.secondMoment p i' + Inertia.secondMoment p j) ∧ 0 ≤ i'.mass ∧ 0 ≤ j.mass ∧
      v'.stages.length = v.stages.length - 1 ∧ 0 < v'.stages.length := by
  unfold Vessel.separate at h
  obtain ⟨dropped, -, h⟩ := bind_ok h
  split at h
  · cases h
  rename_i top rest hst
  obtain ⟨top', h3, h⟩ := bind_ok h
  obtain ⟨ss, h4, h⟩ := bind_ok h
  obtain ⟨fin, -, h⟩ := bind_ok h
  obtain ⟨rfl, rfl⟩ := Prod.mk.inj (Except.ok.inj h)
  have hne : v.stages ≠ [] := by rintro e; rw [e] at hst; cases hst
  obtain ⟨low, hlow⟩ : ∃ low, v.stages.getLast? = some low := ⟨_, List.getLast?_eq_some_getLast hne⟩
  have hsplit : v.stages = top :: rest ++ [low] := by
    rw [← hst]; exact (List.dropLast_append_getLast? low hlow).symm
  have htop : top.Unlit v.phase.time := hu top (by rw [hsplit]; rfl)
  have hig := ignite_same h3 htop
  have hsame : ss.map (fun s => s.stageP.inertia v.phase.time) = (top :: rest).map fun s => s.stageP.inertia v.phase.time := by
    rw [tailLive_same h4, List.map_cons, List.map_cons, hig]
  obtain ⟨vs, e1, e2, e3⟩ := craft_total hi hm
  have e4 : Body.mapE (fun s : StageP => s.inertia v.phase.time) ((top :: rest).map LiveStage.stageP ++ [low.stageP]) = .ok vs := by
    rw [← e1]
    unfold Vessel.craft
    rw [hsplit, List.map_append]
    rfl
  rw [mapE_append] at e4
  cases e5 : Body.mapE (fun s : StageP => s.inertia v.phase.time) ((top :: rest).map LiveStage.stageP) with
  | error x => rw [e5] at e4; cases e4
  | ok us =>
    rw [e5] at e4
    dsimp only at e4
    unfold Body.mapE at e4
    cases e6 : low.stageP.inertia v.phase.time with
    | error x => rw [e6] at e4; cases e4
    | ok j =>
      rw [e6] at e4
      obtain rfl : us ++ [j] = vs := Except.ok.inj e4
      have e7 : Body.mapE (fun s : StageP => s.inertia v.phase.time) (ss.map LiveStage.stageP) = .ok us := by
        rw [← e5]
        apply mapE_congr
        rw [List.map_map, List.map_map]
        exact hsame
      obtain ⟨i', e8, e9⟩ := craft_inertia_ok (c := ⟨{ v.ship with fineness := fin }, ss.map LiveStage.stageP⟩) e7
        (fun x hx => e2 x (List.mem_append_left _ hx))
      obtain ⟨f1, f2, f3, f4⟩ := e3
      obtain ⟨g1, g2, g3, g4⟩ := e9
      refine ⟨low, i', j, hlow, e8, e6, ?_, ?_, fun p => ?_, ?_, (e2 j (by simp)).2, ?_, ?_⟩
      · rw [f1, g1]; simp
      · rw [f2, g2]; simp
      · rw [f3 p, g3 p]; simp
      · exact isTotal_mass_nonneg ⟨g1, g2, g3, g4⟩ fun x hx => (e2 x (by simp [hx])).2
      · have := congrArg List.length hsame
        simp only [List.length_map, List.length_cons] at this
        dsimp only
        rw [hsplit, this]
        simp
      · have := congrArg List.length hsame
        simp only [List.length_map, List.length_cons] at this
        dsimp only
        omega

/-! ## The stage that is dropped -/

/-- a component with `stage.motor` lit at time `t` -/
def Relit (t : ℝ) (i i' : Item) : Prop :=
  i'.body = i.body ∧ i'.main = i.main ∧ (i.main = true → ∃ m, i.part = .motor m ∧ i'.part = .motor { m with ignition := t }) ∧
    (i.main = false → ∀ u, SameMass u i.part i'.part)

theorem liveStage_items {src : Source} {turb : Bool} {s : StageDraft} {p : StageP} (h : s.finish src turb = .ok p) :
    List.Forall₂ (fun (d : Draft) i => d.kind.finish src turb s = .ok i.part ∧ i.body = d.body ∧
      i.main = (match d.kind with | .motor _ _ m => m | _ => false)) s.drafts (liveStage s p).items ∧
    (liveStage s p).over = s.over ∧ (liveStage s p).position = s.position := by
  unfold StageDraft.finish at h
  obtain ⟨ps, h1, h⟩ := bind_ok h
  obtain rfl := Except.ok.inj h
  refine ⟨?_, rfl, rfl⟩
  have h2 := (mapE_forall2 _ _ _).1 h1
  unfold liveStage
  dsimp only
  clear * - h2
  generalize s.drafts = ds at h2
  induction h2 with
  | nil => exact .nil
  | cons e _ ih =>
    rw [List.zipWith_cons_cons]
    exact .cons ⟨e, rfl, rfl⟩ ih

theorem relit_items {src : Source} {turb : Bool} {t : ℝ} {s : StageDraft} {p p' : StageP} (h : s.finish src turb = .ok p)
    (h' : (s.relit t).finish src turb = .ok p') : List.Forall₂ (Relit t) (liveStage s p).items (liveStage (s.relit t) p').items := by
  have h1 := (liveStage_items h).1
  have h2 := (liveStage_items h').1
  have hd : (s.relit t).drafts = s.drafts.map (Draft.relit t) := rfl
  rw [hd, List.forall₂_map_left_iff] at h2
  generalize (liveStage s p).items = xs at h1 ⊢
  generalize (liveStage (s.relit t) p').items = ys at h2 ⊢
  clear hd h h'
  generalize hds : s.drafts = ds at h1 h2
  clear hds
  induction h1 generalizing ys with
  | nil => cases h2; exact .nil
  | @cons d i ds xs e _ ih =>
    cases h2 with
    | @cons _ i' _ ys e' es =>
      refine .cons ?_ (ih ys es)
      obtain ⟨z, b, k⟩ := d
      obtain ⟨q, b1, mn⟩ := i
      obtain ⟨q', b2, mn'⟩ := i'
      obtain ⟨e1, e2, e3⟩ := e
      obtain ⟨e1', e2', e3'⟩ := e'
      rw [relit_body] at e2'
      dsimp only at e1 e2 e3 e1' e2' e3'
      refine ⟨e2'.trans e2.symm, ?_, ?_, ?_⟩
      · rw [e3, e3']
        cases k with
        | motor m off w => cases w <;> rfl
        | _ => rfl
      · intro hm
        change mn = true at hm
        cases k with
        | motor m off w =>
          cases w with
          | false => rw [e3] at hm; cases hm
          | true =>
            obtain rfl := Except.ok.inj e1
            obtain rfl := Except.ok.inj e1'
            exact ⟨m, rfl, rfl⟩
        | _ => rw [e3] at hm; cases hm
      · intro hm u
        change mn = false at hm
        cases k with
        | ready w =>
          obtain rfl := Except.ok.inj e1
          obtain rfl := Except.ok.inj e1'
          exact ⟨rfl, rfl⟩
        | tail j tr ro =>
          obtain rfl := Except.ok.inj e1
          obtain rfl := Except.ok.inj e1'
          exact ⟨rfl, rfl⟩
        | fins f =>
          change f.finish src turb s = .ok q at e1
          change f.finish src turb (s.relit t) = .ok q' at e1'
          have : f.finish src turb (s.relit t) = f.finish src turb s := by
            unfold FinSpec.finish
            rw [relit_bodies]
            rfl
          rw [this, e1] at e1'
          obtain rfl := Except.ok.inj e1'
          exact ⟨rfl, rfl⟩
        | motor m off w =>
          cases w with
          | true => rw [e3] at hm; cases hm
          | false =>
            obtain rfl := Except.ok.inj e1
            obtain rfl := Except.ok.inj e1'
            exact ⟨rfl, rfl⟩
        | jet x =>
          simp only [Draft.relit, DraftKind.finish, relit_motor] at e1 e1'
          cases hs : s.motor with
          | none => rw [hs] at e1; cases e1
          | some mo =>
            rw [hs] at e1 e1'
            obtain rfl := Except.ok.inj e1
            obtain rfl := Except.ok.inj e1'
            exact ⟨rfl, rfl⟩

theorem tailStages_last {d r : ℝ} {flag : Bool} {ups : List StageDraft} {s : StageDraft} {out out1 : List StageDraft}
    (h : tailStages d r flag (ups ++ [s]) = .ok out) (h1 : tailStages d r flag [s] = .ok out1) : ∃ s', out = ups ++ [s'] ∧ out1 = [s'] := by
  unfold tailStages at h h1
  by_cases hd : d > 0
  · rw [if_pos hd] at h h1
    simp only [List.getLast?_append, List.getLast?_singleton, Option.some_or] at h h1
    by_cases hc : s.hasTail = false ∧ flag = true
    · rw [if_pos hc] at h h1
      obtain ⟨a, e1, e2⟩ := map_ok h
      obtain ⟨b, e3, e4⟩ := map_ok h1
      rw [e1] at e3
      obtain rfl := Except.ok.inj e3
      exact ⟨a, by rw [← e2]; simp, by rw [← e4]; rfl⟩
    · rw [if_neg hc] at h h1
      exact ⟨s, (Except.ok.inj h).symm, (Except.ok.inj h1).symm⟩
  · rw [if_neg hd] at h h1
    exact ⟨s, (Except.ok.inj h).symm, (Except.ok.inj h1).symm⟩

/-- the stages of a definition are numbered from the lowest up -/
def NumberedUp (src : Source) : Prop :=
  ∀ a ∈ stageDicts (src.subs "Rocket".toList), ∀ b ∈ stageDicts (src.subs "Rocket".toList), ∀ x y p q,
    Numbered (src.dict "Rocket".toList) a x → Numbered (src.dict "Rocket".toList) b y → HasVector (src.dict a) "position" p →
    HasVector (src.dict b) "position" q → x < y → p.z < q.z

theorem readWhole_place {src : Source} {rough : ℝ} {path : Str} {w : StageRead} (h : readWhole src rough path = .ok w) :
    HasVector (src.dict path) "position" w.draft.position := by
  unfold readWhole at h
  obtain ⟨s, e1, h⟩ := bind_ok h
  obtain ⟨t, -, h⟩ := bind_ok h
  obtain ⟨c, -, h⟩ := bind_ok h
  obtain rfl := Except.ok.inj h
  exact (readStage_ok e1).1.position

theorem lowest_built {src : Source} (hn : NumberedUp src) {rough : ℝ} {l l0 : List StageRead}
    (h : createStages (src.dict "Rocket".toList) (readWhole src rough) (src.subs "Rocket".toList) none = .ok l)
    (h0 : createStages (src.dict "Rocket".toList) (readWhole src rough) (src.subs "Rocket".toList) (some 0) = .ok l0) :
    ∃ w, l0 = [w] ∧ w ∈ l ∧ ∀ x ∈ l, x = w ∨ w.draft.position.z < x.draft.position.z := by
  have h1 := (createStages_pad _ _ _ _).1 h
  have hns : ∃ ns, List.Forall₂ (Numbered (src.dict "Rocket".toList)) (stageDicts (src.subs "Rocket".toList)) ns := by
    clear h h0 hn
    generalize stageDicts (src.subs "Rocket".toList) = paths at h1 ⊢
    induction h1 with
    | nil => exact ⟨[], .nil⟩
    | cons e _ ih =>
      obtain ⟨⟨n, e1⟩, -⟩ := e
      obtain ⟨ns, e2⟩ := ih
      exact ⟨n :: ns, .cons e1 e2⟩
  obtain ⟨ns, hns⟩ := hns
  obtain ⟨k1, k2, k3⟩ := createStages_dropped (readWhole src rough) (src.dict "Rocket".toList) (src.subs "Rocket".toList) ns hns 0
  have hd : ns.Nodup := by
    by_contra hc
    rw [k3 hc] at h0
    cases h0
  have hl : 0 < ns.length := by
    by_contra hc
    rw [k2 hd (by omega)] at h0
    cases h0
  obtain ⟨d, n, m1, m2, m3, m4⟩ := k1 hd hl
  rw [m4] at h0
  obtain ⟨w, m5, rfl⟩ := map_ok h0
  have hleast : ∀ y ∈ ns, ¬ y < n := by
    intro y hy hc
    have : y ∈ ns.filter (· < n) := by rw [List.mem_filter]; exact ⟨hy, by simpa using hc⟩
    rw [List.length_eq_zero_iff.1 m3] at this
    cases this
  refine ⟨w, rfl, ?_, fun x hx => ?_⟩
  · obtain ⟨i, hi, rfl⟩ := List.mem_iff_getElem.1 m1
    have hlen := h1.length_eq
    have := ((List.forall₂_iff_get.1 h1).2 i hi (by omega)).2
    simp only [List.get_eq_getElem] at this
    rw [m5] at this
    rw [Except.ok.inj this]
    exact List.getElem_mem _
  · obtain ⟨i, hi, rfl⟩ := List.mem_iff_getElem.1 hx
    have hlen := h1.length_eq
    have hlen2 := hns.length_eq
    have e1 := ((List.forall₂_iff_get.1 h1).2 i (by omega) hi).2
    have e2 := (List.forall₂_iff_get.1 hns).2 i (by omega) (by omega)
    simp only [List.get_eq_getElem] at e1 e2
    by_cases hc : (stageDicts (src.subs "Rocket".toList))[i]'(by omega) = d
    · rw [hc, m5] at e1
      exact Or.inl (Except.ok.inj e1).symm
    · right
      refine hn d m1 _ (List.getElem_mem (by omega)) n _ _ _ m2 e2 (readWhole_place m5) (readWhole_place e1) ?_
      obtain ⟨j, hj, rfl⟩ := List.mem_iff_getElem.1 m1
      have e3 := (List.forall₂_iff_get.1 hns).2 j hj (by omega)
      simp only [List.get_eq_getElem] at e3
      have e4 : n = ns[j]'(by omega) := by
        unfold Numbered at m2 e3
        rw [m2] at e3
        exact Except.ok.inj e3
      refine lt_of_le_of_ne (not_lt.1 (hleast _ (List.getElem_mem _))) ?_
      rw [e4]
      intro e5
      have := (List.Nodup.getElem_inj_iff hd).1 e5
      exact hc (by simp [this])

/-- **C100.** The stage dropped first by a rocket whose stages are numbered from the lowest up is the lowest one, component by component, in
its place, with `stage.motor` lit a milliard seconds before launch. -/
theorem first_drop {src : Source} (hn : NumberedUp src) {ph ph' : Phase} {v d : Vessel} (h : readVessel src none ph = .ok v)
    (h' : readVessel src (some 0) ph' = .ok d) :
    d.phase = ph' ∧ ∃ low dl, v.stages.getLast? = some low ∧ d.stages = [dl] ∧ dl.position = low.position ∧ dl.over = low.over ∧
      List.Forall₂ (Relit (-1000000000)) low.items dl.items := by
  unfold readVessel at h h'
  dsimp only at h h'
  obtain ⟨dm, h1, h⟩ := bind_ok h
  obtain ⟨flag, h2, h⟩ := bind_ok h
  obtain ⟨turb, h3, h⟩ := bind_ok h
  obtain ⟨rough, h4, h⟩ := bind_ok h
  obtain ⟨quiet, -, h⟩ := bind_ok h
  obtain ⟨built, h5, h⟩ := bind_ok h
  obtain ⟨deploys, -, h⟩ := bind_ok h
  obtain ⟨tailed, h6, h⟩ := bind_ok h
  obtain ⟨staging, -, h⟩ := bind_ok h
  obtain ⟨ready, h7, h⟩ := bind_ok h
  obtain ⟨stages, h8, h⟩ := bind_ok h
  obtain ⟨fin, -, h⟩ := bind_ok h
  obtain rfl := Except.ok.inj h
  obtain ⟨dm', k1, h'⟩ := bind_ok h'
  obtain rfl := Except.ok.inj (h1.symm.trans k1)
  obtain ⟨flag', k2, h'⟩ := bind_ok h'
  obtain rfl := Except.ok.inj (h2.symm.trans k2)
  obtain ⟨turb', k3, h'⟩ := bind_ok h'
  obtain rfl := Except.ok.inj (h3.symm.trans k3)
  obtain ⟨rough', k4, h'⟩ := bind_ok h'
  obtain rfl := Except.ok.inj (h4.symm.trans k4)
  obtain ⟨quiet', -, h'⟩ := bind_ok h'
  obtain ⟨built', k5, h'⟩ := bind_ok h'
  obtain ⟨deploys', -, h'⟩ := bind_ok h'
  obtain ⟨tailed', k6, h'⟩ := bind_ok h'
  obtain ⟨staging', -, h'⟩ := bind_ok h'
  obtain ⟨ready', k7, h'⟩ := bind_ok h'
  obtain ⟨stages', k8, h'⟩ := bind_ok h'
  obtain ⟨fin', -, h'⟩ := bind_ok h'
  obtain rfl := Except.ok.inj h'
  refine ⟨rfl, ?_⟩
  obtain ⟨w, rfl, hw, hlow⟩ := lowest_built hn h5 k5
  -- the last stage of the rocket is `w`
  have hlast : ∃ ups, (orderByZ (fun s : StageRead => s.draft.position.z) (built.map fun s => { s with draft := s.draft.sorted })).map StageRead.draft =
      ups ++ [w.draft.sorted] := by
    obtain ⟨o1, o2, -⟩ := orderByZ_spec (fun s : StageRead => s.draft.position.z) (built.map fun s => { s with draft := s.draft.sorted })
    generalize orderByZ (fun s : StageRead => s.draft.position.z) (built.map fun s => { s with draft := s.draft.sorted }) = l at o1 o2 ⊢
    have hmem : ({ w with draft := w.draft.sorted } : StageRead) ∈ l := o1.mem_iff.2 (List.mem_map.2 ⟨w, hw, rfl⟩)
    rcases List.eq_nil_or_concat l with rfl | ⟨ups, x, rfl⟩
    · cases hmem
    rw [List.concat_eq_append] at o1 o2 hmem ⊢
    refine ⟨ups.map StageRead.draft, ?_⟩
    rw [List.map_append, List.map_singleton]
    obtain ⟨y, hy, rfl⟩ := List.mem_map.1 (o1.mem_iff.1 (List.mem_append_right ups (List.mem_singleton_self x)))
    rcases hlow y hy with rfl | hz
    · rfl
    · exfalso
      rcases List.mem_append.1 hmem with hm | hm
      · have := (List.pairwise_append.1 o2).2.2 _ hm _ (List.mem_singleton_self _)
        change y.draft.position.z ≤ w.draft.position.z at this
        exact absurd hz (not_lt.2 this)
      · rw [List.mem_singleton] at hm
        have := congrArg (fun s : StageRead => s.draft.position.z) hm
        change w.draft.position.z = y.draft.position.z at this
        rw [this] at hz
        exact lt_irrefl _ hz
  obtain ⟨ups, hups⟩ := hlast
  rw [hups] at h6
  have hone : (orderByZ (fun s : StageRead => s.draft.position.z) ([w].map fun s => { s with draft := s.draft.sorted })).map StageRead.draft =
      [w.draft.sorted] := rfl
  rw [hone] at k6
  obtain ⟨s, rfl, rfl⟩ := tailStages_last h6 k6
  obtain ⟨ups', rfl, -⟩ := waitStages_ok h7
  have e1 : ready' = [s.relit (-1000000000)] := by
    change burnStages [s] = .ok ready' at k7
    change (match s.motor with
      | none => Except.error PyErr.attributeError
      | some _ => Except.ok [s.relit (-1000000000)]) = .ok ready' at k7
    split at k7
    · cases k7
    · exact (Except.ok.inj k7).symm
  subst e1
  have e2 := (mapE_forall2 _ _ _).1 k8
  obtain ⟨p', rest, e3, e4, rfl⟩ := List.forall₂_cons_left_iff.1 e2
  obtain rfl := List.forall₂_nil_left_iff.1 e4
  have e5 := (mapE_forall2 _ _ _).1 h8
  obtain ⟨l1, l2, rfl, e6, e7⟩ := forall2_append_left e5
  obtain ⟨p, rest, e8, e9, rfl⟩ := List.forall₂_cons_left_iff.1 e7
  obtain rfl := List.forall₂_nil_left_iff.1 e9
  refine ⟨liveStage s p, liveStage (s.relit (-1000000000)) p', ?_, rfl, rfl, ?_, relit_items e8 e3⟩
  · dsimp only
    rw [List.zipWith_append e6.length_eq]
    simp
  · rw [(liveStage_items e3).2.1, (liveStage_items e8).2.1]
    rfl

end Mapleaf.Rocket
