import Verif.Rocket.MissionModel
import Verif.Rocket.BuildFlightProps

/-!
# Properties: the rockets of a mission are those of the definition
-/

namespace Mapleaf.Rocket
open Mapleaf.Motion V3 ENV

/-! ## Stages read from the definition -/

theorem buildStages_mem {σ : Type} {r : Reader ℝ} {build : Str → Except PyErr σ} {wanted : Option ℝ} {ds : List Str} {l : List σ}
    (h : buildStages r build wanted ds = .ok l) : ∀ s ∈ l, ∃ d ∈ ds, build d = .ok s := by
  induction ds generalizing l with
  | nil => obtain rfl := Except.ok.inj h; simp
  | cons d ds ih =>
    unfold buildStages at h
    split at h
    · cases h
    split at h
    · split at h
      · cases h
      rename_i s hs
      split at h
      · cases h
      rename_i l' hl
      obtain rfl := Except.ok.inj h
      intro s' hs'
      rcases List.mem_cons.1 hs' with rfl | hs'
      · exact ⟨d, by simp, hs⟩
      · obtain ⟨d', hd, e⟩ := ih hl s' hs'
        exact ⟨d', by simp [hd], e⟩
    · intro s' hs'
      obtain ⟨d', hd, e⟩ := ih h s' hs'
      exact ⟨d', by simp [hd], e⟩

theorem createStages_mem {σ : Type} {r : Reader ℝ} {build : Str → Except PyErr σ} {subs : List Str} {stage : Option Nat} {l : List σ}
    (h : createStages r build subs stage = .ok l) : ∀ s ∈ l, ∃ d ∈ stageDicts subs, build d = .ok s := by
  unfold createStages at h
  split at h
  · exact buildStages_mem h
  · split at h
    · cases h
    split at h
    · cases h
    split at h
    · cases h
    exact buildStages_mem h

/-- a stage from one of the dictionaries of the definition, not lit yet, perhaps with boat tails added at its end -/
def Drawn (src : Source) (rough : ℝ) (s : StageDraft) : Prop :=
  ∃ path ∈ stageDicts (src.subs "Rocket".toList), ∃ tail, Staged src rough path s tail ∧ (∀ d ∈ s.drafts, d.Unlit) ∧
    ∀ d ∈ tail, ∃ z dm, d = autoTail dm rough s.position z

/-- the stage `p` is symmetric about the axis -/
def StageP.Even (p : StageP) : Prop := (∀ g, p.over.cg = some g → OnAxis g) ∧ ∀ q ∈ p.parts, q.Symmetric

theorem drawn_finish {src : Source} {rough : ℝ} {s : StageDraft} (h : Drawn src rough s) (he : EvenDefinition src) {turb : Bool} {p : StageP}
    (hp : s.finish src turb = .ok p) : p.Even ∧ OnAxis s.position := by
  obtain ⟨path, hpath, tail, h1, h2, h3⟩ := h
  obtain ⟨e1, e2, e3⟩ := he path hpath
  refine ⟨stage_symmetric (lowest_says h1 h2 h3 hp) ?_ e1 e2 e3, e1 _ h1.position⟩
  rintro pos t hpos ⟨rfl, ht⟩ q hq
  obtain ⟨n, hn, rfl⟩ := List.mem_iff_getElem.1 hq
  have hl := ht.length_eq
  have := (List.forall₂_iff_get.1 ht).2 n (by omega) hn
  simp only [List.get_eq_getElem] at this
  obtain ⟨z, dm, e⟩ := h3 (tail[n]'(by omega)) (List.getElem_mem _)
  rw [e] at this
  obtain e' := Except.ok.inj this
  rw [← e']
  exact ⟨⟨rfl, rfl⟩, hpos⟩

theorem drawn_tail {src : Source} {rough d : ℝ} {flag : Bool} {ss out : List StageDraft}
    (h : ∀ s ∈ ss, ∃ path ∈ stageDicts (src.subs "Rocket".toList), Staged src rough path s [] ∧ Fresh s)
    (ht : tailStages d rough flag ss = .ok out) : ∀ s ∈ out, Drawn src rough s := by
  have key : ∀ s ∈ ss, Drawn src rough s := fun s hs => by
    obtain ⟨path, hp, h1, h2⟩ := h s hs
    exact ⟨path, hp, [], h1, h2.unlit, by simp⟩
  unfold tailStages at ht
  split at ht
  · split at ht
    · cases ht
    rename_i s hlast
    split at ht
    · obtain ⟨s', h1, rfl⟩ := map_ok ht
      intro x hx
      rcases List.mem_append.1 hx with hx | hx
      · exact key x (List.mem_of_mem_dropLast hx)
      · rw [List.mem_singleton] at hx
        subst hx
        obtain ⟨path, hp, e1, e2⟩ := h s (List.mem_of_getLast? hlast)
        obtain ⟨z, f1, f2, f3, -⟩ := withTail_ok e1 e2 h1
        refine ⟨path, hp, _, f1, f2, fun x hx => ?_⟩
        rw [List.mem_singleton] at hx
        exact ⟨z, d, by rw [hx, f3]⟩
    · obtain rfl := Except.ok.inj ht
      exact key
  · obtain rfl := Except.ok.inj ht
    exact key

/-! ## Motors told to wait or burned out -/

/-- the stage with the ignition time of its motor changed -/
noncomputable def StageDraft.relit (t : ℝ) (s : StageDraft) : StageDraft := { s with drafts := s.drafts.map (Draft.relit t) }

theorem relit_body (t : ℝ) (d : Draft) : (d.relit t).body = d.body := by
  unfold Draft.relit
  split <;> rfl

theorem relit_bodies (t : ℝ) (s : StageDraft) : (s.relit t).drafts.map Draft.body = s.drafts.map Draft.body := by
  unfold StageDraft.relit
  rw [List.map_map]
  exact List.map_congr_left fun d _ => relit_body t d

theorem relit_motor (t : ℝ) (s : StageDraft) :
    (s.relit t).motor = s.motor.map fun p => ({ p.1 with ignition := t }, p.2) := by
  unfold StageDraft.motor StageDraft.relit
  dsimp only
  generalize s.drafts = ds
  induction ds with
  | nil => rfl
  | cons d ds ih =>
    obtain ⟨z, b, k⟩ := d
    rw [List.map_cons, List.findSome?_cons, List.findSome?_cons]
    cases k with
    | motor m off mn =>
      cases mn with
      | false => exact ih
      | true => rfl
    | _ => exact ih

theorem relit_finish {src : Source} {turb : Bool} (t : ℝ) {s : StageDraft} {p' : StageP} (h : (s.relit t).finish src turb = .ok p') :
    ∃ p, s.finish src turb = .ok p ∧ p'.over = p.over ∧ List.Forall₂ LaterPart p.parts p'.parts := by
  unfold StageDraft.finish at h
  obtain ⟨ps', h1, h⟩ := bind_ok h
  obtain rfl := Except.ok.inj h
  have h2 := (mapE_forall2 _ _ _).1 h1
  have hd : (s.relit t).drafts = s.drafts.map (Draft.relit t) := rfl
  rw [hd, List.forall₂_map_left_iff] at h2
  have h3 : List.Forall₂ (fun (d : Draft) q' => ∃ q, d.kind.finish src turb s = .ok q ∧ LaterPart q q') s.drafts ps' := by
    refine h2.imp ?_
    rintro ⟨z, b, k⟩ q' hq
    cases k with
    | ready p => obtain rfl := Except.ok.inj hq; exact ⟨_, rfl, .same _⟩
    | tail i tr ro =>
      obtain rfl := Except.ok.inj hq
      exact ⟨_, rfl, .tail _ _ _ _ _⟩
    | fins f =>
      refine ⟨q', ?_, .same _⟩
      change f.finish src turb (s.relit t) = .ok q' at hq
      change f.finish src turb s = .ok q'
      unfold FinSpec.finish at hq ⊢
      rw [relit_bodies] at hq
      exact hq
    | motor m off mn =>
      cases mn with
      | false => obtain rfl := Except.ok.inj hq; exact ⟨_, rfl, .same _⟩
      | true => obtain rfl := Except.ok.inj hq; exact ⟨_, rfl, .motor _ _⟩
    | jet x =>
      simp only [Draft.relit, DraftKind.finish, relit_motor] at hq ⊢
      cases hm : s.motor with
      | none => rw [hm] at hq; cases hq
      | some mo =>
        rw [hm] at hq
        obtain rfl := Except.ok.inj hq
        exact ⟨_, rfl, .jet _ _ _ _ _⟩
  have h4 : ∃ ps, List.Forall₂ (fun (d : Draft) q => d.kind.finish src turb s = .ok q) s.drafts ps ∧ List.Forall₂ LaterPart ps ps' := by
    clear h1 h2 hd
    clear * - h3
    generalize s.drafts = ds at h3
    induction h3 with
    | nil => exact ⟨[], .nil, .nil⟩
    | cons e _ ih =>
      obtain ⟨q, e1, e2⟩ := e
      obtain ⟨qs, e3, e4⟩ := ih
      exact ⟨q :: qs, .cons e1 e3, .cons e2 e4⟩
  obtain ⟨ps, h5, h6⟩ := h4
  refine ⟨⟨s.over, ps⟩, ?_, rfl, h6⟩
  unfold StageDraft.finish
  rw [(mapE_forall2 _ _ _).2 h5]
  rfl

theorem wait_relit {s s' : StageDraft} (h : s.wait = .ok s') : s' = s.relit 1000000000 := by
  unfold StageDraft.wait at h
  split at h
  · cases h
  obtain rfl := Except.ok.inj h
  unfold StageDraft.relit
  congr 1

/-- a stage with a motor told to wait or burned out, or as it was -/
def Kept (s s' : StageDraft) : Prop := s' = s ∨ ∃ t, s' = s.relit t

theorem laterPart_symmetric {q q' : Part} (h : LaterPart q q') (hs : q.Symmetric) : q'.Symmetric := by
  cases h <;> exact hs

theorem even_later {p p' : StageP} (h : p.Even) (ho : p'.over = p.over) (hp : List.Forall₂ LaterPart p.parts p'.parts) : p'.Even := by
  refine ⟨by rw [ho]; exact h.1, fun q hq => ?_⟩
  obtain ⟨n, hn, rfl⟩ := List.mem_iff_getElem.1 hq
  have hl := hp.length_eq
  exact laterPart_symmetric ((List.forall₂_iff_get.1 hp).2 n (by omega) hn) (h.2 _ (List.getElem_mem _))

theorem kept_finish {src : Source} {s s' : StageDraft} (hk : Kept s s') {turb : Bool} {p' : StageP} (hp : s'.finish src turb = .ok p') :
    s'.position = s.position ∧ ∃ p, s.finish src turb = .ok p ∧ p'.over = p.over ∧ List.Forall₂ LaterPart p.parts p'.parts := by
  rcases hk with rfl | ⟨t, rfl⟩
  · exact ⟨rfl, p', hp, rfl, List.forall₂_same.2 fun q _ => .same q⟩
  · exact ⟨rfl, relit_finish t hp⟩

theorem waitStages_kept {ss out : List StageDraft} (h : waitStages ss = .ok out) : ∀ s' ∈ out, ∃ s ∈ ss, Kept s s' := by
  rcases List.eq_nil_or_concat ss with rfl | ⟨ups, low, rfl⟩
  · obtain rfl := Except.ok.inj h; simp
  · obtain ⟨ups', rfl, h1⟩ := waitStages_ok (by simpa using h)
    intro s' hs'
    rcases List.mem_append.1 hs' with hs' | hs'
    · obtain ⟨n, hn, rfl⟩ := List.mem_iff_getElem.1 hs'
      have hl := h1.length_eq
      have := (List.forall₂_iff_get.1 h1).2 n (by omega) hn
      simp only [List.get_eq_getElem] at this
      exact ⟨ups[n]'(by omega), by simp, Or.inr ⟨_, wait_relit this⟩⟩
    · rw [List.mem_singleton] at hs'
      exact ⟨low, by simp, Or.inl hs'⟩

theorem burnStages_kept {ss out : List StageDraft} (h : burnStages ss = .ok out) : ∀ s' ∈ out, ∃ s ∈ ss, Kept s s' := by
  unfold burnStages at h
  split at h
  · cases h
  rename_i s ss
  split at h
  · cases h
  obtain rfl := Except.ok.inj h
  intro s' hs'
  rcases List.mem_cons.1 hs' with rfl | hs'
  · exact ⟨s, by simp, Or.inr ⟨-1000000000, rfl⟩⟩
  · exact ⟨s', by simp [hs'], Or.inl rfl⟩

/-! ## Rockets -/

theorem zipWith_snd {α β : Type} (l : List α) (m : List β) (h : l.length = m.length) : List.zipWith (fun _ q => q) l m = m := by
  induction l generalizing m with
  | nil => cases m with
    | nil => rfl
    | cons _ _ => simp at h
  | cons a l ih => cases m with
    | nil => simp at h
    | cons b m => rw [List.zipWith_cons_cons, ih m (by simpa using h)]

theorem zip_parts {src : Source} {turb : Bool} {ss : List StageDraft} {ps : List StageP}
    (h : List.Forall₂ (fun s p => StageDraft.finish src turb s = .ok p) ss ps) :
    (List.zipWith liveStage ss ps).map LiveStage.stageP = ps ∧
    List.Forall₂ (fun (l : LiveStage) p => l.stageP = p) (List.zipWith liveStage ss ps) ps ∧
    List.Forall₂ (fun s (l : LiveStage) => l.position = s.position) ss (List.zipWith liveStage ss ps) := by
  induction h with
  | nil => exact ⟨rfl, .nil, .nil⟩
  | cons e _ ih =>
    rename_i s p _ _ _
    have : (liveStage s p).stageP = p := by
      unfold StageDraft.finish at e
      obtain ⟨qs, h1, e⟩ := bind_ok e
      obtain rfl := Except.ok.inj e
      have h2 := ((mapE_forall2 _ _ _).1 h1).length_eq
      unfold liveStage LiveStage.stageP
      dsimp only
      congr 1
      rw [List.map_zipWith]
      exact zipWith_snd _ _ h2
    refine ⟨?_, .cons this ih.2.1, .cons rfl ih.2.2⟩
    rw [List.zipWith_cons_cons, List.map_cons, ih.1, this]

/-- a rocket all of whose parts, in whatever shape, are symmetric about its axis -/
structure Vessel.Even (v : Vessel) : Prop where
  craft : v.craft.Symmetric
  place : ∀ s ∈ v.stages, OnAxis s.position

/-- where the stages of a rocket, or of a dropped stage, come from -/
theorem vessel_stages {src : Source} {stage : Option Nat} {ph : Phase} {v : Vessel} (h : readVessel src stage ph = .ok v) :
    v.phase = ph ∧ ∃ rough turb, ∀ l ∈ v.stages, ∃ s p, Drawn src rough s ∧ s.finish src turb = .ok p ∧ l.position = s.position ∧
      l.stageP.over = p.over ∧ List.Forall₂ LaterPart p.parts l.stageP.parts := by
  unfold readVessel at h
  dsimp only at h
  obtain ⟨d, -, h⟩ := bind_ok h
  obtain ⟨flag, -, h⟩ := bind_ok h
  obtain ⟨turb, -, h⟩ := bind_ok h
  obtain ⟨rough, -, h⟩ := bind_ok h
  obtain ⟨quiet, -, h⟩ := bind_ok h
  obtain ⟨built, h5, h⟩ := bind_ok h
  obtain ⟨deploys, -, h⟩ := bind_ok h
  obtain ⟨tailed, h6, h⟩ := bind_ok h
  obtain ⟨staging, -, h⟩ := bind_ok h
  obtain ⟨ready, h7, h⟩ := bind_ok h
  obtain ⟨stages, h8, h⟩ := bind_ok h
  obtain ⟨fin, h9, h⟩ := bind_ok h
  obtain rfl := Except.ok.inj h
  have hdrawn : ∀ s ∈ tailed, Drawn src rough s := by
    refine drawn_tail (fun s hs => ?_) h6
    obtain ⟨w, hw, rfl⟩ := List.mem_map.1 hs
    have hw' := ((orderByZ_spec _ _).1.mem_iff).1 hw
    obtain ⟨w0, hw0, rfl⟩ := List.mem_map.1 hw'
    obtain ⟨path, hp, hb⟩ := createStages_mem h5 w0 hw0
    unfold readWhole at hb
    obtain ⟨s, e1, hb⟩ := bind_ok hb
    obtain ⟨t, -, hb⟩ := bind_ok hb
    obtain ⟨c, -, hb⟩ := bind_ok hb
    obtain rfl := Except.ok.inj hb
    exact ⟨path, hp, sorted_ok (readStage_ok e1)⟩
  have hready : ∀ s' ∈ ready, ∃ s ∈ tailed, Kept s s' := by
    cases stage with
    | none => exact waitStages_kept h7
    | some i => exact burnStages_kept h7
  have h10 := (mapE_forall2 _ _ _).1 h8
  obtain ⟨z1, z2, z3⟩ := zip_parts h10
  have hl := h10.length_eq
  refine ⟨rfl, rough, turb, fun l hlm => ?_⟩
  obtain ⟨n, hn, rfl⟩ := List.mem_iff_getElem.1 hlm
  have hl2 := z2.length_eq
  dsimp only at hn ⊢
  have e2 := (List.forall₂_iff_get.1 z2).2 n hn (by omega)
  have e3 := (List.forall₂_iff_get.1 z3).2 n (by omega) hn
  simp only [List.get_eq_getElem] at e2 e3
  obtain ⟨s, hs, hk⟩ := hready (ready[n]'(by omega)) (List.getElem_mem _)
  obtain ⟨k1, p, k2, k3, k4⟩ := kept_finish hk ((List.forall₂_iff_get.1 h10).2 n (by omega) (by omega))
  exact ⟨s, p, hdrawn s hs, k2, by rw [e3, k1], by rw [e2]; exact k3, by rw [e2]; exact k4⟩

/-- **C99.** A rocket described as symmetric about its axis is built so, and so are the rockets its dropped stages become. -/
theorem vessel_even {src : Source} {stage : Option Nat} {ph : Phase} {v : Vessel} (h : readVessel src stage ph = .ok v)
    (he : EvenDefinition src) : v.Even := by
  obtain ⟨-, rough, turb, hv⟩ := vessel_stages h
  refine ⟨fun p hp => ?_, fun l hl => ?_⟩
  · obtain ⟨l, hl, rfl⟩ := List.mem_map.1 hp
    obtain ⟨s, p, h1, h2, -, h4, h5⟩ := hv l hl
    exact even_later (drawn_finish h1 he h2).1 h4 h5
  · obtain ⟨s, p, h1, h2, h3, -, -⟩ := hv l hl
    rw [h3]
    exact (drawn_finish h1 he h2).2

theorem drawn_plain {src : Source} {rough : ℝ} {s : StageDraft} (h : Drawn src rough s) (he : PlainDefinition src) {turb : Bool} {p : StageP}
    (hp : s.finish src turb = .ok p) : ∀ q ∈ p.parts, q.Rolless := by
  obtain ⟨path, hpath, tail, h1, h2, h3⟩ := h
  obtain ⟨pos, -, -, -, ⟨order, ps, t, e4, e5, ⟨e6, ht⟩, e7⟩, -⟩ := lowest_says h1 h2 h3 hp
  intro q hq
  rw [e7] at hq
  rcases List.mem_append.1 hq with hq | hq
  · obtain ⟨n, hn, rfl⟩ := List.mem_iff_getElem.1 hq
    have hlen := e5.length_eq
    exact partSays_rolless (he path hpath _ (e4.mem_iff.1 (List.getElem_mem (show n < order.length by omega))))
      ((List.forall₂_iff_get.1 e5).2 n (by omega) hn)
  · obtain ⟨n, hn, rfl⟩ := List.mem_iff_getElem.1 hq
    have hl := ht.length_eq
    have := (List.forall₂_iff_get.1 ht).2 n (by omega) hn
    simp only [List.get_eq_getElem] at this
    obtain ⟨z, dm, e⟩ := h3 (tail[n]'(by omega)) (List.getElem_mem _)
    rw [e] at this
    rw [← Except.ok.inj this]
    exact True.intro

/-- **C99.** Rockets described without cant and rolling moments are built so, and so are their dropped stages. -/
theorem vessel_plain {src : Source} {stage : Option Nat} {ph : Phase} {v : Vessel} (h : readVessel src stage ph = .ok v)
    (he : PlainDefinition src) : v.craft.Rolless := by
  obtain ⟨-, rough, turb, hv⟩ := vessel_stages h
  intro p hp q hq
  obtain ⟨l, hl, rfl⟩ := List.mem_map.1 hp
  obtain ⟨s, p, h1, h2, -, -, h5⟩ := hv l hl
  obtain ⟨n, hn, rfl⟩ := List.mem_iff_getElem.1 hq
  have hlen := h5.length_eq
  have h6 := (List.forall₂_iff_get.1 h5).2 n (by omega) hn
  have h7 := drawn_plain h1 he h2 _ (List.getElem_mem (show n < p.parts.length by omega))
  simp only [List.get_eq_getElem] at h6
  generalize l.stageP.parts[n] = a at h6 ⊢
  generalize p.parts[n]'(by omega) = b at h6 h7
  cases h6 <;> exact h7

/-! ## The rocket on the launch pad is that of `Verif.Rocket.BuildModel` -/

theorem insertionSort_map {α β : Type} (f : α → β) (z : β → ℝ) (l : List α) :
    (orderByZ (fun a => z (f a)) l).map f = orderByZ z (l.map f) := by
  have hins : ∀ (a : α) (l : List α), (l.orderedInsert (fun a b => z (f b) ≤ z (f a)) a).map f =
      (l.map f).orderedInsert (fun a b => z b ≤ z a) (f a) := by
    intro a l
    induction l with
    | nil => rfl
    | cons b l ih =>
      simp only [List.orderedInsert_cons, List.map_cons]
      split
      · rfl
      · rw [List.map_cons, ih]
  unfold orderByZ
  induction l with
  | nil => rfl
  | cons a l ih =>
    rw [List.insertionSort_cons, List.map_cons, List.insertionSort_cons, hins, ih]

/-- **C99.** The rocket on the launch pad is the rocket of C98. -/
theorem vessel_craft {src : Source} {ph : Phase} {v : Vessel} (h : readVessel src none ph = .ok v) : readCraft src = .ok v.craft := by
  unfold readVessel at h
  dsimp only at h
  obtain ⟨d, h1, h⟩ := bind_ok h
  obtain ⟨flag, h2, h⟩ := bind_ok h
  obtain ⟨turb, h3, h⟩ := bind_ok h
  obtain ⟨rough, h4, h⟩ := bind_ok h
  obtain ⟨quiet, -, h⟩ := bind_ok h
  obtain ⟨built, h5, h⟩ := bind_ok h
  obtain ⟨deploys, -, h⟩ := bind_ok h
  obtain ⟨tailed, h6, h⟩ := bind_ok h
  obtain ⟨staging, -, h⟩ := bind_ok h
  obtain ⟨ready, h7, h⟩ := bind_ok h
  obtain ⟨stages, h8, h⟩ := bind_ok h
  obtain ⟨fin, h9, h⟩ := bind_ok h
  obtain rfl := Except.ok.inj h
  have hb : createStages (src.dict "Rocket".toList) (readStage src rough) (src.subs "Rocket".toList) none = .ok (built.map StageRead.draft) := by
    rw [createStages_pad] at h5 ⊢
    rw [List.forall₂_map_right_iff]
    refine h5.imp fun path w hw => ⟨hw.1, ?_⟩
    have := hw.2
    unfold readWhole at this
    obtain ⟨s, e1, e⟩ := bind_ok this
    obtain ⟨t, -, e⟩ := bind_ok e
    obtain ⟨c, -, e⟩ := bind_ok e
    obtain rfl := Except.ok.inj e
    exact e1
  have ho : (orderByZ (fun s : StageRead => s.draft.position.z) (built.map fun s => { s with draft := s.draft.sorted })).map StageRead.draft =
      orderByZ (fun s : StageDraft => s.position.z) ((built.map StageRead.draft).map StageDraft.sorted) := by
    rw [insertionSort_map StageRead.draft (fun s : StageDraft => s.position.z), List.map_map, List.map_map]
    rfl
  rw [ho] at h6
  unfold readCraft
  dsimp only
  rw [h1, h2, h3, h4]
  simp only [bind, Except.bind]
  rw [hb]
  dsimp only
  rw [h6]
  dsimp only
  rw [show waitStages tailed = .ok ready from h7]
  dsimp only
  rw [h8]
  dsimp only
  rw [h9]
  dsimp only
  congr 1
  unfold Vessel.craft
  dsimp only
  rw [(zip_parts ((mapE_forall2 _ _ _).1 h8)).1]

end Mapleaf.Rocket
