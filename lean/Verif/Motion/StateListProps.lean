import Verif.Motion.StateListModel
import Mathlib.Algebra.BigOperators.Group.List.Basic

/-! # C19: state lists -/

namespace Mapleaf.Motion.SL

variable {V : Type}

/-! ## Specification: every list is its own table of named values -/

/-- A list in the specification: the lineage it belongs to and its (possibly unnamed) values. -/
structure Spec (V : Type) where
  next : Nat
  objs : List (Nat × List (Option Str × V))

/-- Set the value stored under a name. -/
def setCell (n : Str) (v : V) (cells : List (Option Str × V)) : List (Option Str × V) :=
  cells.map (fun c => if c.1 = some n then (c.1, v) else c)

/-- What each operation should do: create lists, append a named value, act component by component, assign one value. -/
def Op.spec (s : Spec V) : Op V → Spec V
  | .create items => ⟨s.next + 1, s.objs ++ [(s.next, items.map (fun v => (none, v)))]⟩
  | .createNamed items names => ⟨s.next + 1, s.objs ++ [(s.next, names.zip items)]⟩
  | .addVar o n v => ⟨s.next, s.objs.modify o (fun p => (p.1, p.2 ++ [(some n, v)]))⟩
  | .zipped f o o' => ⟨s.next, s.objs ++ (match s.objs[o]?, s.objs[o']? with
      | some (r, a), some (_, b) => [(r, List.zipWith (fun x y => (x.1, f x.2 y.2)) a b)]
      | _, _ => [])⟩
  | .mapped f o => ⟨s.next, s.objs ++ (match s.objs[o]? with
      | some (r, a) => [(r, a.map (fun c => (c.1, f c.2)))]
      | none => [])⟩
  | .assign o n v => ⟨s.next, s.objs.modify o (fun p => (p.1, setCell n v p.2))⟩

/-- Operations covered: names are new when added, variables are added only to a list from which no other list was derived,
operands have the same number of components, assigned names exist. -/
def Op.Legal (s : Spec V) : Op V → Prop
  | .create _ => True
  | .createNamed items names => names.length = items.length ∧ names.Nodup ∧ ∀ f ∈ forbidden, some f ∉ names
  | .addVar o n _ => ∃ r cells, s.objs[o]? = some (r, cells) ∧ some n ∉ cells.map Prod.fst ∧
      ∀ o' r' cells', s.objs[o']? = some (r', cells') → r' = r → o' = o
  | .zipped _ o o' => ∃ r a r' b, s.objs[o]? = some (r, a) ∧ s.objs[o']? = some (r', b) ∧ a.length = b.length
  | .mapped _ o => ∃ r a, s.objs[o]? = some (r, a)
  | .assign o n _ => ∃ r a, s.objs[o]? = some (r, a) ∧ some n ∈ a.map Prod.fst

def LegalAll : Spec V → List (Op V) → Prop
  | _, [] => True
  | s, op :: ops => op.Legal s ∧ LegalAll (op.spec s) ops

/-! ## Refinement -/

/-- The name table of a list maps exactly its names, to their positions. -/
def Indexes (d : Dict Str Nat) (cells : List (Option Str × V)) : Prop :=
  ∀ k i, Dict.get? d k = some i ↔ ∃ v, cells[i]? = some (some k, v)

structure Rel (h : Heap V) (s : Spec V) : Prop where
  maps : h.maps.length = s.next
  objs : h.objs = s.objs.map (fun p => (p.2.map Prod.snd, p.1))
  index : ∀ (o r : Nat) (cells : List (Option Str × V)), s.objs[o]? = some (r, cells) → ∃ d, h.maps[r]? = some d ∧ Indexes d cells

theorem rel_obj {h : Heap V} {s : Spec V} (hr : Rel h s) {o r : Nat} {cells : List (Option Str × V)}
    (ho : s.objs[o]? = some (r, cells)) : h.objs[o]? = some (cells.map Prod.snd, r) := by
  rw [hr.objs, List.getElem?_map, ho]; rfl

theorem indexes_congr {d : Dict Str Nat} {a b : List (Option Str × V)} (h : a.map Prod.fst = b.map Prod.fst)
    (hd : Indexes d a) : Indexes d b := by
  intro k i
  rw [hd k i]
  have hi : (a.map Prod.fst)[i]? = (b.map Prod.fst)[i]? := by rw [h]
  simp only [List.getElem?_map] at hi
  constructor
  · rintro ⟨v, hv⟩
    rw [hv] at hi
    cases hb : b[i]? with
    | none => rw [hb] at hi; cases hi
    | some p => rw [hb] at hi; obtain ⟨p1, p2⟩ := p; simp at hi; subst hi; exact ⟨p2, rfl⟩
  · rintro ⟨v, hv⟩
    rw [hv] at hi
    cases hb : a[i]? with
    | none => rw [hb] at hi; cases hi
    | some p => rw [hb] at hi; obtain ⟨p1, p2⟩ := p; simp at hi; subst hi; exact ⟨p2, rfl⟩

theorem setCell_fst (n : Str) (v : V) (cells : List (Option Str × V)) :
    (setCell n v cells).map Prod.fst = cells.map Prod.fst := by
  unfold setCell
  rw [List.map_map]
  apply List.map_congr_left
  intro c _
  simp only [Function.comp]
  split <;> rfl

theorem setCell_snd (n : Str) (v : V) (cells : List (Option Str × V)) (d : Dict Str Nat) (hd : Indexes d cells)
    (i : Nat) (hi : Dict.get? d n = some i) : (setCell n v cells).map Prod.snd = (cells.map Prod.snd).set i v := by
  apply List.ext_getElem?
  intro j
  unfold setCell
  rw [List.map_map, List.getElem?_map, List.getElem?_set]
  by_cases hij : i = j
  · subst hij
    obtain ⟨w, hw⟩ := (hd n i).1 hi
    have : i < cells.length := by
      by_contra hlt; rw [List.getElem?_eq_none (not_lt.1 hlt)] at hw; cases hw
    rw [if_pos rfl, if_pos (by simpa using this), hw]; simp
  · rw [if_neg hij, List.getElem?_map]
    cases hc : cells[j]? with
    | none => rfl
    | some p =>
      simp only [Option.map_some, Function.comp]
      rw [if_neg]
      intro hp
      apply hij
      obtain ⟨p1, p2⟩ := p
      have := (hd n j).2 ⟨p2, by rw [hc]; simp at hp; rw [hp]⟩
      rw [hi] at this
      exact Option.some.inj this

theorem nameMap_spec (ns : List (Option Str)) (i : Nat) (d : Dict (Option Str) Nat)
    (hn : ns.Nodup) (hd : ∀ n ∈ ns, n ∉ Dict.keys d) :
    nameMap ns i d = d ++ (ns.zipIdx i) := by
  induction ns generalizing i d with
  | nil => simp [nameMap]
  | cons n ns ih =>
    rw [nameMap, ih (i + 1) _ hn.of_cons, Dict.set_of_not_mem _ _ (hd n (by simp))]
    · simp [List.append_assoc]
    · intro m hm hmem
      rw [Dict.mem_keys_set] at hmem
      rcases hmem with rfl | hmem
      · exact (List.nodup_cons.1 hn).1 hm
      · exact hd m (by simp [hm]) hmem

theorem mem_stringKeys (d : Dict (Option Str) Nat) (k : Str) (i : Nat) : (k, i) ∈ stringKeys d ↔ (some k, i) ∈ d := by
  unfold stringKeys
  rw [List.mem_filterMap]
  constructor
  · rintro ⟨⟨a, b⟩, hm, he⟩
    cases a with
    | none => cases he
    | some a => simp at he; obtain ⟨rfl, rfl⟩ := he; exact hm
  · intro hm; exact ⟨(some k, i), hm, rfl⟩

theorem stringKeys_WF {d : Dict (Option Str) Nat} (hd : Dict.WF d) : Dict.WF (stringKeys d) := by
  induction d with
  | nil => exact Dict.WF_nil
  | cons p d ih =>
    obtain ⟨a, b⟩ := p
    unfold Dict.WF at hd
    rw [Dict.keys_cons] at hd
    have ih' := ih (List.nodup_cons.1 hd).2
    cases a with
    | none => exact ih'
    | some a =>
      show (Dict.keys ((a, b) :: stringKeys d)).Nodup
      rw [Dict.keys_cons]
      refine List.nodup_cons.2 ⟨?_, ih'⟩
      intro hm
      obtain ⟨⟨k, i⟩, hki, rfl⟩ := List.mem_map.1 hm
      exact (List.nodup_cons.1 hd).1 (Dict.mem_keys_of_mem (p := (some k, i)) ((mem_stringKeys d k i).1 hki))

theorem indexes_named (names : List (Option Str)) (items : List V) (hl : names.length = items.length) (hn : names.Nodup) :
    Indexes (stringKeys (nameMap names 0 [])) (names.zip items) := by
  have hm := nameMap_spec names 0 [] hn (by simp)
  rw [List.nil_append] at hm
  have hwf : Dict.WF (names.zipIdx 0 : Dict (Option Str) Nat) := by
    unfold Dict.WF Dict.keys
    rw [List.zipIdx_map_fst]; exact hn
  intro k i
  rw [hm]
  constructor
  · intro h
    have := (mem_stringKeys _ _ _).1 (Dict.mem_of_get? h)
    have hk := List.mem_zipIdx_iff_getElem?.1 this
    simp only at hk
    have hlt : i < items.length := by
      rw [← hl]; by_contra hc; rw [List.getElem?_eq_none (not_lt.1 hc)] at hk; cases hk
    refine ⟨items[i], ?_⟩
    rw [List.getElem?_zip_eq_some]
    exact ⟨hk, List.getElem?_eq_getElem hlt⟩
  · rintro ⟨v, hv⟩
    rw [List.getElem?_zip_eq_some] at hv
    apply Dict.get?_of_mem (stringKeys_WF hwf)
    rw [mem_stringKeys, List.mem_zipIdx_iff_getElem?]
    exact hv.1

theorem rel_append {h : Heap V} {s : Spec V} (hr : Rel h s) (d : Dict Str Nat) (cells : List (Option Str × V))
    (hd : Indexes d cells) (items : List V) (hi : items = cells.map Prod.snd) :
    Rel ⟨h.maps ++ [d], h.objs ++ [(items, h.maps.length)]⟩ ⟨s.next + 1, s.objs ++ [(s.next, cells)]⟩ := by
  constructor
  · simp [hr.maps]
  · simp [hr.objs, hi, hr.maps]
  · intro o r c ho
    rw [List.getElem?_append] at ho
    split at ho
    · obtain ⟨d', h1, h2⟩ := hr.index o r c ho
      refine ⟨d', ?_, h2⟩
      rw [List.getElem?_append_left]
      · exact h1
      · by_contra hc; rw [List.getElem?_eq_none (not_lt.1 hc)] at h1; cases h1
    · rw [List.getElem?_singleton] at ho
      split at ho
      · cases ho
        exact ⟨d, by rw [← hr.maps]; simp, hd⟩
      · cases ho

theorem rel_derived {h : Heap V} {s : Spec V} (hr : Rel h s) (o r : Nat) (cells cells' : List (Option Str × V))
    (ho : s.objs[o]? = some (r, cells)) (hf : cells.map Prod.fst = cells'.map Prod.fst) (items : List V)
    (hi : items = cells'.map Prod.snd) :
    Rel ⟨h.maps, h.objs ++ [(items, r)]⟩ ⟨s.next, s.objs ++ [(r, cells')]⟩ := by
  constructor
  · exact hr.maps
  · simp [hr.objs, hi]
  · intro o' r' c ho'
    rw [List.getElem?_append] at ho'
    split at ho'
    · exact hr.index o' r' c ho'
    · rw [List.getElem?_singleton] at ho'
      split at ho'
      · cases ho'
        obtain ⟨d, h1, h2⟩ := hr.index o r cells ho
        exact ⟨d, h1, indexes_congr hf h2⟩
      · cases ho'

theorem modify_get {α : Type} (l : List α) (o : Nat) (f : α → α) (a : α) (h : l[o]? = some a) :
    l.modify o f = l.set o (f a) := by
  apply List.ext_getElem?
  intro j
  rw [List.getElem?_modify, List.getElem?_set]
  by_cases hj : o = j
  · subst hj
    have : o < l.length := by by_contra hc; rw [List.getElem?_eq_none (not_lt.1 hc)] at h; cases h
    rw [if_pos rfl, if_pos this, h]; simp
  · simp [hj]

theorem map_set' {α β : Type} (l : List α) (o : Nat) (a : α) (f : α → β) : (l.set o a).map f = (l.map f).set o (f a) := by
  rw [List.map_set]

/-- Each legal operation succeeds and does to the tables what the specification says. -/
theorem op_refines (A : Attrs V) {h : Heap V} {s : Spec V} (hr : Rel h s) (op : Op V) (hl : op.Legal s) :
    ∃ h', op.run A h = .ok h' ∧ Rel h' (op.spec s) := by
  cases op with
  | create items =>
    refine ⟨_, rfl, ?_⟩
    apply rel_append hr
    · intro k i
      constructor
      · intro h; cases h
      · rintro ⟨v, hv⟩
        rw [List.getElem?_map] at hv
        cases hc : items[i]? with
        | none => rw [hc] at hv; cases hv
        | some _ => rw [hc] at hv; cases hv
    · rw [List.map_map]; simp [Function.comp_def]
  | createNamed items names =>
    obtain ⟨h1, h2, h3⟩ := hl
    have hm := nameMap_spec names 0 [] h2 (by simp)
    have hc : SL.createNamed h items names = .ok ⟨h.maps ++ [stringKeys (nameMap names 0 [])], h.objs ++ [(items, h.maps.length)]⟩ := by
      unfold SL.createNamed
      rw [if_pos h1, if_neg]
      · dsimp only
        rw [if_pos]
        rw [hm]; simp
      · simp only [List.any_eq_true, decide_eq_true_eq, not_exists, not_and]
        exact h3
    refine ⟨_, hc, ?_⟩
    apply rel_append hr _ _ (indexes_named names items h1 h2)
    rw [List.map_snd_zip (by omega)]
  | addVar o n v =>
    obtain ⟨r, cells, ho, hn, hu⟩ := hl
    obtain ⟨d, hd, hdi⟩ := hr.index o r cells ho
    have hob := rel_obj hr ho
    have hrun : SL.addVar h o n v = some ⟨h.maps.set r (Dict.set d n cells.length), h.objs.set o (cells.map Prod.snd ++ [v], r)⟩ := by
      unfold SL.addVar
      rw [hob]
      dsimp only
      rw [hd]
      simp
    refine ⟨⟨h.maps.set r (Dict.set d n cells.length), h.objs.set o (cells.map Prod.snd ++ [v], r)⟩,
      by simp only [Op.run, hrun]; rfl, ?_⟩
    simp only [Op.spec]
    rw [modify_get _ _ _ _ ho]
    constructor
    · simp [hr.maps]
    · rw [map_set', ← hr.objs]; simp
    · intro o' r' c' ho'
      dsimp only at ho' ⊢
      rw [List.getElem?_set] at ho'
      split at ho'
      · rename_i heq
        subst heq
        split at ho'
        · cases ho'
          refine ⟨Dict.set d n cells.length, ?_, ?_⟩
          · rw [List.getElem?_set]
            have : r < h.maps.length := by by_contra hc; rw [List.getElem?_eq_none (not_lt.1 hc)] at hd; cases hd
            simp [this]
          · intro k i
            by_cases hk : n = k
            · subst hk
              rw [Dict.get?_set_self]
              constructor
              · intro he; cases he; exact ⟨v, by simp⟩
              · rintro ⟨w, hw⟩
                rw [List.getElem?_append] at hw
                split at hw
                · exact absurd (List.mem_map.2 ⟨_, List.mem_of_getElem? hw, rfl⟩) hn
                · rename_i hlt
                  rw [List.getElem?_singleton] at hw
                  split at hw
                  · congr 1; omega
                  · cases hw
            · rw [Dict.get?_set_ne _ _ hk, hdi k i]
              constructor
              · rintro ⟨w, hw⟩
                refine ⟨w, ?_⟩
                rw [List.getElem?_append_left]
                · exact hw
                · by_contra hc; rw [List.getElem?_eq_none (not_lt.1 hc)] at hw; cases hw
              · rintro ⟨w, hw⟩
                rw [List.getElem?_append] at hw
                split at hw
                · exact ⟨w, hw⟩
                · rw [List.getElem?_singleton] at hw
                  split at hw
                  · cases hw; exact absurd rfl hk
                  · cases hw
        · cases ho'
      · rename_i hne
        obtain ⟨d', h1, h2⟩ := hr.index o' r' c' ho'
        refine ⟨d', ?_, h2⟩
        have hrr : r ≠ r' := by
          intro he
          exact hne (hu o' r' c' ho' he.symm).symm
        rw [List.getElem?_set_ne hrr]; exact h1
  | zipped f o o' =>
    obtain ⟨r, a, r', b, h1, h2, hlen⟩ := hl
    have ha := rel_obj hr h1
    have hb := rel_obj hr h2
    refine ⟨⟨h.maps, h.objs ++ [(List.zipWith f (a.map Prod.snd) (b.map Prod.snd), r)]⟩, ?_, ?_⟩
    · simp only [Op.run, SL.zipped, ha, hb]; rfl
    · simp only [Op.spec, h1, h2]
      apply rel_derived hr o r a _ h1
      · apply List.ext_getElem?
        intro i
        rw [List.getElem?_map, List.getElem?_map, List.getElem?_zipWith]
        cases ha : a[i]? with
        | none => simp
        | some x =>
          have : i < b.length := by
            rw [← hlen]; by_contra hc; rw [List.getElem?_eq_none (not_lt.1 hc)] at ha; cases ha
          rw [List.getElem?_eq_getElem this]; rfl
      · rw [List.map_zipWith, List.zipWith_map_left, List.zipWith_map_right]
  | mapped f o =>
    obtain ⟨r, a, h1⟩ := hl
    have ha := rel_obj hr h1
    refine ⟨⟨h.maps, h.objs ++ [((a.map Prod.snd).map f, r)]⟩, ?_, ?_⟩
    · simp only [Op.run, SL.mapped, ha]; rfl
    · simp only [Op.spec, h1]
      apply rel_derived hr o r a _ h1
      · simp [Function.comp_def]
      · simp [Function.comp_def]
  | assign o n v =>
    obtain ⟨r, a, h1, hn⟩ := hl
    have ha := rel_obj hr h1
    obtain ⟨d, hd, hdi⟩ := hr.index o r a h1
    obtain ⟨i, hi⟩ : ∃ i, Dict.get? d n = some i := by
      obtain ⟨⟨c1, c2⟩, hc, hce⟩ := List.mem_map.1 hn
      obtain ⟨i, hi⟩ := List.mem_iff_getElem?.1 hc
      simp only at hce
      subst hce
      exact ⟨i, (hdi n i).2 ⟨c2, hi⟩⟩
    have hlt : i < a.length := by
      obtain ⟨w, hw⟩ := (hdi n i).1 hi
      by_contra hc; rw [List.getElem?_eq_none (not_lt.1 hc)] at hw; cases hw
    refine ⟨⟨h.maps, h.objs.set o ((a.map Prod.snd).set i v, r)⟩, ?_, ?_⟩
    · simp only [Op.run, SL.assignVar, ha, hd, Option.getD_some, hi]
      rw [if_pos (by simpa using hlt)]
    · simp only [Op.spec]
      rw [modify_get _ _ _ _ h1]
      constructor
      · exact hr.maps
      · rw [map_set', ← hr.objs, setCell_snd n v a d hdi i hi]
      · intro o' r' c' ho'
        dsimp only at ho'
        rw [List.getElem?_set] at ho'
        split at ho'
        · split at ho'
          · cases ho'
            exact ⟨d, hd, indexes_congr (setCell_fst n v a).symm hdi⟩
          · cases ho'
        · exact hr.index o' r' c' ho'

def emptyHeap : Heap V := ⟨[], []⟩
def emptySpec : Spec V := ⟨0, []⟩

theorem rel_empty : Rel (emptyHeap : Heap V) emptySpec := by
  constructor
  · rfl
  · rfl
  · intro o r c h; simp [emptySpec] at h

theorem history_refines_from (A : Attrs V) (ops : List (Op V)) (h : Heap V) (s : Spec V) (hr : Rel h s) (hl : LegalAll s ops) :
    ∃ h', runAll A h ops = .ok h' ∧ Rel h' (ops.foldl Op.spec s) := by
  induction ops generalizing h s with
  | nil => exact ⟨h, rfl, hr⟩
  | cons op ops ih =>
    obtain ⟨h1, hrun, hr1⟩ := op_refines A hr op hl.1
    obtain ⟨h2, hrun2, hr2⟩ := ih h1 (op.spec s) hr1 hl.2
    exact ⟨h2, by simp only [runAll, hrun]; exact hrun2, hr2⟩

/-- **C19, part that holds.** After every legal history - any number of lists and variables - all operations have
succeeded, every list holds exactly the values the component-wise specification says, and every named variable whose name
is not a method name reads as its own value, on every list. -/
theorem stateList_history_partial (A : Attrs V) (ops : List (Op V)) (hl : LegalAll emptySpec ops) :
    ∃ h, runAll A emptyHeap ops = .ok h ∧
      (∀ o r cells, (ops.foldl Op.spec emptySpec).objs[o]? = some (r, cells) →
        (h.objs[o]?.map Prod.fst = some (cells.map Prod.snd)) ∧
        ∀ k v, (some k, v) ∈ cells → k ∉ builtinNames → readVar A h o k = .ok (.value v)) := by
  obtain ⟨h, hrun, hr⟩ := history_refines_from A ops emptyHeap emptySpec rel_empty hl
  refine ⟨h, hrun, ?_⟩
  intro o r cells ho
  have hob := rel_obj hr ho
  refine ⟨by rw [hob]; rfl, ?_⟩
  intro k v hkv hb
  obtain ⟨d, hd, hdi⟩ := hr.index o r cells ho
  obtain ⟨i, hi⟩ := List.mem_iff_getElem?.1 hkv
  have hg := (hdi k i).2 ⟨v, hi⟩
  unfold readVar
  rw [hob]
  dsimp only
  rw [if_neg hb, hd, Option.getD_some, hg]
  dsimp only
  rw [List.getElem?_map, hi]
  rfl

/-- Assigning a variable changes that variable and no other. -/
theorem setCell_other (n : Str) (v : V) (cells : List (Option Str × V)) (c : Option Str × V) :
    c ∈ setCell n v cells ↔ (c = (some n, v) ∧ some n ∈ cells.map Prod.fst) ∨ (c.1 ≠ some n ∧ c ∈ cells) := by
  unfold setCell
  rw [List.mem_map]
  constructor
  · rintro ⟨p, hp, rfl⟩
    split
    · rename_i h
      exact .inl ⟨by rw [h], List.mem_map.2 ⟨p, hp, h⟩⟩
    · rename_i h; exact .inr ⟨h, hp⟩
  · rintro (⟨rfl, h⟩ | ⟨h, hc⟩)
    · obtain ⟨p, hp, he⟩ := List.mem_map.1 h
      exact ⟨p, hp, by rw [if_pos he, he]⟩
    · exact ⟨c, hc, by rw [if_neg h]⟩

/-- The error estimate of a state list is the sum of the errors of its components. -/
theorem absSum_spec {K : Type} [AddCommMonoid K] (absV : V → K) (a : List V) : absSum absV a = (a.map absV).sum := by
  unfold absSum
  rw [List.sum_eq_foldl]

/-! ### What fails -/

def noAttrs : Attrs ℕ := ⟨fun _ => [], fun v _ => v, fun v _ _ => v⟩

/-- **C19 violated.** A second variable added under an existing name hides the first, which is not rejected. -/
theorem addVar_duplicate_violated :
    ∃ h, runAll noAttrs emptyHeap [.create [0], .addVar 0 "a".toList 1, .addVar 0 "a".toList 2] = .ok h ∧
      h.objs = [([0, 1, 2], 0)] ∧ readVar noAttrs h 0 "a".toList = .ok (.value 2) := ⟨_, rfl, rfl, by decide +kernel⟩

/-- **C19 violated.** A variable named like a list method can be added and assigned but not read back. -/
theorem method_name_violated :
    ∃ h, runAll noAttrs emptyHeap [.create [0], .addVar 0 "count".toList 1, .assign 0 "count".toList 5] = .ok h ∧
      h.objs = [([0, 5], 0)] ∧ readVar noAttrs h 0 "count".toList = .ok .builtin := ⟨_, rfl, rfl, by decide +kernel⟩

/-- **C19 violated.** Adding a variable to a list after another list was computed from it changes what the other list
answers: its new name raises an `IndexError` there. -/
theorem shared_names_violated :
    ∃ h, runAll noAttrs emptyHeap [.create [0], .mapped (· + 1) 0, .addVar 0 "a".toList 7] = .ok h ∧
      readVar noAttrs h 0 "a".toList = .ok (.value 7) ∧ readVar noAttrs h 1 "a".toList = .error .indexError :=
  ⟨_, rfl, by decide +kernel, by decide +kernel⟩

/-- **C19 violated.** Lists of different length are added without complaint; the surplus variables are lost. -/
theorem zip_truncation_violated :
    ∃ h, runAll noAttrs emptyHeap [.create [0], .addVar 0 "a".toList 1, .create [5], .zipped (· + ·) 0 1] = .ok h ∧
      h.objs[2]? = some ([5], 0) ∧ readVar noAttrs h 2 "a".toList = .error .indexError := ⟨_, rfl, rfl, by decide +kernel⟩

/-- **C19 violated.** Two lists compare equal when one is a prefix of the other. -/
theorem prefix_equality_violated : listEq [1, 2] [1, 2, 3] = true ∧ listEq ([] : List ℕ) [1] = true := ⟨rfl, rfl⟩

/-- **C19 violated.** The documented way of leaving variables unnamed (`None`) is rejected for two of them. -/
theorem two_unnamed_violated :
    createNamed (emptyHeap : Heap ℕ) [1, 2] [none, none] = .error .valueError ∧
    ∃ h, createNamed (emptyHeap : Heap ℕ) [1, 2] [none, some "a".toList] = .ok h := ⟨rfl, _, rfl⟩

/-- **C19 violated.** Assigning an unknown name is silently ignored (the simulator does so with `estimatedDerivative`). -/
theorem unknown_name_violated (A : Attrs V) (h : Heap V) (o m : Nat) (n : Str) (b v : V) (items : List V)
    (ho : h.objs[o]? = some (b :: items, m)) (hn : Dict.get? (h.maps[m]?.getD []) n = none) (hb : n ∉ A.names b) :
    assignVar A h o n v = .ok h := by
  unfold assignVar
  rw [ho]
  dsimp only
  rw [hn]
  dsimp only [List.getElem?_cons_zero]
  rw [if_neg hb]

/-- `StateList(values, names)` accepts exactly matching, duplicate-free, unreserved names. -/
theorem createNamed_iff (h : Heap V) (items : List V) (names : List (Option Str)) (hn : names.Nodup) :
    (∃ h', createNamed h items names = .ok h') ↔ names.length = items.length ∧ ∀ f ∈ forbidden, some f ∉ names := by
  have hm := nameMap_spec names 0 [] hn (by simp)
  unfold createNamed
  by_cases h1 : names.length = items.length
  · rw [if_pos h1]
    by_cases h2 : (forbidden.any fun f => decide (some f ∈ names)) = true
    · rw [if_pos h2]
      simp only [List.any_eq_true, decide_eq_true_eq] at h2
      obtain ⟨f, hf, hf2⟩ := h2
      constructor
      · rintro ⟨_, h⟩; cases h
      · rintro ⟨_, h⟩; exact absurd hf2 (h f hf)
    · rw [if_neg h2]
      dsimp only
      rw [if_pos (by rw [hm]; simp)]
      simp only [List.any_eq_true, decide_eq_true_eq, not_exists, not_and] at h2
      exact ⟨fun _ => ⟨h1, h2⟩, fun _ => ⟨_, rfl⟩⟩
  · rw [if_neg h1]
    constructor
    · rintro ⟨_, h⟩; cases h
    · rintro ⟨h, _⟩; exact absurd h h1

theorem nameMap_length_le (ns : List (Option Str)) (i : Nat) (d : Dict (Option Str) Nat) :
    (nameMap ns i d).length ≤ d.length + ns.length ∧
    (¬ ns.Nodup ∨ (∃ n ∈ ns, n ∈ Dict.keys d) → (nameMap ns i d).length < d.length + ns.length) := by
  induction ns generalizing i d with
  | nil => simp [nameMap]
  | cons n ns ih =>
    obtain ⟨ih1, ih2⟩ := ih (i + 1) (Dict.set d n i)
    have hlen : (Dict.set d n i).length ≤ d.length + 1 ∧ (n ∈ Dict.keys d → (Dict.set d n i).length = d.length) := by
      by_cases hm : n ∈ Dict.keys d
      · have := congrArg List.length (Dict.keys_set_of_mem d i hm)
        simp [Dict.keys] at this
        exact ⟨by omega, fun _ => this⟩
      · rw [Dict.set_of_not_mem _ _ hm]
        exact ⟨by simp, fun h => absurd h hm⟩
    rw [nameMap]
    simp only [List.length_cons]
    refine ⟨by omega, ?_⟩
    intro h
    by_cases hm : n ∈ Dict.keys d
    · have := hlen.2 hm; omega
    · have hcase : ¬ ns.Nodup ∨ (∃ m ∈ ns, m ∈ Dict.keys (Dict.set d n i)) := by
        rcases h with h | ⟨m, hmm, hmk⟩
        · rw [List.nodup_cons] at h
          by_cases hin : n ∈ ns
          · exact .inr ⟨n, hin, by rw [Dict.mem_keys_set]; exact .inl rfl⟩
          · exact .inl (fun hnd => h ⟨hin, hnd⟩)
        · rcases List.mem_cons.1 hmm with rfl | hmm
          · exact absurd hmk hm
          · exact .inr ⟨m, hmm, by rw [Dict.mem_keys_set]; exact .inr hmk⟩
      have := ih2 hcase
      omega

/-- Duplicate names are rejected. -/
theorem createNamed_duplicate (h : Heap V) (items : List V) (names : List (Option Str)) (hn : ¬ names.Nodup) :
    createNamed h items names = .error .valueError := by
  have := (nameMap_length_le names 0 []).2 (.inl hn)
  unfold createNamed
  split
  · split
    · rfl
    · dsimp only
      rw [if_neg]
      simp at this
      omega
  · rfl

/-- A legal history: a rocket state with two actuator positions, a derivative-like list and an Euler step. -/
example : LegalAll emptySpec [.create [10], .addVar 0 "a".toList 1, .addVar 0 "b".toList 2, .mapped (· * 2) 0,
    .zipped (· + ·) 0 1, .assign 2 "a".toList 9] := by
  refine ⟨trivial, ⟨0, _, rfl, by decide, ?_⟩, ⟨0, _, rfl, by decide, ?_⟩, ⟨0, _, rfl⟩, ⟨0, _, 0, _, rfl, rfl, rfl⟩,
    ⟨0, _, rfl, by decide⟩, trivial⟩
  all_goals
    intro o' r' c' h _
    rcases o' with _ | o'
    · rfl
    · simp [Op.spec, emptySpec] at h
example : (([.create [10], .addVar 0 "a".toList 1, .addVar 0 "b".toList 2, .mapped (· * 2) 0,
    .zipped (· + ·) 0 1, .assign 2 "a".toList 9] : List (Op ℕ)).foldl Op.spec emptySpec).objs[2]?
      = some (0, [(none, 30), (some "a".toList, 9), (some "b".toList, 6)]) := by decide +kernel

end Mapleaf.Motion.SL
