import Verif.Motion.ForceModel
import Mathlib.Algebra.BigOperators.Group.List.Basic
import Mathlib.Algebra.Order.BigOperators.Group.List

/-! # C17: force systems; C18: combining inertias -/

namespace Mapleaf.Motion

/-! ## C17 specification -/

namespace FMS
variable {K : Type} [Field K]

/-- Total moment of a force system about a point: its moment plus the moment of its force. -/
def momentAbout (f : FMS K) (p : V3 K) : V3 K := f.moment + V3.cross (f.loc - p) f.force

/-- Any way of summing systems: grouped and moved arbitrarily. -/
inductive Sum (K : Type)
  | leaf (f : FMS K)
  | plus (a b : Sum K)
  | minus (a b : Sum K)
  | moved (a : Sum K) (p : V3 K)

/-- The systems in a sum, with their sign. -/
def Sum.leaves : Sum K → List (Bool × FMS K)
  | .leaf f => [(true, f)]
  | .plus a b => a.leaves ++ b.leaves
  | .minus a b => a.leaves ++ b.leaves.map (fun p => (!p.1, p.2))
  | .moved a _ => a.leaves

/-- The code evaluating a sum. -/
def Sum.eval : Sum K → FMS K
  | .leaf f => f
  | .plus a b => a.eval.add b.eval
  | .minus a b => a.eval.sub b.eval
  | .moved a p => a.eval.getAt p

def signed (s : Bool) (v : V3 K) : V3 K := if s then v else -v

/-! ## C17 theorems -/

theorem cross_add_left (a b c : V3 K) : V3.cross (a + b) c = V3.cross a c + V3.cross b c := by
  apply V3.ext' <;> simp [V3.cross] <;> ring

theorem momentAbout_shift (f : FMS K) (p q : V3 K) : f.momentAbout q = f.momentAbout p + V3.cross (p - q) f.force := by
  unfold momentAbout
  rw [show f.loc - q = (f.loc - p) + (p - q) by abel, cross_add_left, add_assoc]

/-- **C17.** Moving a system keeps its force and its total moment about every point. -/
theorem getAt_preserves (f : FMS K) (p q : V3 K) :
    (f.getAt p).force = f.force ∧ (f.getAt p).loc = p ∧ (f.getAt p).momentAbout q = f.momentAbout q := by
  refine ⟨rfl, rfl, ?_⟩
  show f.moment + V3.cross (f.loc - p) f.force + V3.cross (p - q) f.force = _
  rw [momentAbout_shift f p q]
  rfl

/-- A system is determined by its location, its force and its total moment about any one point. -/
theorem fms_determined (a b : FMS K) (p : V3 K) (hl : a.loc = b.loc) (hf : a.force = b.force)
    (hm : a.momentAbout p = b.momentAbout p) : a = b := by
  cases a; cases b
  simp only [momentAbout] at hl hf hm
  subst hl hf
  have := add_right_cancel hm
  subst this
  rfl

/-- **C17.** Transfers compose (only the last point matters), a transfer to the present location and a round trip are the
identity. -/
theorem getAt_laws (f : FMS K) (p q : V3 K) :
    (f.getAt p).getAt q = f.getAt q ∧ f.getAt f.loc = f ∧ (f.getAt p).getAt f.loc = f := by
  have h1 : ∀ p q : V3 K, (f.getAt p).getAt q = f.getAt q := by
    intro p q
    refine fms_determined ((f.getAt p).getAt q) (f.getAt q) q rfl rfl ?_
    rw [(getAt_preserves _ _ _).2.2, (getAt_preserves _ _ _).2.2, (getAt_preserves _ _ _).2.2]
  have h2 : f.getAt f.loc = f := fms_determined (f.getAt f.loc) f 0 rfl rfl (getAt_preserves _ _ _).2.2
  exact ⟨h1 p q, h2, by rw [h1, h2]⟩

theorem add_spec (a b : FMS K) (q : V3 K) :
    (a.add b).force = a.force + b.force ∧ (a.add b).momentAbout q = a.momentAbout q + b.momentAbout q := by
  refine ⟨rfl, ?_⟩
  have h := (getAt_preserves b a.loc q).2.2
  rw [← h]
  unfold momentAbout add
  apply V3.ext' <;> simp [V3.cross, getAt] <;> ring

theorem neg_spec (a : FMS K) (q : V3 K) :
    a.neg.force = -a.force ∧ a.neg.momentAbout q = -a.momentAbout q := by
  refine ⟨rfl, ?_⟩
  apply V3.ext' <;> simp [V3.cross, neg, momentAbout] <;> ring

theorem sum_signed_neg (l : List (Bool × FMS K)) (f : FMS K → V3 K) :
    ((l.map (fun p => (!p.1, p.2))).map (fun p => signed p.1 (f p.2))).sum
      = -(l.map (fun p => signed p.1 (f p.2))).sum := by
  induction l with
  | nil => simp
  | cons a l ih =>
    obtain ⟨s, a⟩ := a
    simp only [List.map_cons, List.sum_cons, ih]
    cases s <;> simp [signed] <;> abel

/-- **C17.** However a sum of systems is grouped and wherever its parts are expressed on the way, the result's force is
the sum of the forces and its total moment about every point the sum of the total moments. -/
theorem sum_spec (e : Sum K) (q : V3 K) :
    e.eval.force = (e.leaves.map (fun p => signed p.1 p.2.force)).sum ∧
    e.eval.momentAbout q = (e.leaves.map (fun p => signed p.1 (p.2.momentAbout q))).sum := by
  induction e with
  | leaf f => simp [Sum.eval, Sum.leaves, signed]
  | plus a b iha ihb =>
    simp only [Sum.eval, Sum.leaves, List.map_append, List.sum_append]
    rw [(add_spec _ _ q).1, (add_spec _ _ q).2, iha.1, iha.2, ihb.1, ihb.2]
    exact ⟨rfl, rfl⟩
  | minus a b iha ihb =>
    simp only [Sum.eval, Sum.leaves, List.map_append, List.sum_append]
    rw [sum_signed_neg, sum_signed_neg b.leaves (fun f => f.momentAbout q)]
    unfold sub
    rw [(add_spec _ _ q).1, (add_spec _ _ q).2, (neg_spec _ q).1, (neg_spec _ q).2, iha.1, iha.2, ihb.1, ihb.2]
    exact ⟨rfl, rfl⟩
  | moved a p ih =>
    simp only [Sum.eval, Sum.leaves]
    rw [(getAt_preserves _ _ q).1, (getAt_preserves _ _ q).2.2]
    exact ih

/-- **C17.** Two ways of summing the same systems - in any order, grouping and intermediate locations - give the same
system when expressed at the same point. -/
theorem sum_order_independent (e e' : Sum K) (h : e.leaves.Perm e'.leaves) (q : V3 K) :
    e.eval.getAt q = e'.eval.getAt q := by
  refine fms_determined (e.eval.getAt q) (e'.eval.getAt q) q rfl ?_ ?_
  · rw [(getAt_preserves _ _ q).1, (getAt_preserves _ _ q).1, (sum_spec e q).1, (sum_spec e' q).1]
    exact (h.map _).sum_eq
  · rw [(getAt_preserves _ _ q).2.2, (getAt_preserves _ _ q).2.2, (sum_spec e q).2, (sum_spec e' q).2]
    exact (h.map _).sum_eq

/-- Moving is linear. -/
theorem getAt_linear (a b : FMS K) (q : V3 K) :
    (a.add b).getAt q = (a.getAt q).add (b.getAt q) ∧ a.neg.getAt q = (a.getAt q).neg ∧
    (a.sub b).getAt q = (a.getAt q).sub (b.getAt q) := by
  refine ⟨?_, ?_, ?_⟩
  · refine fms_determined ((a.add b).getAt q) ((a.getAt q).add (b.getAt q)) q rfl rfl ?_
    rw [(getAt_preserves _ _ q).2.2, (add_spec _ _ q).2, (add_spec _ _ q).2, (getAt_preserves _ _ q).2.2,
      (getAt_preserves _ _ q).2.2]
  · refine fms_determined (a.neg.getAt q) ((a.getAt q).neg) q rfl rfl ?_
    rw [(getAt_preserves _ _ q).2.2, (neg_spec _ q).2, (neg_spec _ q).2, (getAt_preserves _ _ q).2.2]
  · refine fms_determined ((a.sub b).getAt q) ((a.getAt q).sub (b.getAt q)) q rfl rfl ?_
    unfold sub
    rw [(getAt_preserves _ _ q).2.2, (add_spec _ _ q).2, (add_spec _ _ q).2, (neg_spec _ q).2, (neg_spec _ q).2,
      (getAt_preserves _ _ q).2.2, (getAt_preserves _ _ q).2.2]

/-- A force given without location or moment acts at the origin without moment. -/
theorem make_defaults (f l m : V3 K) :
    make f none none = ⟨f, 0, 0⟩ ∧ make f (some l) none = ⟨f, l, 0⟩ ∧ make f (some l) (some m) = ⟨f, l, m⟩ := ⟨rfl, rfl, rfl⟩

/-- A force of 2 along x applied at (0,0,3): moment about the origin (0,6,0). -/
example : ((⟨⟨2, 0, 0⟩, ⟨0, 0, 3⟩, ⟨1, 0, 0⟩⟩ : FMS ℚ).getAt 0).moment = ⟨1, 6, 0⟩ := by decide +kernel
/-- Two different groupings of the same three systems. -/
example (a b c : FMS ℚ) (p : V3 ℚ) :
    (Sum.plus (.leaf a) (.minus (.leaf b) (.leaf c))).leaves.Perm
      (Sum.moved (.plus (.minus (.leaf b) (.leaf c)) (.leaf a)) p).leaves := by
  show List.Perm ([_] ++ _) (_ ++ [_])
  exact List.perm_append_comm

end FMS

/-! ## C18 specification -/

namespace Inertia
variable {K : Type} [Field K] [LinearOrder K] [IsStrictOrderedRing K]

/-- Second moments of a part about the axes through `p` (parallel axis theorem), the part's moments being about its CG. -/
def secondMoment (p : V3 K) (i : Inertia K) : V3 K :=
  ⟨i.moi.x + i.mass * ((p.y - i.cg.y) ^ 2 + (p.z - i.cg.z) ^ 2),
   i.moi.y + i.mass * ((p.x - i.cg.x) ^ 2 + (p.z - i.cg.z) ^ 2),
   i.moi.z + i.mass * ((p.x - i.cg.x) ^ 2 + (p.y - i.cg.y) ^ 2)⟩

/-- `i` is what a list of parts amounts to: total mass, first moment and second moments about every point. -/
def IsTotal (parts : List (Inertia K)) (i : Inertia K) : Prop :=
  i.mass = (parts.map (·.mass)).sum ∧ i.mass • i.cg = (parts.map (fun j => j.mass • j.cg)).sum ∧
  (∀ p, secondMoment p i = (parts.map (secondMoment p)).sum) ∧ i.about = i.cg

/-! ## C18 theorems -/

theorem foldl_addMass (l : List (Inertia K)) (m : K) (v : V3 K) :
    l.foldl addMass (m, v) = (m + (l.map (·.mass)).sum, v + (l.map (fun j => j.mass • j.cg)).sum) := by
  induction l generalizing m v with
  | nil => simp
  | cons i l ih =>
    rw [List.foldl_cons, addMass, ih]
    simp [add_assoc]

theorem addMOI_spec (p acc : V3 K) (i : Inertia K) (h : i.about = i.cg) : addMOI p acc i = acc + secondMoment p i := by
  unfold addMOI
  rw [h]
  apply V3.ext' <;> simp [axisDistSq, secondMoment] <;> ring

theorem foldl_addMOI (p : V3 K) (l : List (Inertia K)) (hl : ∀ i ∈ l, i.about = i.cg) (v : V3 K) :
    l.foldl (addMOI p) v = v + (l.map (secondMoment p)).sum := by
  induction l generalizing v with
  | nil => simp
  | cons i l ih =>
    rw [List.foldl_cons, addMOI_spec p v i (hl i (by simp)), ih (fun i h => hl i (by simp [h]))]
    simp [add_assoc]

theorem definedAboutCG_iff (l : List (Inertia K)) : definedAboutCG l = true ↔ ∀ i ∈ l, i.about = i.cg := by
  simp [definedAboutCG]

theorem sum_x (l : List (V3 K)) : l.sum.x = (l.map (·.x)).sum := by
  induction l with
  | nil => rfl
  | cons a l ih => simp [ih]
theorem sum_y (l : List (V3 K)) : l.sum.y = (l.map (·.y)).sum := by
  induction l with
  | nil => rfl
  | cons a l ih => simp [ih]
theorem sum_z (l : List (V3 K)) : l.sum.z = (l.map (·.z)).sum := by
  induction l with
  | nil => rfl
  | cons a l ih => simp [ih]

/-- Second moments about `q` from those about `p`: only total mass and first moment enter. -/
theorem secondMoment_shift (l : List (Inertia K)) (p q : V3 K) :
    (l.map (secondMoment q)).sum = (l.map (secondMoment p)).sum +
      (l.map (·.mass)).sum • axisDistSq q - (l.map (·.mass)).sum • axisDistSq p -
      (2 : K) • (⟨(q.y - p.y) * (l.map (fun j : Inertia K => j.mass • j.cg)).sum.y + (q.z - p.z) * (l.map (fun j : Inertia K => j.mass • j.cg)).sum.z,
        (q.x - p.x) * (l.map (fun j : Inertia K => j.mass • j.cg)).sum.x + (q.z - p.z) * (l.map (fun j : Inertia K => j.mass • j.cg)).sum.z,
        (q.x - p.x) * (l.map (fun j : Inertia K => j.mass • j.cg)).sum.x + (q.y - p.y) * (l.map (fun j : Inertia K => j.mass • j.cg)).sum.y⟩ : V3 K) := by
  induction l with
  | nil => apply V3.ext' <;> simp
  | cons i l ih =>
    simp only [List.map_cons, List.sum_cons, ih]
    apply V3.ext' <;> simp [secondMoment, axisDistSq] <;> ring

theorem combine_isTotal (self : Inertia K) (l : List (Inertia K)) (hcg : ∀ i ∈ withSelf self l, i.about = i.cg)
    (hm : ∀ i ∈ withSelf self l, 0 ≤ i.mass) :
    ∃ r, combine self l = .ok r ∧ IsTotal (withSelf self l) r ∧
      (((withSelf self l).map (·.mass)).sum = 0 → r.cg = 0) := by
  set parts := withSelf self l with hp
  unfold combine
  rw [← hp]
  dsimp only
  rw [if_pos ((definedAboutCG_iff parts).2 hcg), foldl_addMass]
  simp only [zero_add]
  set M := (parts.map (·.mass)).sum with hM
  set S := (parts.map (fun j => j.mass • j.cg)).sum with hS
  have hnn : 0 ≤ M := List.sum_nonneg (by intro x hx; simp at hx; obtain ⟨i, hi, rfl⟩ := hx; exact hm i hi)
  have hfirst : ∀ cg : V3 K, cg = (if M > 0 then (1 / M) • S else ⟨0, 0, 0⟩) → M • cg = S := by
    rintro cg rfl
    split
    · rename_i h; rw [smul_smul, mul_one_div_cancel h.ne', one_smul]
    · rename_i h
      have hM0 : M = 0 := le_antisymm (not_lt.1 h) hnn
      have hall : ∀ i ∈ parts, i.mass = 0 := by
        have key : ∀ ps : List (Inertia K), (∀ i ∈ ps, 0 ≤ i.mass) → (ps.map (·.mass)).sum = 0 → ∀ i ∈ ps, i.mass = 0 := by
          intro ps
          induction ps with
          | nil => intro _ _ i hi; cases hi
          | cons j ps ih =>
            intro hpos hsum i hi
            have h1 := hpos j (by simp)
            have h2 : 0 ≤ (ps.map (·.mass)).sum := List.sum_nonneg (by
              intro x hx; simp at hx; obtain ⟨i, hi, rfl⟩ := hx; exact hpos i (by simp [hi]))
            simp only [List.map_cons, List.sum_cons] at hsum
            rcases List.mem_cons.1 hi with rfl | hi
            · linarith
            · exact ih (fun i h => hpos i (by simp [h])) (by linarith) i hi
        exact key parts hm hM0
      have hS0 : S = 0 := by
        rw [hS]
        apply List.sum_eq_zero
        intro x hx
        simp at hx
        obtain ⟨i, hi, rfl⟩ := hx
        rw [hall i hi, zero_smul]
      rw [hM0, hS0, zero_smul]
  refine ⟨_, rfl, ⟨rfl, hfirst _ rfl, ?_, rfl⟩, ?_⟩
  · intro q
    set cg := (if M > 0 then (1 / M) • S else (⟨0, 0, 0⟩ : V3 K)) with hcgd
    have hf := hfirst cg hcgd
    rw [foldl_addMOI _ _ hcg, zero_add, secondMoment_shift parts cg q, ← hM, ← hS, ← hf]
    unfold make secondMoment
    apply V3.ext' <;> simp [axisDistSq] <;> ring
  · intro h0
    show (if M > 0 then (1 / M) • S else (⟨0, 0, 0⟩ : V3 K)) = 0
    rw [if_neg (by rw [h0]; exact lt_irrefl _)]; rfl

/-- What a list of parts amounts to is unique (positive total mass). -/
theorem isTotal_unique (parts : List (Inertia K)) (i j : Inertia K) (hi : IsTotal parts i) (hj : IsTotal parts j)
    (hm : i.mass ≠ 0) : i = j := by
  obtain ⟨m1, f1, s1, a1⟩ := hi
  obtain ⟨m2, f2, s2, a2⟩ := hj
  have hmm : i.mass = j.mass := m1.trans m2.symm
  have hcg : i.cg = j.cg := by
    apply smul_right_injective (V3 K) hm
    show i.mass • i.cg = i.mass • j.cg
    rw [f1]; rw [hmm, f2]
  have hs := (s1 i.cg).trans (s2 i.cg).symm
  have hmoi : i.moi = j.moi := by
    have hx := congrArg V3.x hs
    have hy := congrArg V3.y hs
    have hz := congrArg V3.z hs
    simp only [secondMoment, hcg, sub_self] at hx hy hz
    apply V3.ext'
    · simpa using hx
    · simpa using hy
    · simpa using hz
  cases i; cases j; simp_all

/-- **C18, part that holds.** Combining a part with a list not containing an equal part - or, as the simulator does, with a
list that contains the part itself - succeeds for parts described about their own CG with non-negative masses, and gives
total mass, first moment and second moments about every point of all the parts. -/
theorem combine_partial (self : Inertia K) (l : List (Inertia K)) (hcg : ∀ i ∈ self :: l, i.about = i.cg)
    (hm : ∀ i ∈ self :: l, 0 ≤ i.mass) :
    (self ∉ l → ∃ r, combine self l = .ok r ∧ IsTotal (self :: l) r) ∧
    (self ∈ l → ∃ r, combine self l = .ok r ∧ IsTotal l r) := by
  constructor
  · intro h
    have hw : withSelf self l = l ++ [self] := by unfold withSelf; rw [if_neg h]
    have hperm : (l ++ [self]).Perm (self :: l) := by simpa using List.perm_append_comm (l₁ := l) (l₂ := [self])
    obtain ⟨r, hr, ht, _⟩ := combine_isTotal self l (fun i hi => hcg i (by rw [hw] at hi; exact hperm.mem_iff.1 hi))
      (fun i hi => hm i (by rw [hw] at hi; exact hperm.mem_iff.1 hi))
    rw [hw] at ht
    refine ⟨r, hr, ?_, ?_, ?_, ht.2.2.2⟩
    · rw [ht.1]; exact (hperm.map _).sum_eq
    · rw [ht.2.1]; exact (hperm.map _).sum_eq
    · intro p; rw [ht.2.2.1 p]; exact (hperm.map _).sum_eq
  · intro h
    have hw : withSelf self l = l := by unfold withSelf; rw [if_pos h]
    obtain ⟨r, hr, ht, _⟩ := combine_isTotal self l (fun i hi => hcg i (by rw [hw] at hi; simp [hi]))
      (fun i hi => hm i (by rw [hw] at hi; simp [hi]))
    rw [hw] at ht
    exact ⟨r, hr, ht⟩

/-- A part whose moments are not about its own CG is refused. -/
theorem combine_refuses (self : Inertia K) (l : List (Inertia K)) (i : Inertia K) (hi : i ∈ self :: l)
    (h : i.about ≠ i.cg) (p : V3 K) :
    combine self l = .error .valueError ∧ combineAboutPoint self l p = .error .valueError := by
  have hw : i ∈ withSelf self l := by
    unfold withSelf
    split
    · rename_i hs
      rcases List.mem_cons.1 hi with rfl | hi
      · exact hs
      · exact hi
    · rcases List.mem_cons.1 hi with rfl | hi
      · simp
      · simp [hi]
  have hd : ¬ (definedAboutCG (withSelf self l) = true) := by
    rw [definedAboutCG_iff]; intro hall; exact h (hall i hw)
  unfold combine combineAboutPoint
  dsimp only
  rw [if_neg hd, if_neg hd]
  exact ⟨rfl, rfl⟩

/-- **C18.** Combining about a given point: total mass, mass-weighted CG and second moments about that point. -/
theorem combineAboutPoint_spec (self : Inertia K) (l : List (Inertia K)) (p : V3 K)
    (hcg : ∀ i ∈ withSelf self l, i.about = i.cg) :
    ((((withSelf self l).map (·.mass)).sum = 0) → combineAboutPoint self l p = .error .zeroDivision) ∧
    (((withSelf self l).map (·.mass)).sum ≠ 0 → ∃ r, combineAboutPoint self l p = .ok r ∧ r.about = p ∧
      r.mass = ((withSelf self l).map (·.mass)).sum ∧ r.mass • r.cg = ((withSelf self l).map (fun j => j.mass • j.cg)).sum ∧
      r.moi = ((withSelf self l).map (secondMoment p)).sum) := by
  unfold combineAboutPoint
  dsimp only
  rw [if_pos ((definedAboutCG_iff _).2 hcg), foldl_addMass]
  simp only [zero_add]
  constructor
  · intro h; rw [if_pos h]
  · intro h
    rw [if_neg h]
    refine ⟨_, rfl, rfl, rfl, ?_, ?_⟩
    · dsimp only; rw [smul_smul, mul_one_div_cancel h, one_smul]
    · dsimp only; rw [foldl_addMOI _ _ hcg, zero_add]

/-! ### Grouping and order -/

/-- Any way of adding parts pairwise with `+`. -/
inductive Tree (K : Type)
  | leaf (i : Inertia K)
  | plus (a b : Tree K)

def Tree.leaves : Tree K → List (Inertia K)
  | .leaf i => [i]
  | .plus a b => a.leaves ++ b.leaves

def Tree.eval : Tree K → Except PyErr (Inertia K)
  | .leaf i => .ok i
  | .plus a b =>
    match a.eval, b.eval with
    | .ok x, .ok y => x.add y
    | .error e, _ => .error e
    | _, .error e => .error e

/-- No addition in the tree adds two equal inertias. -/
def Tree.NoTwins : Tree K → Prop
  | .leaf _ => True
  | .plus a b => a.NoTwins ∧ b.NoTwins ∧ ∀ x y, a.eval = .ok x → b.eval = .ok y → x ≠ y

theorem tree_isTotal (t : Tree K) (hcg : ∀ i ∈ t.leaves, i.about = i.cg) (hm : ∀ i ∈ t.leaves, 0 ≤ i.mass)
    (hn : t.NoTwins) : ∃ r, t.eval = .ok r ∧ IsTotal t.leaves r ∧ 0 ≤ r.mass := by
  induction t with
  | leaf i =>
    refine ⟨i, rfl, ⟨by simp [Tree.leaves], by simp [Tree.leaves], fun p => by simp [Tree.leaves], hcg i (by simp [Tree.leaves])⟩,
      hm i (by simp [Tree.leaves])⟩
  | plus a b iha ihb =>
    obtain ⟨x, hx, tx, mx⟩ := iha (fun i h => hcg i (by simp [Tree.leaves, h])) (fun i h => hm i (by simp [Tree.leaves, h])) hn.1
    obtain ⟨y, hy, ty, my⟩ := ihb (fun i h => hcg i (by simp [Tree.leaves, h])) (fun i h => hm i (by simp [Tree.leaves, h])) hn.2.1
    have hne := hn.2.2 x y hx hy
    obtain ⟨r, hr, ht⟩ := (combine_partial x [y]
      (by intro i hi; simp at hi; rcases hi with rfl | rfl; exacts [tx.2.2.2, ty.2.2.2])
      (by intro i hi; simp at hi; rcases hi with rfl | rfl; exacts [mx, my])).1 (by simpa using hne)
    refine ⟨r, by simp only [Tree.eval, hx, hy]; exact hr, ⟨?_, ?_, ?_, ht.2.2.2⟩, ?_⟩
    · rw [ht.1]; simp [Tree.leaves, tx.1, ty.1]
    · rw [ht.2.1]; simp [Tree.leaves, tx.2.1, ty.2.1]
    · intro p; rw [ht.2.2.1]; simp [Tree.leaves, tx.2.2.1, ty.2.2.1]
    · rw [ht.1]; simp; exact add_nonneg mx my

/-- **C18, part that holds.** Two ways of adding up the same parts, in any order and grouping, give the same inertia,
provided no addition on the way adds two equal inertias. -/
theorem combine_order_partial (t t' : Tree K) (h : t.leaves.Perm t'.leaves) (hcg : ∀ i ∈ t.leaves, i.about = i.cg)
    (hm : ∀ i ∈ t.leaves, 0 ≤ i.mass) (hpos : 0 < (t.leaves.map (·.mass)).sum) (hn : t.NoTwins) (hn' : t'.NoTwins) :
    ∃ r, t.eval = .ok r ∧ t'.eval = .ok r := by
  obtain ⟨r, hr, ht, _⟩ := tree_isTotal t hcg hm hn
  obtain ⟨r', hr', ht', _⟩ := tree_isTotal t' (fun i hi => hcg i (h.mem_iff.2 hi)) (fun i hi => hm i (h.mem_iff.2 hi)) hn'
  have ht2 : IsTotal t.leaves r' := by
    refine ⟨?_, ?_, ?_, ht'.2.2.2⟩
    · rw [ht'.1]; exact (h.symm.map _).sum_eq
    · rw [ht'.2.1]; exact (h.symm.map _).sum_eq
    · intro p; rw [ht'.2.2.1]; exact (h.symm.map _).sum_eq
  have : r = r' := isTotal_unique t.leaves r r' ht ht2 (by rw [ht.1]; exact hpos.ne')
  subst this
  exact ⟨r, hr, hr'⟩

/-- The parts' order in the list does not matter when the list contains `self` (the simulator's way of calling it). -/
theorem combine_list_order (self self' : Inertia K) (l l' : List (Inertia K)) (h : l.Perm l') (hs : self ∈ l)
    (hs' : self' ∈ l') (hcg : ∀ i ∈ l, i.about = i.cg) (hm : ∀ i ∈ l, 0 ≤ i.mass) (hpos : 0 < (l.map (·.mass)).sum) :
    ∃ r, combine self l = .ok r ∧ combine self' l' = .ok r := by
  obtain ⟨r, hr, ht⟩ := (combine_partial self l (by intro i hi; rcases List.mem_cons.1 hi with rfl | hi; exacts [hcg _ hs, hcg _ hi])
    (by intro i hi; rcases List.mem_cons.1 hi with rfl | hi; exacts [hm _ hs, hm _ hi])).2 hs
  obtain ⟨r', hr', ht'⟩ := (combine_partial self' l'
    (by intro i hi; rcases List.mem_cons.1 hi with rfl | hi; exacts [hcg _ (h.mem_iff.2 hs'), hcg _ (h.mem_iff.2 hi)])
    (by intro i hi; rcases List.mem_cons.1 hi with rfl | hi; exacts [hm _ (h.mem_iff.2 hs'), hm _ (h.mem_iff.2 hi)])).2 hs'
  have ht2 : IsTotal l r' := by
    refine ⟨?_, ?_, ?_, ht'.2.2.2⟩
    · rw [ht'.1]; exact (h.symm.map _).sum_eq
    · rw [ht'.2.1]; exact (h.symm.map _).sum_eq
    · intro p; rw [ht'.2.2.1]; exact (h.symm.map _).sum_eq
  have : r = r' := isTotal_unique l r r' ht ht2 (by rw [ht.1]; exact hpos.ne')
  subst this
  exact ⟨r, hr, hr'⟩

end Inertia

/-- **C18 violated.** Adding two equal parts gives one of them: every inertia described about its CG, added to itself,
keeps its mass. -/
theorem combine_equal_parts_violated :
    (Inertia.make ⟨1, 1, 1⟩ ⟨0, 0, 2⟩ (3 : ℚ)).add (Inertia.make ⟨1, 1, 1⟩ ⟨0, 0, 2⟩ 3)
      = .ok (Inertia.make ⟨1, 1, 1⟩ ⟨0, 0, 2⟩ 3) := by decide +kernel

example : (Inertia.make ⟨1, 1, 1⟩ ⟨0, 0, 2⟩ (3 : ℚ)).add (Inertia.make ⟨1, 1, 2⟩ ⟨0, 0, 4⟩ 1)
    = .ok (Inertia.make ⟨5, 5, 3⟩ ⟨0, 0, 5 / 2⟩ 4) := by decide +kernel
example : (Inertia.Tree.plus (.leaf (Inertia.make ⟨1, 1, 1⟩ ⟨0, 0, 2⟩ (3 : ℚ)))
    (.leaf (Inertia.make ⟨1, 1, 2⟩ ⟨0, 0, 4⟩ 1))).NoTwins := by
  refine ⟨trivial, trivial, ?_⟩
  rintro x y ⟨⟩ ⟨⟩
  decide

end Mapleaf.Motion
