import Verif.Motion.EqualModel
import Verif.Motion.StateProps
import Mathlib.Tactic.NormNum
import Mathlib.Tactic.Positivity

/-! # C85: what `==`, the constructors and the products of the value objects mean -/

namespace Mapleaf.Motion.Eqv

open Classical

/-! ## Component-wise comparisons are equality -/

theorem vecEq_iff (a b : V3 ℝ) : vecEq a b = true ↔ a = b := by
  constructor
  · intro h
    simp only [vecEq, Bool.and_eq_true, decide_eq_true_eq] at h
    exact V3.ext' h.1.1 h.1.2 h.2
  · rintro rfl; simp [vecEq]

theorem quatEq_iff (a b : Quat ℝ) : quatEq a b = true ↔ a = b := by
  constructor
  · intro h
    simp only [quatEq, Bool.and_eq_true, decide_eq_true_eq] at h
    exact Quat.ext4 h.1.1.1 h.1.1.2 h.1.2 h.2
  · rintro rfl; simp [quatEq]

theorem stateEq_iff (a b : RBState) : stateEq a b = true ↔ a = b := by
  cases a; cases b
  simp only [stateEq, List.all_cons, List.all_nil, id, Bool.and_true, Bool.and_eq_true, vecEq_iff, quatEq_iff,
    RBState.mk.injEq]

theorem derivEq_iff (a b : RBDeriv) : derivEq a b = true ↔ a = b := by
  cases a; cases b
  simp only [derivEq, List.all_cons, List.all_nil, id, Bool.and_true, Bool.and_eq_true, vecEq_iff, RBDeriv.mk.injEq]

theorem inertiaEq_iff (a b : Inertia ℝ) : inertiaEq a b = true ↔ a = b := by
  cases a; cases b
  simp only [inertiaEq, Bool.and_eq_true, vecEq_iff, decide_eq_true_eq, Inertia.mk.injEq]
  tauto

theorem forceEq_iff (a b : FMS ℝ) : forceEq a b = true ↔ a = b := by
  cases a; cases b
  simp only [forceEq, Bool.and_eq_true, vecEq_iff, FMS.mk.injEq]
  tauto

/-- Two dictionaries are equal when every key has the same value (or none) in both: the order of the keys is irrelevant. -/
theorem dictEq_iff {d e : Dict Str Str} (hd : Dict.WF d) (he : Dict.WF e) :
    dictEq d e = true ↔ ∀ k, Dict.get? d k = Dict.get? e k := by
  simp only [dictEq, Bool.and_eq_true, decide_eq_true_eq, List.all_eq_true]
  have hnd : d.Nodup := List.Nodup.of_map _ hd
  have hne : e.Nodup := List.Nodup.of_map _ he
  constructor
  · rintro ⟨hl, h⟩
    have hs : d ⊆ e := fun p hp => Dict.mem_of_get? (h p hp)
    have hp : d.Perm e := (List.subperm_of_subset hnd hs).perm_of_length_le hl.ge
    exact fun k => Dict.get?_perm hd hp k
  · intro h
    have h1 : d ⊆ e := fun p hp => Dict.mem_of_get? ((h p.1).symm.trans (Dict.get?_of_mem hd (k := p.1) (v := p.2) hp))
    have h2 : e ⊆ d := fun p hp => Dict.mem_of_get? ((h p.1).trans (Dict.get?_of_mem he (k := p.1) (v := p.2) hp))
    refine ⟨le_antisymm ?_ ?_, fun p hp => Dict.get?_of_mem he (h1 hp)⟩
    · exact (List.subperm_of_subset hnd h1).length_le
    · exact (List.subperm_of_subset hne h2).length_le

/-! ## `==` between any two objects -/

/-- Number of entries both lists have, and they agree there. -/
theorem zip_all (r r' : List ℝ) :
    (List.zipWith (fun x y => decide (x = y)) r r').all id = true ↔ r <+: r' ∨ r' <+: r := by
  induction r generalizing r' with
  | nil => simp
  | cons x r ih =>
    cases r' with
    | nil => simp
    | cons y r' =>
      simp only [List.zipWith_cons_cons, List.all_cons, id, Bool.and_eq_true, decide_eq_true_eq, ih, List.cons_prefix_cons]
      constructor
      · rintro ⟨rfl, h⟩; tauto
      · rintro (⟨rfl, h⟩ | ⟨rfl, h⟩) <;> tauto

/-- Python dictionaries hold no key twice. -/
def Proper : Obj → Prop
  | .simdef d _ => Dict.WF d
  | _ => True

/-- When two objects count as equal. -/
def Same : Obj → Obj → Prop
  | .none, .none => True
  | .num x, .num y => x = y
  | .text s, .text t => s = t
  | .vec a, .vec b | .vec a, .ang b | .ang a, .vec b | .ang a, .ang b => a = b
  | .quat a, .quat b => a = b
  | .state3 i _ _, .state3 j _ _ => i = j
  | .deriv3 i _ _, .deriv3 j _ _ => i = j
  | .state6 a, .state6 b => a = b
  | .state6 a, .slist b _ => a = b
  | .deriv6 a, .deriv6 b => a = b
  | .slist a r, .slist b r' => a = b ∧ (r <+: r' ∨ r' <+: r)
  | .slist _ _, .text s | .text s, .slist _ _ => s = []
  | .inertia a, .inertia b => a = b
  | .force a, .force b => a = b
  | .simdef d _, .simdef e _ => ∀ k, Dict.get? d k = Dict.get? e k
  | _, _ => False

/-- Objects whose class leaves the comparison with another class to the other operand. -/
def Passive : Obj → Prop
  | .none | .num _ | .text _ | .state3 .. | .deriv3 .. => True
  | _ => False

/-- Objects whose `__eq__` reads an attribute of the other operand without a guard. -/
def Picky : Obj → Prop
  | .quat _ | .force _ => True
  | _ => False

def SameClass : Obj → Obj → Prop
  | .quat _, .quat _ | .force _, .force _ => True
  | _, _ => False

/-- **C85.** `a == b` raises exactly when a quaternion or a force system meets an object of another class, unless the other
object stands on the left and answers by itself; the exception is `AttributeError`. -/
theorem pyEq_raises_iff (a b : Obj) (e : PyErr) :
    pyEq a b = .error e ↔ e = .attributeError ∧ ¬ SameClass a b ∧ (Picky a ∨ (Passive a ∧ Picky b)) := by
  cases a <;> cases b <;> simp [pyEq, method, SameClass, Picky, Passive, eq_comm]
  all_goals (split_ifs <;> simp)

theorem text_zip (p : Bool) (r : List Bool) (s : Str) (hp : p = false) :
    (List.zipWith (fun p (_ : Char) => p) (p :: r) s).all id = true ↔ s = [] := by
  subst hp
  cases s <;> simp

/-- **C85.** `a == b` is `True` exactly for the pairs listed in `Same`. -/
theorem pyEq_true_iff (a b : Obj) (ha : Proper a) (hb : Proper b) : pyEq a b = .ok true ↔ Same a b := by
  cases a <;> cases b <;>
    simp only [pyEq, method, Same, Except.ok.injEq, decide_eq_true_eq, vecEq_iff, quatEq_iff, reduceCtorEq,
      state6Method, stateEq_iff, derivEq_iff, inertiaEq_iff, forceEq_iff, slistMethod, Bool.false_eq_true]
  case text.slist s a r => exact text_zip _ _ _ rfl
  case slist.text a r s => exact text_zip _ _ _ rfl
  case state3.state3 i _ _ j _ _ =>
    by_cases h : i = j
    · simp [h]
    · simp [h, Ne.symm h]
  case deriv3.deriv3 i _ _ j _ _ =>
    by_cases h : i = j
    · simp [h]
    · simp [h, Ne.symm h]
  case slist.slist a r b r' => simp only [List.all_cons, id, Bool.and_eq_true, stateEq_iff, zip_all]
  case simdef.simdef d f e g => exact dictEq_iff ha hb
  all_goals simp

/-- Exactly one of: an exception, `True`, `False`. -/
theorem pyEq_false_iff (a b : Obj) (ha : Proper a) (hb : Proper b) :
    pyEq a b = .ok false ↔ ¬ Same a b ∧ (SameClass a b ∨ ¬ (Picky a ∨ (Passive a ∧ Picky b))) := by
  have h1 := pyEq_true_iff a b ha hb
  have h2 := pyEq_raises_iff a b
  cases h : pyEq a b with
  | error e =>
    have := (h2 e).1 h
    simp only [reduceCtorEq, false_iff]
    tauto
  | ok r =>
    rw [h] at h1
    cases r with
    | true =>
      have := h1.1 rfl
      simp [this]
    | false =>
      have hn : ¬ Same a b := fun hs => by simpa using h1.2 hs
      simp only [true_iff]
      refine ⟨hn, ?_⟩
      by_contra hc
      rw [not_or, not_not] at hc
      have := (h2 .attributeError).2 ⟨rfl, hc.1, hc.2⟩
      rw [h] at this
      cases this

example : pyEq (.vec ⟨1, 2, 3⟩) (.ang ⟨1, 2, 3⟩) = .ok true := (pyEq_true_iff _ _ (by trivial) (by trivial)).2 rfl
example : pyEq (.vec ⟨1, 2, 3⟩) .none = .ok false :=
  (pyEq_false_iff _ _ (by trivial) (by trivial)).2 ⟨id, Or.inr (by rintro (h | h) <;> simp_all [Picky, Passive])⟩

/-- `!=` is the opposite of `==` and raises with it. -/
theorem pyNe_iff (a b : Obj) (r : Bool) : pyNe a b = .ok r ↔ pyEq a b = .ok (!r) := by
  unfold pyNe
  cases h : pyEq a b with
  | error e => simp
  | ok s => cases s <;> cases r <;> simp

/-! ## An equivalence, apart from state lists -/

/-- Objects other than state lists. -/
def Plain : Obj → Prop
  | .slist .. => False
  | _ => True

theorem same_refl (a : Obj) : Same a a := by
  cases a <;> simp [Same]

theorem same_symm (a b : Obj) (ha : Plain a) (hb : Plain b) (h : Same a b) : Same b a := by
  cases a <;> cases b <;> simp_all [Same, Plain]

theorem same_trans (a b c : Obj) (ha : Plain a) (hb : Plain b) (h1 : Same a b) (h2 : Same b c) : Same a c := by
  cases a <;> cases b <;> cases c <;> simp_all [Same, Plain]

/-- **C85.** Every object equals itself; among objects other than state lists, equality does not depend on the order of the
operands and is transitive. -/
theorem equality_equivalence :
    (∀ a, Proper a → pyEq a a = .ok true) ∧
    (∀ a b, Proper a → Proper b → Plain a → Plain b → pyEq a b = .ok true → pyEq b a = .ok true) ∧
    (∀ a b c, Proper a → Proper b → Proper c → Plain a → Plain b → Plain c →
      pyEq a b = .ok true → pyEq b c = .ok true → pyEq a c = .ok true) := by
  refine ⟨fun a ha => (pyEq_true_iff a a ha ha).2 (same_refl a), ?_, ?_⟩
  · intro a b ha hb pa pb h
    exact (pyEq_true_iff b a hb ha).2 (same_symm a b pa pb ((pyEq_true_iff a b ha hb).1 h))
  · intro a b c ha hb hc pa pb _ h1 h2
    exact (pyEq_true_iff a c ha hc).2 (same_trans a b c pa pb ((pyEq_true_iff a b ha hb).1 h1) ((pyEq_true_iff b c hb hc).1 h2))

/-- Equal objects of one class hold the same data: no two different values of these classes compare equal. -/
theorem equal_values (a b : Obj) :
    (∀ u v, a = .vec u → b = .vec v → (pyEq a b = .ok true ↔ u = v)) ∧
    (∀ u v, a = .quat u → b = .quat v → (pyEq a b = .ok true ↔ u = v)) ∧
    (∀ u v, a = .state6 u → b = .state6 v → (pyEq a b = .ok true ↔ u = v)) ∧
    (∀ u v, a = .deriv6 u → b = .deriv6 v → (pyEq a b = .ok true ↔ u = v)) ∧
    (∀ u v, a = .inertia u → b = .inertia v → (pyEq a b = .ok true ↔ u = v)) ∧
    (∀ u v, a = .force u → b = .force v → (pyEq a b = .ok true ↔ u = v)) := by
  refine ⟨?_, ?_, ?_, ?_, ?_, ?_⟩ <;> rintro u v rfl rfl <;> exact pyEq_true_iff _ _ (by trivial) (by trivial)

/-! ## Where the claim fails -/

/-- Comparing an orientation (or a force system) with `None` raises, in either order; comparing a vector does not. -/
theorem compare_none_violated (q : Quat ℝ) (f : FMS ℝ) (v : V3 ℝ) :
    pyEq (.quat q) .none = .error .attributeError ∧ pyEq .none (.quat q) = .error .attributeError ∧
    pyEq (.force f) .none = .error .attributeError ∧ pyEq (.vec v) .none = .ok false := by
  refine ⟨?_, ?_, ?_, ?_⟩ <;> rfl

/-- The answer depends on the order of the operands: a state equals every state list that begins with it, but no state list
equals a state; a vector is unequal to a quaternion, but a quaternion compared with a vector raises. -/
theorem asymmetric_violated (s : RBState) (r : List ℝ) (v : V3 ℝ) (q : Quat ℝ) :
    pyEq (.state6 s) (.slist s r) = .ok true ∧ pyEq (.slist s r) (.state6 s) = .ok false ∧
    pyEq (.vec v) (.quat q) = .ok false ∧ pyEq (.quat q) (.vec v) = .error .attributeError := by
  refine ⟨(pyEq_true_iff _ _ (by trivial) (by trivial)).2 rfl, rfl, rfl, rfl⟩

/-- A state list equals the empty string, and lists that differ in their length: equality of state lists is not transitive. -/
theorem stateList_violated (s : RBState) :
    pyEq (.slist s [1]) (.text []) = .ok true ∧
    pyEq (.slist s [1]) (.slist s []) = .ok true ∧ pyEq (.slist s []) (.slist s [2]) = .ok true ∧
    pyEq (.slist s [1]) (.slist s [2]) ≠ .ok true := by
  refine ⟨(pyEq_true_iff _ _ (by trivial) (by trivial)).2 rfl, (pyEq_true_iff _ _ (by trivial) (by trivial)).2 ⟨rfl, Or.inr List.nil_prefix⟩,
    (pyEq_true_iff _ _ (by trivial) (by trivial)).2 ⟨rfl, Or.inl List.nil_prefix⟩, fun h => ?_⟩
  have := (pyEq_true_iff _ _ (by trivial) (by trivial)).1 h
  simp [Same] at this

/-- Two 3-DoF states with the same position and velocity are unequal unless they are one object, and equality of the class
says nothing about the data. -/
theorem threeDoF_violated (i j : ℕ) (p v : V3 ℝ) (h : i ≠ j) : pyEq (.state3 i p v) (.state3 j p v) = .ok false := by
  simp [pyEq, method, h, Ne.symm h]

/-- A quaternion and its negative rotate every vector to the same place but are unequal. -/
theorem opposite_quaternions_violated (q : Quat ℝ) (hq : q ≠ ⟨0, 0, 0, 0⟩) :
    (∀ v, q.sandwich v = q.neg.sandwich v) ∧ pyEq (.quat q) (.quat q.neg) = .ok false := by
  constructor
  · intro v
    simp only [Quat.sandwich, Quat.mul, Quat.conj, Quat.neg]
    ext <;> ring
  · refine (pyEq_false_iff _ _ (by trivial) (by trivial)).2 ⟨fun h => hq ?_, Or.inl trivial⟩
    have h' : q = q.neg := h
    have h0 := congrArg Quat.q0 h'
    have h1 := congrArg Quat.q1 h'
    have h2 := congrArg Quat.q2 h'
    have h3 := congrArg Quat.q3 h'
    simp only [Quat.neg] at h0 h1 h2 h3
    exact Quat.ext4 (by linarith) (by linarith) (by linarith) (by linarith)

/-- Two simulation definitions are equal whatever their file names. -/
theorem definition_file_irrelevant (d : Dict Str Str) (f g : Str) (hd : Dict.WF d) :
    pyEq (.simdef d f) (.simdef d g) = .ok true := (pyEq_true_iff (.simdef d f) (.simdef d g) hd hd).2 fun _ => rfl

/-! ## Constructors -/

/-- **C85.** A quaternion is made from four numbers, from an axis and an angle, or from a list of at least four numbers, in
this order of precedence; nothing at all is a `ValueError`. -/
theorem quatInit_spec :
    (∀ a b c d : ℝ, quatInit (.num a) (.num b) (.num c) (.num d) = .ok ⟨a, b, c, d⟩) ∧
    (∀ (u : V3 ℝ) (θ : ℝ) (c : Arg), quatInit (.vec u) (.num θ) c .none = .ok (Quat.axisAngle u θ)) ∧
    (∀ (l : List ℝ) (a : Arg) (q : Quat ℝ), quatInit a .none (.list l) .none = .ok q ↔
      ∃ rest, l = q.q0 :: q.q1 :: q.q2 :: q.q3 :: rest) ∧
    (∀ a b : Arg, a = .none ∨ b = .none → quatInit a b .none .none = .error .valueError) := by
  refine ⟨fun _ _ _ _ => rfl, fun u θ c => rfl, ?_, ?_⟩
  · intro l a q
    have : quatInit a .none (.list l) .none = (do
        let q0 ← item (.list l) 0
        let q1 ← item (.list l) 1
        let q2 ← item (.list l) 2
        let q3 ← item (.list l) 3
        return ⟨q0, q1, q2, q3⟩) := by cases a <;> rfl
    rw [this]
    obtain ⟨q0, q1, q2, q3⟩ := q
    match l with
    | [] => simp [item, bind, Except.bind]
    | [_] => simp [item, bind, Except.bind]
    | [_, _] => simp [item, bind, Except.bind]
    | [_, _, _] => simp [item, bind, Except.bind]
    | w :: x :: y :: z :: rest => simp [item, bind, Except.bind, pure, Except.pure]
  · rintro a b (rfl | rfl)
    · cases b <;> rfl
    · cases a <;> rfl

/-- A quaternion made from a nonzero axis and an angle is a unit quaternion whatever the length of the axis. -/
theorem quatInit_unit (u : V3 ℝ) (θ : ℝ) (h : u.length ≠ 0) :
    ∃ q, quatInit (.vec u) (.num θ) .none .none = .ok q ∧ q.q0 * q.q0 + q.q1 * q.q1 + q.q2 * q.q2 + q.q3 * q.q3 = 1 := by
  refine ⟨_, rfl, ?_⟩
  have hp : u.length > 0 := lt_of_le_of_ne (Real.sqrt_nonneg _) (Ne.symm h)
  have hl : u.length * u.length = u.x * u.x + u.y * u.y + u.z * u.z := Real.mul_self_sqrt (by nlinarith [mul_self_nonneg u.x, mul_self_nonneg u.y, mul_self_nonneg u.z])
  simp only [Quat.axisAngle, V3.normalize, if_pos hp]
  have h3 : u.x / u.length * (u.x / u.length) + u.y / u.length * (u.y / u.length) + u.z / u.length * (u.z / u.length) = 1 := by
    field_simp
    nlinarith [hl]
  have h4 := Real.sin_sq_add_cos_sq (θ / 2)
  nlinarith [h3, h4, sq_nonneg (Real.sin (θ / 2))]

/-- **C85.** An angular velocity is made from three numbers, from an axis and a rate, or from a rotation vector. -/
theorem angInit_spec :
    (∀ x y z : ℝ, angInit (.num x) (.num y) (.num z) = .ok ⟨x, y, z⟩) ∧
    (∀ (u : V3 ℝ) (r : ℝ) (c : Arg), angInit (.vec u) (.num r) c = .ok (r • u.normalize)) ∧
    (∀ (v : V3 ℝ) (a b : Arg), a = .none ∨ b = .none → angInit a b (.vec v) = .ok v) := by
  refine ⟨fun _ _ _ => rfl, ?_, ?_⟩
  · intro u r c; cases c <;> rfl
  · rintro v a b (rfl | rfl)
    · cases b <;> rfl
    · cases a <;> rfl

/-- The length of an angular velocity made from a nonzero axis is the rate given. -/
theorem angInit_rate (u : V3 ℝ) (r : ℝ) (h : u.length ≠ 0) :
    ∃ w, angInit (.vec u) (.num r) .none = .ok w ∧ w.length = |r| := by
  refine ⟨_, rfl, ?_⟩
  have hp : u.length > 0 := lt_of_le_of_ne (Real.sqrt_nonneg _) (Ne.symm h)
  have hl : u.length * u.length = u.x * u.x + u.y * u.y + u.z * u.z := Real.mul_self_sqrt (by nlinarith [mul_self_nonneg u.x, mul_self_nonneg u.y, mul_self_nonneg u.z])
  have hn : u.normalize = ⟨u.x / u.length, u.y / u.length, u.z / u.length⟩ := by simp only [V3.normalize, if_pos hp]
  rw [← Real.sqrt_sq_eq_abs, hn]
  refine congrArg Real.sqrt ?_
  change u.x / u.length * r * (u.x / u.length * r) + u.y / u.length * r * (u.y / u.length * r) +
    u.z / u.length * r * (u.z / u.length * r) = r ^ 2
  field_simp
  linear_combination (-(r ^ 2)) * hl

/-- Leaving out the information gives a body at rest without any error: an axis without a rate, or nothing at all. -/
theorem angInit_silent_violated (a b : Arg) (h : a = .none ∨ b = .none) : angInit a b .none = .ok ⟨0, 0, 0⟩ := by
  rcases h with rfl | rfl
  · cases b <;> rfl
  · cases a <;> rfl

/-- **C85.** Arguments left out of a state or of a force system are zero vectors and the identity orientation; those given
are kept. -/
theorem stateInit_spec (p v w : Option (V3 ℝ)) (q : Option (Quat ℝ)) (f : V3 ℝ) :
    (stateInit none none none none = ⟨0, 0, ⟨1, 0, 0, 0⟩, 0⟩) ∧
    (∀ x, p = some x → (stateInit p v q w).pos = x) ∧ (∀ x, v = some x → (stateInit p v q w).vel = x) ∧
    (∀ x, q = some x → (stateInit p v q w).ori = x) ∧ (∀ x, w = some x → (stateInit p v q w).angVel = x) ∧
    (forceInit f none none = ⟨f, 0, 0⟩) ∧
    (∀ l m, forceInit f (some l) (some m) = ⟨f, l, m⟩) ∧ (∀ l, forceInit f (some l) none = ⟨f, l, 0⟩) := by
  refine ⟨rfl, ?_, ?_, ?_, ?_, rfl, fun _ _ => rfl, fun _ => rfl⟩ <;> rintro x rfl <;> rfl

/-- The size of a state derivative, used to compare error estimates, does not see translational motion. -/
theorem derivAbs_blind_violated (v a v' a' w α : V3 ℝ) : derivAbs ⟨v, a, w, α⟩ = derivAbs ⟨v', a', w, α⟩ := rfl

theorem length_zero_iff (v : V3 ℝ) : v.length = 0 ↔ v = ⟨0, 0, 0⟩ := by
  constructor
  · intro h
    have h' : v.x * v.x + v.y * v.y + v.z * v.z ≤ 0 := Real.sqrt_eq_zero'.1 h
    have hx := mul_self_nonneg v.x
    have hy := mul_self_nonneg v.y
    have hz := mul_self_nonneg v.z
    exact V3.ext' (mul_self_eq_zero.1 (by linarith)) (mul_self_eq_zero.1 (by linarith)) (mul_self_eq_zero.1 (by linarith))
  · rintro rfl; simp [V3.length]

/-- It is zero exactly when the body neither turns nor accelerates its turning, and scales with the rates. -/
theorem derivAbs_zero_iff (d : RBDeriv) :
    0 ≤ derivAbs d ∧ (derivAbs d = 0 ↔ d.angVel = ⟨0, 0, 0⟩ ∧ d.angAcc = ⟨0, 0, 0⟩) := by
  have h1 : 0 ≤ d.angVel.length := Real.sqrt_nonneg _
  have h2 : 0 ≤ d.angAcc.length := Real.sqrt_nonneg _
  refine ⟨by unfold derivAbs; positivity, ?_⟩
  rw [← length_zero_iff, ← length_zero_iff]
  unfold derivAbs
  constructor
  · intro h; constructor <;> linarith
  · rintro ⟨h, h'⟩; rw [h, h']; norm_num

/-- **C85.** It is a hundred times the sum of the lengths of the angular rates. -/
theorem derivAbs_value (v a w α : V3 ℝ) :
    derivAbs ⟨v, a, w, α⟩ = 100 * (Real.sqrt (w.x ^ 2 + w.y ^ 2 + w.z ^ 2) + Real.sqrt (α.x ^ 2 + α.y ^ 2 + α.z ^ 2)) := by
  simp only [derivAbs, V3.length, pow_two]
  ring

/-- **C85.** A vector cannot stand for the four components of a quaternion. -/
theorem quatInit_vec (v : V3 ℝ) : quatInit .none .none (.vec v) .none = .error .indexError := by
  simp [quatInit, item, bind, Except.bind]

/-! ## Products -/

/-- **C85.** What `*` yields: vectors of one class give their scalar product, a number scales and keeps the class, an angular
velocity next to a quaternion stands for the rotation it describes. -/
theorem product_spec (a b : V3 ℝ) (p q : Quat ℝ) (k : ℝ) :
    product (.vec a) (.vec b) = .ok (.num (a.x * b.x + a.y * b.y + a.z * b.z)) ∧
    product (.ang a) (.ang b) = .ok (.num (a.x * b.x + a.y * b.y + a.z * b.z)) ∧
    product (.vec a) (.num k) = .ok (.vec ⟨a.x * k, a.y * k, a.z * k⟩) ∧
    product (.ang a) (.num k) = .ok (.ang ⟨a.x * k, a.y * k, a.z * k⟩) ∧
    product (.quat p) (.num k) = .ok (.quat ⟨p.q0 * k, p.q1 * k, p.q2 * k, p.q3 * k⟩) ∧
    product (.ang a) (.quat q) = product (.quat (Quat.ofRotationVector a)) (.quat q) ∧
    product (.quat p) (.ang b) = product (.quat p) (.quat (Quat.ofRotationVector b)) := ⟨rfl, rfl, rfl, rfl, rfl, rfl, rfl⟩

/-- An angular velocity is a vector, can be added to vectors and compares equal to them, but the scalar product of the two
raises. -/
theorem mixed_product_violated (a b : V3 ℝ) :
    product (.vec a) (.ang b) = .error .runtimeError ∧ product (.ang a) (.vec b) = .error .runtimeError ∧
    pyEq (.vec a) (.ang a) = .ok true :=
  ⟨rfl, rfl, (pyEq_true_iff _ _ (by trivial) (by trivial)).2 rfl⟩

end Mapleaf.Motion.Eqv
