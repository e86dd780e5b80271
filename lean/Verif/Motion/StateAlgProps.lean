import Verif.Motion.StateProps
import Verif.Motion.StateListProps

/-!
# C19: sums, averages, opposites and sizes of states
-/

namespace Mapleaf.Motion

/-- **C19** Adding two derivatives and dividing by two gives their average, in every quantity. -/
theorem deriv_average (a b m : RBDeriv) : (a.add b).div 2 = .ok m ↔
    m.vel + m.vel = a.vel + b.vel ∧ m.acc + m.acc = a.acc + b.acc ∧ m.angVel + m.angVel = a.angVel + b.angVel ∧
      m.angAcc + m.angAcc = a.angAcc + b.angAcc := by
  unfold RBDeriv.div RBDeriv.add
  rw [if_neg (by norm_num), Except.ok.injEq]
  obtain ⟨v, c, w, l⟩ := m
  rw [RBDeriv.mk.injEq]
  have key : ∀ x y : V3 ℝ, (1 / 2 : ℝ) • x = y ↔ y + y = x := by
    intro x y
    constructor
    · rintro rfl
      apply V3.ext' <;> simp <;> ring
    · rintro rfl
      apply V3.ext' <;> simp <;> ring
  simp only [key]

/-- **C19** Dividing by `s` is undone by adding up `s` times as much; dividing by zero raises. -/
theorem deriv_div (a d : RBDeriv) (s : ℝ) : a.div s = .ok d ↔
    s ≠ 0 ∧ s • d.vel = a.vel ∧ s • d.acc = a.acc ∧ s • d.angVel = a.angVel ∧ s • d.angAcc = a.angAcc := by
  unfold RBDeriv.div
  by_cases hs : s = 0
  · rw [if_pos hs]; simp [hs]
  · rw [if_neg hs, Except.ok.injEq]
    obtain ⟨v, c, w, l⟩ := d
    rw [RBDeriv.mk.injEq]
    have key : ∀ x y : V3 ℝ, (1 / s : ℝ) • x = y ↔ s • y = x := by
      intro x y
      constructor
      · rintro rfl
        apply V3.ext' <;> simp <;> field_simp
      · rintro rfl
        apply V3.ext' <;> simp <;> field_simp
    simp only [key, ne_eq, hs, not_false_eq_true, true_and]

/-- **C19** Linear quantities of the change over a step are additive in the derivatives. -/
theorem deriv_sum_step (a b : RBDeriv) (dt : ℝ) : ∃ s sa sb, (a.add b).mul dt = .ok s ∧ a.mul dt = .ok sa ∧ b.mul dt = .ok sb ∧
    s.pos = sa.pos + sb.pos ∧ s.vel = sa.vel + sb.vel ∧ s.angVel = sa.angVel + sb.angVel ∧
    s.ori = Quat.ofRotationVector (dt • (a.angVel + b.angVel)) := by
  refine ⟨_, _, _, deriv_mul_ok _ _, deriv_mul_ok _ _, deriv_mul_ok _ _, ?_, ?_, ?_, rfl⟩ <;>
  · unfold RBDeriv.add
    apply V3.ext' <;> simp <;> ring

theorem conj_mul_self (q : Quat ℝ) (h : q.nsq = 1) : q.conj.mul q = ⟨1, 0, 0, 0⟩ := by
  unfold Quat.nsq at h
  simp only [Quat.mul, Quat.conj, Quat.mk.injEq]
  refine ⟨by linarith, by ring, by ring, by ring⟩

/-- **C19** A state plus its opposite is the origin at rest, not turned and not turning. -/
theorem state_add_neg (s : RBState) (h : s.ori.nsq = 1) :
    s.add s.neg = .ok ⟨⟨0, 0, 0⟩, ⟨0, 0, 0⟩, ⟨1, 0, 0, 0⟩, ⟨0, 0, 0⟩⟩ := by
  have hn : ∀ q : Quat ℝ, q.nsq = 1 → q.normalize = .ok q := fun q hq => Quat.Unit.normalize hq
  unfold RBState.add RBState.neg
  rw [hn _ h]
  dsimp only
  rw [conj_mul_self _ h, hn _ (by norm_num [Quat.nsq])]
  dsimp only
  rw [Except.ok.injEq, RBState.mk.injEq]
  refine ⟨?_, ?_, rfl, ?_⟩ <;> apply V3.ext' <;> simp

example : (⟨0, 1, 0, 0⟩ : Quat ℝ).nsq = 1 := by norm_num [Quat.nsq]

/-- **C19** The size of a state: a hundred times the angle turned (0 to a full turn) plus the turning rate, plus the lengths
of position and velocity. -/
theorem state_abs (s : RBState) (h : s.ori.nsq = 1) : ∃ θ, 0 ≤ θ ∧ θ ≤ 2 * Real.pi ∧ Real.cos (θ / 2) = s.ori.q0 ∧
    s.abs = .ok (100 * θ + 100 * s.angVel.length + s.pos.length + s.vel.length) := by
  have hu : s.ori.Unit := h
  refine ⟨2 * Real.arccos s.ori.q0, by linarith [Real.arccos_nonneg s.ori.q0], by linarith [Real.arccos_le_pi s.ori.q0], ?_, ?_⟩
  · rw [mul_div_cancel_left₀ _ two_ne_zero, Real.cos_arccos hu.q0_mem.1 hu.q0_mem.2]
  · unfold RBState.abs
    rw [Quat.rotationAngle_unit hu]
    dsimp only
    rw [abs_of_nonneg (by linarith [Real.arccos_nonneg s.ori.q0])]
    congr 1; ring

/-- **C19** Only the origin at rest, not turned and not turning, has size zero. -/
theorem state_abs_zero (s : RBState) (h : s.ori.nsq = 1) :
    s.abs = .ok 0 ↔ s = ⟨⟨0, 0, 0⟩, ⟨0, 0, 0⟩, ⟨1, 0, 0, 0⟩, ⟨0, 0, 0⟩⟩ := by
  obtain ⟨θ, h0, h1, hc, he⟩ := state_abs s h
  have n1 := V3.length_nonneg s.angVel
  have n2 := V3.length_nonneg s.pos
  have n3 := V3.length_nonneg s.vel
  rw [he, Except.ok.injEq]
  constructor
  · intro hz
    have ht : θ = 0 := by linarith
    have z1 := (V3.length_zero_iff s.angVel).1 (by linarith)
    have z2 := (V3.length_zero_iff s.pos).1 (by linarith)
    have z3 := (V3.length_zero_iff s.vel).1 (by linarith)
    rw [ht] at hc
    simp at hc
    obtain ⟨p, v, ⟨a, b, c, d⟩, w⟩ := s
    simp only [Quat.nsq] at *
    subst z1 z2 z3 hc
    have hb : b = 0 := by nlinarith [mul_self_nonneg b, mul_self_nonneg c, mul_self_nonneg d]
    have hcc : c = 0 := by nlinarith [mul_self_nonneg b, mul_self_nonneg c, mul_self_nonneg d]
    have hd : d = 0 := by nlinarith [mul_self_nonneg b, mul_self_nonneg c, mul_self_nonneg d]
    subst hb hcc hd
    rfl
  · rintro rfl
    have ht : θ = 0 := by
      dsimp only at hc
      have := (Real.cos_eq_one_iff_of_lt_of_lt (by linarith [Real.pi_pos]) (by linarith [Real.pi_pos])).1 hc
      linarith
    have z : (⟨0, 0, 0⟩ : V3 ℝ).length = 0 := (V3.length_zero_iff _).2 rfl
    dsimp only
    rw [ht, z]; norm_num

/-- The two quaternions of one and the same attitude have different sizes: a full turn apart. -/
theorem state_abs_opposite_violated :
    (⟨⟨0, 0, 0⟩, ⟨0, 0, 0⟩, ⟨-1, 0, 0, 0⟩, ⟨0, 0, 0⟩⟩ : RBState).abs = .ok (100 * (2 * Real.pi)) ∧
    ∀ v : V3 ℝ, (⟨-1, 0, 0, 0⟩ : Quat ℝ).rotF v = v := by
  constructor
  · have hu : (⟨-1, 0, 0, 0⟩ : Quat ℝ).Unit := by norm_num [Quat.Unit, Quat.nsq]
    have z : (⟨0, 0, 0⟩ : V3 ℝ).length = 0 := (V3.length_zero_iff _).2 rfl
    unfold RBState.abs
    rw [Quat.rotationAngle_unit hu]
    dsimp only
    rw [z, Real.arccos_neg_one, abs_of_nonneg (by linarith [Real.pi_pos])]
    congr 1; ring
  · intro v
    unfold Quat.rotF Quat.sandwich
    apply V3.ext' <;> simp [Quat.nsq, Quat.mul, Quat.conj]

end Mapleaf.Motion

namespace Mapleaf.Motion.SL
variable {V : Type}

/-- **C19** Reading a name that is neither a variable of the list nor a method gives the attribute of that name of the first
item (the rigid body state), and raises AttributeError if it has none. -/
theorem readVar_first (A : Attrs V) (h : Heap V) (o m : Nat) (b : V) (rest : List V) (d : Dict Str Nat) (name : Str)
    (ho : h.objs[o]? = some (b :: rest, m)) (hd : h.maps[m]? = some d) (hn : name ∉ Dict.keys d) (hb : name ∉ builtinNames) :
    (∀ v, readVar A h o name = .ok (.value v) ↔ name ∈ A.names b ∧ A.get b name = v) ∧
    (readVar A h o name = .error .attributeError ↔ name ∉ A.names b) := by
  have hg : Dict.get? d name = none := (Dict.get?_eq_none_iff d name).2 hn
  have he : readVar A h o name = if name ∈ A.names b then .ok (.value (A.get b name)) else .error .attributeError := by
    unfold readVar
    rw [ho]
    dsimp only
    rw [if_neg hb, hd]
    dsimp only [Option.getD]
    rw [hg]
    rfl
  rw [he]
  by_cases hm : name ∈ A.names b
  · rw [if_pos hm]; simp [hm]
  · rw [if_neg hm]; simp [hm]

/-- **C19** Methods hide variables of the same name. -/
theorem readVar_builtin (A : Attrs V) (h : Heap V) (o m : Nat) (items : List V) (name : Str)
    (ho : h.objs[o]? = some (items, m)) (hb : name ∈ builtinNames) : readVar A h o name = .ok .builtin := by
  unfold readVar
  rw [ho]
  dsimp only
  rw [if_pos hb]

example : readVar (⟨fun _ => ["position".toList], fun b _ => b + 1, fun b _ _ => b⟩ : Attrs Nat) ⟨[[]], [([4, 7], 0)]⟩ 0
    "position".toList = .ok (.value 5) := by decide +kernel

end Mapleaf.Motion.SL
