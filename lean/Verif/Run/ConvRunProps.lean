import Verif.Run.ConvRunModel
import Verif.Run.ConvProps
import Verif.SimDef.StoreProps
import Verif.GNC.GncProps

/-! # C87: convergence studies -/

namespace Mapleaf.Run.ConvRun
open Str SimDef Motion Conv

/-! ## Reading after writing -/

/-- Writing an entry that names no class does not change what other entries say. -/
theorem getValue_setValue_ne (s : Store) {k k' : Str} (v : Str) (hne : strip k ≠ strip k')
    (hc : ¬ ".class".toList <:+ strip k) : (getValue (setValue s k v) k').1 = (getValue s k').1 := by
  have loop : ∀ n key, classLoop (setValue s k v) key n = classLoop s key n := by
    intro n
    induction n with
    | zero => intro key; rfl
    | succ n ih =>
      intro key
      have e : Dict.get? (setValue s k v).dict ((splitKeyAtLevel key n).1 ++ dotClass) =
          Dict.get? s.dict ((splitKeyAtLevel key n).1 ++ dotClass) := by
        apply Dict.get?_set_ne
        intro h
        apply hc
        rw [h]
        exact List.suffix_append _ _
      unfold classLoop
      simp only
      rw [e, ih]
      rfl
  have e1 : Dict.get? (setValue s k v).dict (strip k') = Dict.get? s.dict (strip k') := Dict.get?_set_ne _ _ hne
  have e2 : classBased (setValue s k v) (strip k') = classBased s (strip k') := loop _ _
  unfold getValue
  simp only
  rw [e1, e2]
  cases Dict.get? s.dict (strip k') with
  | some w => rfl
  | none =>
    simp only [setValue]
    cases Dict.get? s.defaults (strip k') with
    | some w => rfl
    | none =>
      cases classBased s (strip k') with
      | none => rfl
      | some x => rfl

/-! ## The check of three values -/

/-- the order of three different values lies between the limits -/
theorem order_exists {c m f r : ℝ} (hr : 1 < r) (h : m ≠ f) : ∃ p, orderOf c m f r 0.5 2 = .ok p ∧ 0.5 ≤ p ∧ p ≤ 2 := by
  cases ho : orderOf c m f r 0.5 2 with
  | ok p =>
    have := order_limited (by norm_num) ho
    exact ⟨p, rfl, this.1, this.2.1⟩
  | error e =>
    rcases (order_raises c m f r 0.5 2).1 ⟨e, ho⟩ with h1 | ⟨_, h1 | h1⟩
    · exact absurd h1 h
    · linarith
    · linarith

theorem order_equal (c m r : ℝ) : orderOf c m m r 0.5 2 = .error .zeroDivision :=
  converged_violated c m r 0.5 2

theorem pow_gt {r p : ℝ} (hr : 1 < r) (hp : 0.5 ≤ p) : 1 < r ^ p :=
  Real.one_lt_rpow hr (by norm_num at hp ⊢; linarith)

theorem gci_value {a b r p k : ℝ} (hr : 1 < r) (hp : 0.5 ≤ p) (hk : 0 < k) (hb : b ≠ 0) :
    gci a b r p k = .ok (k * (|a - b| / |b|) / (r ^ p - 1) * 100) := by
  have h := pow_gt hr hp
  have h0 : 0 < r ^ p - 1 := by linarith
  unfold gci
  rw [if_neg hb, if_neg h0.ne', abs_div (a - b) b, abs_of_nonneg (by positivity)]

/-- **One coordinate.** With three values of which the finer two are different and not zero, the results are the grid
convergence indices (with a safety factor of 1.25 only for second order and asymptotic convergence, otherwise 3), the
asymptotic check, the extrapolated value and the uncertainty of the formal order 2. -/
theorem checkOne_values {c m f r p : ℝ} (hr : 1 < r) (hp : 0.5 ≤ p) (h : m ≠ f) (hm : m ≠ 0) (hf : f ≠ 0) :
    ∃ x, checkOne c m f r p = .ok x ∧ x.order = p ∧
      x.asym = |c - m| * |f| / (|m| * |m - f| * r ^ p) ∧
      x.extrap = f + (f - m) / (r ^ p - 1) ∧ x.unc = 3 * (|f - m| / (r ^ 2 - 1)) ∧
      (1.8 < p ∧ p < 2.2 ∧ |x.asym - 1| < 0.05 →
        x.gci12 = 125 * (|m - f| / |f|) / (r ^ p - 1) ∧ x.gci23 = 125 * (|c - m| / |m|) / (r ^ p - 1)) ∧
      (¬ (1.8 < p ∧ p < 2.2 ∧ |x.asym - 1| < 0.05) →
        x.gci12 = 300 * (|m - f| / |f|) / (r ^ p - 1) ∧ x.gci23 = 300 * (|c - m| / |m|) / (r ^ p - 1)) := by
  have hP := pow_gt hr hp
  have hP0 : 0 < r ^ p - 1 := by linarith
  have hd : 0 < |m - f| := abs_pos.2 (sub_ne_zero.2 h)
  have hm0 : 0 < |m| := abs_pos.2 hm
  have hf0 : 0 < |f| := abs_pos.2 hf
  have hu : uncertainty f m r 2 = .ok (3 * (|f - m| / (r ^ 2 - 1))) := by
    have e : r ^ (2 : ℝ) = r ^ 2 := by norm_num
    unfold uncertainty errorEstimate
    rw [e, if_neg (by nlinarith)]
    rfl
  have hv : richardson f m r p = .ok (f + (f - m) / (r ^ p - 1)) := by
    unfold richardson; rw [if_neg hP0.ne']
  have ha : asymptotic (3 * (|m - f| / |f|) / (r ^ p - 1) * 100) (3 * (|c - m| / |m|) / (r ^ p - 1) * 100) r p =
      .ok (|c - m| * |f| / (|m| * |m - f| * r ^ p)) := by
    unfold asymptotic
    rw [if_neg (by positivity)]
    congr 1
    field_simp
  unfold checkOne
  rw [gci_value hr hp (by norm_num) hf, gci_value hr hp (by norm_num) hm]
  simp only [bind, Except.bind, pure, Except.pure]
  rw [ha]
  simp only
  generalize |c - m| * |f| / (|m| * |m - f| * r ^ p) = a
  by_cases hcond : (p < 2 + 0.2 ∧ p > 2 - 0.2) ∧ |a - 1| < 0.05
  · rw [if_pos hcond, gci_value hr hp (by norm_num) hf, gci_value hr hp (by norm_num) hm]
    simp only
    rw [hv, hu]
    refine ⟨_, rfl, rfl, rfl, rfl, rfl, fun _ => ⟨by simp only; ring, by simp only; ring⟩, fun hn => ?_⟩
    exact absurd ⟨by linarith [hcond.1.2], by linarith [hcond.1.1], hcond.2⟩ hn
  · rw [if_neg hcond, hv, hu]
    refine ⟨_, rfl, rfl, rfl, rfl, rfl, fun hn => ?_, fun _ => ⟨by simp only; ring, by simp only; ring⟩⟩
    exact absurd ⟨⟨by linarith [hn.2.1], by linarith [hn.1]⟩, hn.2.2⟩ hcond

theorem checkOne_zero {c m f r p : ℝ} (hr : 1 < r) (hp : 0.5 ≤ p) (h : m = 0 ∨ f = 0) :
    checkOne c m f r p = .error .zeroDivision := by
  unfold checkOne
  by_cases hf : f = 0
  · have : gci m f r p 3 = .error .zeroDivision := by unfold gci; rw [if_pos hf]
    rw [this]; rfl
  · have hm : m = 0 := h.resolve_right hf
    have : gci c m r p 3 = .error .zeroDivision := by unfold gci; rw [if_pos hm]
    rw [gci_value hr hp (by norm_num) hf, this]; rfl

/-- **When the check works.** Exactly when in every coordinate the two finer values differ and neither is zero. -/
theorem checkThree_iff {c m f : V3 ℝ} {r : ℝ} (hr : 1 < r) :
    (∃ l, checkThree c m f r = .ok l) ↔
      (m.x ≠ f.x ∧ m.x ≠ 0 ∧ f.x ≠ 0) ∧ (m.y ≠ f.y ∧ m.y ≠ 0 ∧ f.y ≠ 0) ∧ (m.z ≠ f.z ∧ m.z ≠ 0 ∧ f.z ≠ 0) := by
  unfold checkThree
  simp only [bind, Except.bind, pure, Except.pure]
  have one : ∀ a b d p : ℝ, 0.5 ≤ p → b ≠ d → (checkOne a b d r p = .error .zeroDivision ∧ (b = 0 ∨ d = 0)) ∨
      ((∃ x, checkOne a b d r p = .ok x) ∧ b ≠ 0 ∧ d ≠ 0) := by
    intro a b d p hp hbd
    by_cases hb : b = 0
    · exact Or.inl ⟨checkOne_zero hr hp (Or.inl hb), Or.inl hb⟩
    · by_cases hd : d = 0
      · exact Or.inl ⟨checkOne_zero hr hp (Or.inr hd), Or.inr hd⟩
      · obtain ⟨x, hx, _⟩ := checkOne_values (c := a) hr hp hbd hb hd
        exact Or.inr ⟨⟨x, hx⟩, hb, hd⟩
  by_cases hx : m.x = f.x
  · rw [hx, order_equal]; simp
  obtain ⟨px, ex, lx, _⟩ := order_exists (c := c.x) hr hx
  rw [ex]
  by_cases hy : m.y = f.y
  · rw [hy, order_equal]; simp
  obtain ⟨py, ey, ly, _⟩ := order_exists (c := c.y) hr hy
  rw [ey]
  by_cases hz : m.z = f.z
  · rw [hz, order_equal]; simp
  obtain ⟨pz, ez, lz, _⟩ := order_exists (c := c.z) hr hz
  rw [ez]
  simp only
  rcases one c.x m.x f.x px lx hx with ⟨e1, n1⟩ | ⟨⟨x1, e1⟩, n1, n1'⟩
  · rw [e1]
    constructor
    · rintro ⟨l, h⟩; cases h
    · rintro ⟨⟨_, a, b⟩, _⟩; exact absurd n1 (by simp [a, b])
  rw [e1]
  simp only
  rcases one c.y m.y f.y py ly hy with ⟨e2, n2⟩ | ⟨⟨x2, e2⟩, n2, n2'⟩
  · rw [e2]
    constructor
    · rintro ⟨l, h⟩; cases h
    · rintro ⟨_, ⟨_, a, b⟩, _⟩; exact absurd n2 (by simp [a, b])
  rw [e2]
  simp only
  rcases one c.z m.z f.z pz lz hz with ⟨e3, n3⟩ | ⟨⟨x3, e3⟩, n3, n3'⟩
  · rw [e3]
    constructor
    · rintro ⟨l, h⟩; cases h
    · rintro ⟨_, _, _, a, b⟩; exact absurd n3 (by simp [a, b])
  rw [e3]
  exact ⟨fun _ => ⟨⟨hx, n1, n1'⟩, ⟨hy, n2, n2'⟩, hz, n3, n3'⟩, fun _ => ⟨_, rfl⟩⟩

/-- **The results are those of the coordinates.** -/
theorem checkThree_parts {c m f : V3 ℝ} {r : ℝ} {l : List Check} (h : checkThree c m f r = .ok l) :
    ∃ px py pz x y z, l = [x, y, z] ∧
      orderOf c.x m.x f.x r 0.5 2 = .ok px ∧ orderOf c.y m.y f.y r 0.5 2 = .ok py ∧ orderOf c.z m.z f.z r 0.5 2 = .ok pz ∧
      checkOne c.x m.x f.x r px = .ok x ∧ checkOne c.y m.y f.y r py = .ok y ∧ checkOne c.z m.z f.z r pz = .ok z := by
  unfold checkThree at h
  simp only [bind, Except.bind, pure, Except.pure] at h
  cases h1 : orderOf c.x m.x f.x r 0.5 2 with
  | error e => rw [h1] at h; cases h
  | ok px =>
  rw [h1] at h
  cases h2 : orderOf c.y m.y f.y r 0.5 2 with
  | error e => rw [h2] at h; cases h
  | ok py =>
  rw [h2] at h
  cases h3 : orderOf c.z m.z f.z r 0.5 2 with
  | error e => rw [h3] at h; cases h
  | ok pz =>
  rw [h3] at h
  simp only at h
  cases h4 : checkOne c.x m.x f.x r px with
  | error e => rw [h4] at h; cases h
  | ok x =>
  rw [h4] at h
  simp only at h
  cases h5 : checkOne c.y m.y f.y r py with
  | error e => rw [h5] at h; cases h
  | ok y =>
  rw [h5] at h
  simp only at h
  cases h6 : checkOne c.z m.z f.z r pz with
  | error e => rw [h6] at h; cases h
  | ok z =>
  rw [h6] at h
  exact ⟨px, py, pz, x, y, z, (Except.ok.inj h).symm, rfl, rfl, rfl, h4, h5, h6⟩

/-- **When a study is called converged.** -/
theorem stops_iff (x y z : Check) : stops [x, y, z] = true ↔
    |(x.asym + y.asym + z.asym) / 3 - 1| < 0.1 ∧
    ∀ a ∈ [x.asym, y.asym, z.asym], ∀ b ∈ [x.asym, y.asym, z.asym], a - b < 0.2 := by
  unfold stops
  simp only [List.map_cons, List.map_nil, Bool.and_eq_true, decide_eq_true_eq, List.mem_cons, List.not_mem_nil, or_false]
  apply and_congr_right
  intro _
  constructor
  · rintro h a (rfl | rfl | rfl) b (rfl | rfl | rfl) <;>
    linarith [le_max_left (max x.asym y.asym) z.asym, le_max_right (max x.asym y.asym) z.asym, le_max_left x.asym y.asym,
      le_max_right x.asym y.asym, min_le_left (min x.asym y.asym) z.asym, min_le_right (min x.asym y.asym) z.asym,
      min_le_left x.asym y.asym, min_le_right x.asym y.asym]
  · intro h
    have hM : max (max x.asym y.asym) z.asym = x.asym ∨ max (max x.asym y.asym) z.asym = y.asym ∨
        max (max x.asym y.asym) z.asym = z.asym := by
      rcases max_choice (max x.asym y.asym) z.asym with e | e <;> rw [e]
      · rcases max_choice x.asym y.asym with e | e <;> rw [e] <;> simp
      · simp
    have hm : min (min x.asym y.asym) z.asym = x.asym ∨ min (min x.asym y.asym) z.asym = y.asym ∨
        min (min x.asym y.asym) z.asym = z.asym := by
      rcases min_choice (min x.asym y.asym) z.asym with e | e <;> rw [e]
      · rcases min_choice x.asym y.asym with e | e <;> rw [e] <;> simp
      · simp
    exact h _ hM _ hm

/-- the check of 116, 104, 101 in every coordinate: second order, asymptotic -/
example : (∃ l, checkThree (⟨116, 116, 116⟩ : V3 ℝ) ⟨104, 104, 104⟩ ⟨101, 101, 101⟩ 2 = .ok l) :=
  (checkThree_iff (by norm_num)).2 (by norm_num)

/-! ## Setting up -/

variable {E : Type} {sim : E → Store → Except PyErr (Flight × Store × E)} {fmt : ℝ → Str} {parse : Str → Except PyErr ℝ}

theorem plot_end (s : Store) : (getValue (setValue s "SimControl.plot".toList "None".toList) "SimControl.EndCondition".toList).1 =
    (getValue s "SimControl.EndCondition".toList).1 :=
  getValue_setValue_ne s _ (by decide +kernel) (by decide +kernel)

/-- **A time is already the end condition.** Only the plots are switched off, nothing is simulated. -/
theorem setUp_time {s : Store} (e : E) (h : (getValue s "SimControl.EndCondition".toList).1 = .ok "Time".toList) :
    setUp sim fmt s e = .ok (setValue s "SimControl.plot".toList "None".toList, e) := by
  unfold setUp
  simp only
  rw [plot_end, h]
  simp only [ne_eq, not_true_eq_false, if_false]

/-- **Another end condition.** One simulation (without plots) is run with the definition as it stands; its last time becomes
the end of all others. -/
theorem setUp_other {s : Store} {e : E} {c : Str} (h : (getValue s "SimControl.EndCondition".toList).1 = .ok c)
    (hc : c ≠ "Time".toList) (s' : Store) (e' : E) :
    setUp sim fmt s e = .ok (s', e') ↔ ∃ f s1, sim e (setValue s "SimControl.plot".toList "None".toList) = .ok (f, s1, e') ∧
      s' = setValue (setValue s1 "SimControl.EndCondition".toList "Time".toList) "SimControl.EndConditionValue".toList (fmt f.endTime) := by
  unfold setUp
  simp only
  rw [plot_end, h]
  simp only
  rw [if_pos hc]
  cases sim e (setValue s "SimControl.plot".toList "None".toList) with
  | error err => simp
  | ok x =>
    obtain ⟨f, s1, e1⟩ := x
    simp only [Except.ok.injEq, Prod.mk.injEq]
    constructor
    · rintro ⟨rfl, rfl⟩; exact ⟨f, s1, ⟨rfl, rfl, rfl⟩, rfl⟩
    · rintro ⟨f', s1', ⟨rfl, rfl, rfl⟩, rfl⟩; exact ⟨rfl, rfl⟩

/-- **After setting up** the end condition is a time, and there are no plots. -/
theorem setUp_spec {s s' : Store} {e e' : E} (h : setUp sim fmt s e = .ok (s', e'))
    (hp : ∀ e s f s1 e1, sim e s = .ok (f, s1, e1) →
      (getValue s1 "SimControl.plot".toList).1 = (getValue s "SimControl.plot".toList).1) :
    (getValue s' "SimControl.EndCondition".toList).1 = .ok "Time".toList ∧
    (getValue s' "SimControl.plot".toList).1 = .ok "None".toList := by
  cases hc : (getValue s "SimControl.EndCondition".toList).1 with
  | error err =>
    unfold setUp at h
    simp only at h
    rw [plot_end, hc] at h
    cases h
  | ok c =>
    by_cases ht : c = "Time".toList
    · rw [ht] at hc
      rw [setUp_time e hc] at h
      obtain ⟨rfl, rfl⟩ := Prod.mk.inj (Except.ok.inj h)
      exact ⟨by rw [plot_end, hc], get_after_set _ _ _ _ rfl⟩
    · obtain ⟨f, s1, h1, rfl⟩ := (setUp_other hc ht s' e').1 h
      constructor
      · rw [getValue_setValue_ne _ _ (by decide +kernel) (by decide +kernel)]
        exact get_after_set _ _ _ _ rfl
      · rw [getValue_setValue_ne _ _ (by decide +kernel) (by decide +kernel),
          getValue_setValue_ne _ _ (by decide +kernel) (by decide +kernel), hp _ _ _ _ _ h1]
        exact get_after_set _ _ _ _ rfl

/-! ## The simulations of a study -/

/-- Specification: the flights of successive simulations, where before simulation `k` (counted from 0) the entry `key` of
the definition left by the one before is set to `h / r ^ k`. -/
inductive Ran (sim : E → Store → Except PyErr (Flight × Store × E)) (fmt : ℝ → Str) (key : Str) (r h : ℝ) (s : Store) (e : E) :
    List Flight → Store → E → Prop
  | none : Ran sim fmt key r h s e [] s e
  | more {fs : List Flight} {s1 : Store} {e1 : E} {f : Flight} {s2 : Store} {e2 : E} (before : Ran sim fmt key r h s e fs s1 e1)
      (run : sim e1 (setValue s1 key (fmt (h / r ^ fs.length))) = .ok (f, s2, e2)) : Ran sim fmt key r h s e (fs ++ [f]) s2 e2

/-- Specification: entry `k` of the checks is the check of positions `k`, `k + 1` and `k + 2`, and there are no others. -/
def Checked (r : ℝ) (ps : List (V3 ℝ)) (cs : List (List Check)) : Prop :=
  cs.length = ps.length - 2 ∧
  ∀ k a b c, ps[k]? = some a → ps[k + 1]? = some b → ps[k + 2]? = some c → ∃ x, cs[k]? = some x ∧ checkThree a b c r = .ok x

/-- Specification: what is recorded -/
def Recorded (r h : ℝ) (fs : List Flight) (st : St E) : Prop :=
  st.steps = (List.range fs.length).map (fun k : ℕ => h / r ^ k) ∧ st.positions = fs.map Flight.endPos ∧
  st.walls = fs.map Flight.wall ∧ Checked r st.positions st.checks

theorem lastThree_none {α : Type} (l : List α) : lastThree l = none ↔ l.length < 3 := by
  unfold lastThree
  rcases h : l.reverse with _ | ⟨a, _ | ⟨b, _ | ⟨c, t⟩⟩⟩ <;> have hl := congrArg List.length h <;>
    simp at hl <;> simp [hl]

theorem lastThree_some {α : Type} (l : List α) (c m f : α) : lastThree l = some (c, m, f) ↔ ∃ p, l = p ++ [c, m, f] := by
  unfold lastThree
  constructor
  · intro h
    rcases hl : l.reverse with _ | ⟨a, _ | ⟨b, _ | ⟨d, t⟩⟩⟩ <;> rw [hl] at h <;> simp at h
    obtain ⟨rfl, rfl, rfl⟩ := h
    refine ⟨t.reverse, ?_⟩
    have := congrArg List.reverse hl
    simpa using this
  · rintro ⟨p, rfl⟩
    simp

theorem checked_few {r : ℝ} {ps : List (V3 ℝ)} (p : V3 ℝ) {cs : List (List Check)} (h : Checked r ps cs) (hl : (ps ++ [p]).length < 3) :
    Checked r (ps ++ [p]) cs := by
  simp only [List.length_append, List.length_cons, List.length_nil] at hl
  refine ⟨?_, ?_⟩
  · rw [h.1]; simp only [List.length_append, List.length_cons, List.length_nil]; omega
  · intro k a b c _ _ hc
    have := (List.getElem?_eq_some_iff.1 hc).1
    simp only [List.length_append, List.length_cons, List.length_nil] at this
    omega

theorem checked_more {r : ℝ} {q : List (V3 ℝ)} {c m f : V3 ℝ} {cs : List (List Check)} {x : List Check}
    (h : Checked r (q ++ [c, m]) cs) (hx : checkThree c m f r = .ok x) : Checked r (q ++ [c, m, f]) (cs ++ [x]) := by
  have hl : cs.length = q.length := by rw [h.1]; simp
  refine ⟨by simp [hl], ?_⟩
  intro k a b d ha hb hd
  have e : q ++ [c, m, f] = (q ++ [c, m]) ++ [f] := by simp
  have hk : k + 2 < q.length + 3 := by
    have := (List.getElem?_eq_some_iff.1 hd).1
    simpa using this
  by_cases hq : k < q.length
  · rw [e, List.getElem?_append_left (by simp; omega)] at ha hb hd
    obtain ⟨y, h1, h2⟩ := h.2 k a b d ha hb hd
    exact ⟨y, by rw [List.getElem?_append_left (by omega)]; exact h1, h2⟩
  · have hk' : k = q.length := by omega
    subst hk'
    have e0 : (q ++ [c, m, f])[q.length]? = some c := by rw [List.getElem?_append_right (le_refl _)]; simp
    have e1 : (q ++ [c, m, f])[q.length + 1]? = some m := by rw [List.getElem?_append_right (by omega)]; simp
    have e2 : (q ++ [c, m, f])[q.length + 2]? = some f := by rw [List.getElem?_append_right (by omega)]; simp
    rw [e0] at ha; rw [e1] at hb; rw [e2] at hd
    obtain rfl := Option.some.inj ha
    obtain rfl := Option.some.inj hb
    obtain rfl := Option.some.inj hd
    exact ⟨x, by rw [← hl]; simp, hx⟩

/-- Specification: how a study of at most `n` simulations ends normally -/
structure Ended (sim : E → Store → Except PyErr (Flight × Store × E)) (fmt : ℝ → Str) (key : Str) (r h : ℝ) (stop : Bool) (n : Nat)
    (s : Store) (e : E) (fs : List Flight) (st : St E) : Prop where
  ran : Ran sim fmt key r h s e fs st.store st.env
  recorded : Recorded r h fs st
  running : ∀ k x, k + 3 < fs.length → st.checks[k]? = some x → ¬ (stop = true ∧ stops x = true)
  ending : (st.early = none ∧ fs.length = n ∧ ∀ x ∈ st.checks, ¬ (stop = true ∧ stops x = true)) ∨
    (stop = true ∧ fs.length ≤ n ∧ ∃ k x f, fs.length = k + 3 ∧ st.checks[k]? = some x ∧ stops x = true ∧
      fs.getLast? = some f ∧ st.early = some f)

/-- Specification: how a study fails: a simulation fails, or the check of the last three positions does. -/
def Failed (sim : E → Store → Except PyErr (Flight × Store × E)) (fmt : ℝ → Str) (key : Str) (r h : ℝ) (n : Nat) (s : Store) (e : E)
    (err : PyErr) : Prop :=
  ∃ fs s1 e1, Ran sim fmt key r h s e fs s1 e1 ∧ fs.length ≤ n ∧
    ((fs.length < n ∧ sim e1 (setValue s1 key (fmt (h / r ^ fs.length))) = .error err) ∨
     ∃ p c m f, fs.map Flight.endPos = p ++ [c, m, f] ∧ checkThree c m f r = .error err)

theorem loop_spec {key : Str} {r : ℝ} (hr : r ≠ 0) (h : ℝ) (stop : Bool) (s : Store) (e : E) (n : Nat) : ∀ (m : Nat) (fs : List Flight) (g : ℝ)
    (st : St E), Ran sim fmt key r h s e fs st.store st.env → Recorded r h fs st →
    (∀ x ∈ st.checks, ¬ (stop = true ∧ stops x = true)) → st.early = none → g = h * r / r ^ fs.length → fs.length + m = n →
    (∀ st', loop sim fmt key r stop m g st = .ok st' → ∃ fs', Ended sim fmt key r h stop n s e fs' st') ∧
    (∀ err, loop sim fmt key r stop m g st = .error err → Failed sim fmt key r h n s e err) := by
  intro m
  induction m with
  | zero =>
    intro fs g st hran hrec hno hearly hg hn
    constructor
    · intro st' hst
      obtain rfl := Except.ok.inj hst
      exact ⟨fs, hran, hrec, fun k x _ hx => hno x (List.mem_of_getElem? hx), Or.inl ⟨hearly, by omega, hno⟩⟩
    · intro err hst; cases hst
  | succ m ih =>
    intro fs g st hran hrec hno hearly hg hn
    obtain ⟨hsteps, hpos, hwalls, hcheck⟩ := hrec
    have hgr : g / r = h / r ^ fs.length := by rw [hg]; field_simp
    unfold loop
    simp only
    rw [hgr]
    cases hsim : sim st.env (setValue st.store key (fmt (h / r ^ fs.length))) with
    | error err =>
      simp only
      refine ⟨fun st' h' => (nomatch h'), fun err' h' => ?_⟩
      obtain rfl := Except.error.inj h'
      exact ⟨fs, st.store, st.env, hran, by omega, Or.inl ⟨by omega, hsim⟩⟩
    | ok x =>
      obtain ⟨f, s2, e2⟩ := x
      simp only
      have hran' : Ran sim fmt key r h s e (fs ++ [f]) s2 e2 := Ran.more hran hsim
      have hs' : st.steps ++ [h / r ^ fs.length] = (List.range (fs ++ [f]).length).map (fun k : ℕ => h / r ^ k) := by
        rw [hsteps, List.length_append, List.length_singleton, List.range_succ, List.map_append]; rfl
      have hp' : st.positions ++ [f.endPos] = (fs ++ [f]).map Flight.endPos := by rw [hpos, List.map_append]; rfl
      have hw' : st.walls ++ [f.wall] = (fs ++ [f]).map Flight.wall := by rw [hwalls, List.map_append]; rfl
      have hg' : h / r ^ fs.length = h * r / r ^ (fs ++ [f]).length := by
        rw [List.length_append, List.length_singleton, pow_succ]; field_simp
      have hn' : (fs ++ [f]).length + m = n := by rw [List.length_append, List.length_singleton]; omega
      have hfl : (fs ++ [f]).length = st.positions.length + 1 := by rw [hpos]; simp
      cases hl : lastThree (st.positions ++ [f.endPos]) with
      | none =>
        simp only
        exact ih (fs ++ [f]) _ ⟨_, _, _, _, s2, e2, none⟩ hran'
          ⟨hs', hp', hw', checked_few _ hcheck ((lastThree_none _).1 hl)⟩ hno rfl hg' hn'
      | some t =>
        obtain ⟨c, md, fi⟩ := t
        simp only
        obtain ⟨q, hq⟩ := (lastThree_some _ _ _ _).1 hl
        cases hck : checkThree c md fi r with
        | error err =>
          simp only
          refine ⟨fun st' h' => (nomatch h'), fun err' h' => ?_⟩
          obtain rfl := Except.error.inj h'
          exact ⟨fs ++ [f], s2, e2, hran', by omega, Or.inr ⟨q, c, md, fi, by rw [← hp', hq], hck⟩⟩
        | ok cs =>
          simp only
          have hq' : st.positions = q ++ [c, md] := by
            have : st.positions ++ [f.endPos] = (q ++ [c, md]) ++ [fi] := by rw [hq]; simp
            exact (List.append_inj' this rfl).1
          have hck' : Checked r (st.positions ++ [f.endPos]) (st.checks ++ [cs]) := by
            rw [hq]; exact checked_more (hq' ▸ hcheck) hck
          have hcl : st.checks.length = q.length := by rw [hcheck.1, hq']; simp
          have hpl : st.positions.length = q.length + 2 := by rw [hq']; simp
          by_cases hstop : (stop && stops cs) = true
          · rw [if_pos hstop]
            rw [Bool.and_eq_true] at hstop
            refine ⟨fun st' h' => ?_, fun err' h' => (nomatch h')⟩
            obtain rfl := Except.ok.inj h'
            refine ⟨fs ++ [f], hran', ⟨hs', hp', hw', hck'⟩, ?_, Or.inr ⟨hstop.1, by omega, q.length, cs, f, by omega, ?_, hstop.2, by simp, rfl⟩⟩
            · intro k x hk hx
              simp only at hx
              rw [List.getElem?_append_left (by omega)] at hx
              exact hno x (List.mem_of_getElem? hx)
            · simp only
              rw [List.getElem?_append_right (by omega), hcl]; simp
          · rw [if_neg hstop]
            refine ih (fs ++ [f]) _ ⟨_, _, _, _, s2, e2, none⟩ hran' ⟨hs', hp', hw', hck'⟩ ?_ rfl hg' hn'
            intro x hx
            simp only [List.mem_append, List.mem_singleton] at hx
            rcases hx with hx | rfl
            · exact hno x hx
            · rw [Bool.and_eq_true] at hstop; exact hstop

/-- Specification: what a study starts from: the definition after setting up, the entry refined and its value -/
def Start (sim : E → Store → Except PyErr (Flight × Store × E)) (fmt : ℝ → Str) (parse : Str → Except PyErr ℝ) (s : Store) (e : E)
    (s1 : Store) (e1 : E) (key : Str) (h : ℝ) : Prop :=
  setUp sim fmt s e = .ok (s1, e1) ∧ ∃ c t, (getValue s1 "SimControl.timeDiscretization".toList).1 = .ok c ∧
    ((isIn "Adaptive".toList c = true ∧ key = "SimControl.TimeStepAdaptation.targetError".toList) ∨
     (isIn "Adaptive".toList c = false ∧ key = "SimControl.timeStep".toList)) ∧
    (getValue s1 key).1 = .ok t ∧ parse t = .ok h

theorem stepKey_spec (c key : Str) : stepKey c = key ↔
    (isIn "Adaptive".toList c = true ∧ key = "SimControl.TimeStepAdaptation.targetError".toList) ∨
     (isIn "Adaptive".toList c = false ∧ key = "SimControl.timeStep".toList) := by
  unfold stepKey
  cases isIn "Adaptive".toList c
  · simp only [Bool.false_eq_true, if_false, false_and, true_and, false_or]; exact eq_comm
  · simp only [if_true, true_and, Bool.true_eq_false, false_and, or_false]; exact eq_comm

/-- **Results of a study.** A study that ends has run its simulations with the step (or target error, for adaptive methods)
of the definition divided by successive powers of the ratio, and recorded them in order; it ran all simulations asked for, or
was to stop at convergence and did so at the first check that says so. -/
theorem study_ok {r : ℝ} (hr : r ≠ 0) {stop : Bool} {n : Nat} {s : Store} {e : E} {st : St E}
    (hst : study sim fmt parse r stop n s e = .ok st) :
    ∃ s1 e1 key h fs, Start sim fmt parse s e s1 e1 key h ∧ Ended sim fmt key r h stop n s1 e1 fs st := by
  unfold study at hst
  cases h1 : setUp sim fmt s e with
  | error err => rw [h1] at hst; cases hst
  | ok x =>
  obtain ⟨s1, e1⟩ := x
  rw [h1] at hst
  simp only at hst
  cases h2 : (getValue s1 "SimControl.timeDiscretization".toList).1 with
  | error err => rw [h2] at hst; cases hst
  | ok c =>
  rw [h2] at hst
  simp only at hst
  cases h3 : (getValue s1 (stepKey c)).1 with
  | error err => rw [h3] at hst; cases hst
  | ok t =>
  rw [h3] at hst
  simp only at hst
  cases h4 : parse t with
  | error err => rw [h4] at hst; cases hst
  | ok h =>
  rw [h4] at hst
  simp only at hst
  obtain ⟨fs, hfs⟩ := (loop_spec hr h stop s1 e1 n n [] (h * r) ⟨[], [], [], [], s1, e1, none⟩ Ran.none
    ⟨rfl, rfl, rfl, rfl, fun k a b c' ha => by simp at ha⟩ (fun x hx => by simp at hx) rfl (by simp) (by simp)).1 st hst
  exact ⟨s1, e1, stepKey c, h, fs, ⟨h1, c, t, h2, (stepKey_spec c _).1 rfl, h3, h4⟩, hfs⟩

/-- **Failure of a study.** Setting up fails, the method or the step is missing or not a number, or a simulation or the check
of three positions fails. -/
theorem study_error {r : ℝ} (hr : r ≠ 0) {stop : Bool} {n : Nat} {s : Store} {e : E} {err : PyErr}
    (hst : study sim fmt parse r stop n s e = .error err) :
    setUp sim fmt s e = .error err ∨
    (∃ s1 e1, setUp sim fmt s e = .ok (s1, e1) ∧ ((getValue s1 "SimControl.timeDiscretization".toList).1 = .error err ∨
      ∃ c, (getValue s1 "SimControl.timeDiscretization".toList).1 = .ok c ∧ ((getValue s1 (stepKey c)).1 = .error err ∨
        ∃ t, (getValue s1 (stepKey c)).1 = .ok t ∧ parse t = .error err))) ∨
    ∃ s1 e1 key h, Start sim fmt parse s e s1 e1 key h ∧ Failed sim fmt key r h n s1 e1 err := by
  unfold study at hst
  cases h1 : setUp sim fmt s e with
  | error err' => rw [h1] at hst; cases hst; exact Or.inl rfl
  | ok x =>
  obtain ⟨s1, e1⟩ := x
  rw [h1] at hst
  simp only at hst
  right
  cases h2 : (getValue s1 "SimControl.timeDiscretization".toList).1 with
  | error err' => rw [h2] at hst; cases hst; exact Or.inl ⟨s1, e1, rfl, Or.inl h2⟩
  | ok c =>
  rw [h2] at hst
  simp only at hst
  cases h3 : (getValue s1 (stepKey c)).1 with
  | error err' => rw [h3] at hst; cases hst; exact Or.inl ⟨s1, e1, rfl, Or.inr ⟨c, h2, Or.inl h3⟩⟩
  | ok t =>
  rw [h3] at hst
  simp only at hst
  cases h4 : parse t with
  | error err' => rw [h4] at hst; cases hst; exact Or.inl ⟨s1, e1, rfl, Or.inr ⟨c, h2, Or.inr ⟨t, h3, h4⟩⟩⟩
  | ok h =>
  rw [h4] at hst
  simp only at hst
  exact Or.inr ⟨s1, e1, stepKey c, h, ⟨h1, c, t, h2, (stepKey_spec c _).1 rfl, h3, h4⟩,
    (loop_spec hr h stop s1 e1 n n [] (h * r) ⟨[], [], [], [], s1, e1, none⟩ Ran.none
    ⟨rfl, rfl, rfl, rfl, fun k a b c' ha => by simp at ha⟩ (fun x hx => by simp at hx) rfl (by simp) (by simp)).2 err hst⟩

/-- **All simulations asked for** are run unless stopping at convergence was asked for. -/
theorem study_count {r : ℝ} (hr : r ≠ 0) {n : Nat} {s : Store} {e : E} {st : St E}
    (hst : study sim fmt parse r false n s e = .ok st) :
    ∃ s1 e1 key h, Start sim fmt parse s e s1 e1 key h ∧ st.steps = (List.range n).map (fun k : ℕ => h / r ^ k) ∧
      st.positions.length = n ∧ st.walls.length = n ∧ third st = .walls st.walls := by
  obtain ⟨s1, e1, key, h, fs, h1, h2⟩ := study_ok hr hst
  refine ⟨s1, e1, key, h, h1, ?_⟩
  rcases h2.ending with ⟨he, hn, _⟩ | ⟨hf, _⟩
  · obtain ⟨a, b, c, _⟩ := h2.recorded
    refine ⟨by rw [a, hn], by rw [b, List.length_map, hn], by rw [c, List.length_map, hn], ?_⟩
    unfold third; rw [he]
  · cases hf

/-- **The definition of each run.** If simulations leave the definition as it is, every run sees the definition set up at the
beginning in all entries but the one refined. -/
theorem run_definition {key : Str} {r h : ℝ} {s : Store} {e : E} {fs : List Flight} {s' : Store} {e' : E}
    (hk : ∀ e s f s1 e1, sim e s = .ok (f, s1, e1) → s1 = s) (hr : Ran sim fmt key r h s e fs s' e') :
    s'.defaults = s.defaults ∧ (∀ k, k ≠ strip key → Dict.get? s'.dict k = Dict.get? s.dict k) ∧
    (∀ m, fs.length = m + 1 → Dict.get? s'.dict (strip key) = some (fmt (h / r ^ m))) := by
  induction hr with
  | none => exact ⟨rfl, fun _ _ => rfl, fun m hm => by simp at hm⟩
  | more before run ih =>
    rename_i fs s1 e1 f s2 e2
    obtain rfl := hk _ _ _ _ _ run
    refine ⟨ih.1, fun k hkk => ?_, fun m hm => ?_⟩
    · rw [← ih.2.1 k hkk]; exact Dict.get?_set_ne _ _ (Ne.symm hkk)
    · rw [List.length_append, List.length_singleton] at hm
      have : fs.length = m := by omega
      rw [this]; exact Dict.get?_set_self _ _ _

/-! ## What goes wrong -/

/-- the first three positions of a study of at least three simulations were checked -/
theorem study_checks {r : ℝ} (hr : 1 < r) {stop : Bool} {n : Nat} (hn : 3 ≤ n) {s : Store} {e : E} {st : St E}
    (hst : study sim fmt parse r stop n s e = .ok st) :
    ∃ s1 e1 key h f0 f1 f2 fs, Start sim fmt parse s e s1 e1 key h ∧
      Ran sim fmt key r h s1 e1 (f0 :: f1 :: f2 :: fs) st.store st.env ∧
      ∃ l, checkThree f0.endPos f1.endPos f2.endPos r = .ok l := by
  obtain ⟨s1, e1, key, h, fs, h1, h2⟩ := study_ok (by linarith) hst
  have hlen : 3 ≤ fs.length := by
    rcases h2.ending with ⟨_, h3, _⟩ | ⟨_, _, k, _, _, h3, _⟩ <;> omega
  rcases fs with _ | ⟨f0, _ | ⟨f1, _ | ⟨f2, fs⟩⟩⟩ <;> simp at hlen
  refine ⟨s1, e1, key, h, f0, f1, f2, fs, h1, h2.ran, ?_⟩
  obtain ⟨_, hp, _, hc⟩ := h2.recorded
  obtain ⟨x, _, hx⟩ := hc.2 0 f0.endPos f1.endPos f2.endPos (by rw [hp]; rfl) (by rw [hp]; rfl) (by rw [hp]; rfl)
  exact ⟨x, hx⟩

theorem ran_all {P : Flight → Prop} (hP : ∀ e s f s1 e1, sim e s = .ok (f, s1, e1) → P f) {key : Str} {r h : ℝ} {s : Store} {e : E}
    {fs : List Flight} {s' : Store} {e' : E} (hr : Ran sim fmt key r h s e fs s' e') : ∀ f ∈ fs, P f := by
  induction hr with
  | none => intro f hf; simp at hf
  | more before run ih =>
    intro f hf
    simp only [List.mem_append, List.mem_singleton] at hf
    rcases hf with hf | rfl
    · exact ih f hf
    · exact hP _ _ _ _ _ run

/-- **Violation.** A rocket that does not move in one direction (a vertical flight without wind, a flight in a plane) cannot
be studied with three or more simulations: no study of it ends normally. -/
theorem planar_violated {x0 : ℝ} (hx : ∀ e s f s1 e1, sim e s = .ok (f, s1, e1) → f.endPos.x = x0) {r : ℝ} (hr : 1 < r)
    (stop : Bool) {n : Nat} (hn : 3 ≤ n) (s : Store) (e : E) (st : St E) : study sim fmt parse r stop n s e ≠ .ok st := by
  intro hst
  obtain ⟨s1, e1, key, h, f0, f1, f2, fs, _, hran, l, hl⟩ := study_checks hr hn hst
  have hall := ran_all (P := fun f => f.endPos.x = x0) hx hran
  have := ((checkThree_iff hr).1 ⟨l, hl⟩).1.1
  rw [hall f1 (by simp), hall f2 (by simp)] at this
  exact this rfl

/-- **Violation.** A study that stops at convergence returns the last flight in the place of the wall times: here second-order
convergence towards 100, met after three simulations. -/
theorem early_violated : ∃ (sim : ℕ → Store → Except PyErr (Flight × Store × ℕ)) (s : Store) (st : St ℕ) (f : Flight),
    study sim (fun _ => []) (fun _ => .ok 4) 2 true 10 s 0 = .ok st ∧ third st = .flight f ∧ st.walls = [1, 1, 1] := by
  let pos : ℕ → ℝ := fun k => 100 + 16 / 4 ^ k
  let sim : ℕ → Store → Except PyErr (Flight × Store × ℕ) := fun k s => .ok (⟨0, ⟨pos k, pos k, pos k⟩, 1⟩, s, k + 1)
  let s0 := newStore [("SimControl.EndCondition".toList, "Time".toList), ("SimControl.timeDiscretization".toList, "RK4".toList),
    ("SimControl.timeStep".toList, "4".toList)] []
  have hup : setUp sim (fun _ => []) s0 0 = .ok (setValue s0 "SimControl.plot".toList "None".toList, 0) :=
    setUp_time 0 (by decide +kernel)
  have hd : (getValue (setValue s0 "SimControl.plot".toList "None".toList) "SimControl.timeDiscretization".toList).1 = .ok "RK4".toList := by
    decide +kernel
  have hk : stepKey "RK4".toList = "SimControl.timeStep".toList := by decide +kernel
  have ht : (getValue (setValue s0 "SimControl.plot".toList "None".toList) "SimControl.timeStep".toList).1 = .ok "4".toList := by
    decide +kernel
  let L : PowerLaw 116 104 101 2 := ⟨100, 1, 1, 2, by norm_num, by norm_num, by norm_num, by norm_num, by norm_num, by norm_num⟩
  have ho : orderOf 116 104 101 2 0.5 2 = .ok 2 := L.order_exact (by norm_num) (by norm_num [L]) (by norm_num [L])
  obtain ⟨x, hx, _, ha, _⟩ := checkOne_values (c := 116) (m := 104) (f := 101) (r := 2) (p := 2) (by norm_num) (by norm_num)
    (by norm_num) (by norm_num) (by norm_num)
  have ha' : x.asym = 101 / 104 := by rw [ha]; norm_num [abs_of_pos]
  have h3 : checkThree (⟨116, 116, 116⟩ : V3 ℝ) ⟨104, 104, 104⟩ ⟨101, 101, 101⟩ 2 = .ok [x, x, x] := by
    unfold checkThree
    simp only [bind, Except.bind, pure, Except.pure]
    rw [ho]
    simp only
    rw [hx]
  have hs : stops [x, x, x] = true := by
    rw [stops_iff, ha']
    constructor
    · rw [abs_lt]; constructor <;> norm_num
    · intro a ha2 b hb
      simp only [List.mem_cons, List.not_mem_nil, or_false, or_self] at ha2 hb
      rw [ha2, hb]; norm_num
  have p0 : pos 0 = 116 := by norm_num [pos]
  have p1 : pos 1 = 104 := by norm_num [pos]
  have p2 : pos 2 = 101 := by norm_num [pos]
  have hloop : ∀ s key, ∃ st, loop sim (fun _ => []) key 2 true 10 (4 * 2) ⟨[], [], [], [], s, 0, none⟩ = .ok st ∧
      third st = .flight ⟨0, ⟨101, 101, 101⟩, 1⟩ ∧ st.walls = [1, 1, 1] := by
    intro s key
    refine ⟨⟨[4, 2, 1], [⟨116, 116, 116⟩, ⟨104, 104, 104⟩, ⟨101, 101, 101⟩], [1, 1, 1], [[x, x, x]],
      setValue (setValue (setValue s key []) key []) key [], 3, some ⟨0, ⟨101, 101, 101⟩, 1⟩⟩, ?_, rfl, rfl⟩
    unfold loop
    simp only [sim, p0, lastThree, List.nil_append, List.reverse_cons, List.reverse_nil]
    unfold loop
    simp only [sim, p1, lastThree, List.nil_append, List.cons_append, List.reverse_cons, List.reverse_nil]
    unfold loop
    simp only [sim, p2, lastThree, List.nil_append, List.cons_append, List.reverse_cons, List.reverse_nil]
    rw [h3]
    simp only [hs, Bool.and_self, if_true]
    norm_num
  obtain ⟨st, h1, h2, h4⟩ := hloop (setValue s0 "SimControl.plot".toList "None".toList) "SimControl.timeStep".toList
  refine ⟨sim, s0, st, _, ?_, h2, h4⟩
  unfold study
  rw [hup]
  simp only
  rw [hd]
  simp only
  rw [hk, ht]
  exact h1

/-! ## Controlled rockets -/

open Classical in
/-- ControlSystems.py:120-153 and SingleSimulations.py:81: a simulation of a rocket whose control system runs at a fixed rate.
Creating the rocket adjusts the time step in the definition; the flight then depends on that step (an adaptive method is
replaced by RK4). -/
noncomputable def controlledSim (fmt : ℝ → Str) (parse : Str → Except PyErr ℝ) (rate : ℝ) (fly : ℝ → Flight) (e : Unit) (s : Store) :
    Except PyErr (Flight × Store × Unit) :=
  match (getValue s "SimControl.timeStep".toList).1 with
  | .error err => .error err
  | .ok t =>
    match parse t with
    | .error err => .error err
    | .ok dt =>
      match GNC.checkTimeStepping rate dt with
      | .error err => .error err
      | .ok (_, dt') =>
        .ok (fly dt', if dt' = dt then s else setValue s "SimControl.timeStep".toList (fmt dt'), e)

theorem controlled_run {rate : ℝ} {fly : ℝ → Flight} {e e' : Unit} {s s' : Store} {f : Flight}
    (h : controlledSim fmt parse rate fly e s = .ok (f, s', e')) :
    ∃ t dt p dt', (getValue s "SimControl.timeStep".toList).1 = .ok t ∧ parse t = .ok dt ∧
      GNC.checkTimeStepping rate dt = .ok (p, dt') ∧ f = fly dt' ∧
      s' = if dt' = dt then s else setValue s "SimControl.timeStep".toList (fmt dt') := by
  unfold controlledSim at h
  cases h1 : (getValue s "SimControl.timeStep".toList).1 with
  | error err => rw [h1] at h; cases h
  | ok t =>
  rw [h1] at h
  simp only at h
  cases h2 : parse t with
  | error err => rw [h2] at h; cases h
  | ok dt =>
  rw [h2] at h
  simp only at h
  cases h3 : GNC.checkTimeStepping rate dt with
  | error err => rw [h3] at h; cases h
  | ok x =>
  obtain ⟨p, dt'⟩ := x
  rw [h3] at h
  have h := Except.ok.inj h
  simp only [Prod.mk.injEq] at h
  exact ⟨t, dt, p, dt', rfl, h2, h3, h.1.symm, h.2.1.symm⟩

/-- the step of run `k` is adjusted -/
theorem controlled_flight {rate r h : ℝ} (hparse : ∀ k : ℕ, parse (fmt (h / r ^ k)) = .ok (h / r ^ k)) {fly : ℝ → Flight} {s s' : Store} {e e' : Unit}
    {fs : List Flight} (hr : Ran (controlledSim fmt parse rate fly) fmt "SimControl.timeStep".toList r h s e fs s' e') :
    ∀ k f, fs[k]? = some f → ∃ p dt', GNC.checkTimeStepping rate (h / r ^ k) = .ok (p, dt') ∧ f = fly dt' := by
  induction hr with
  | none => intro k f hf; simp at hf
  | more before run ih =>
    rename_i fs s1 e1 f s2 e2
    intro k g hg
    by_cases hk : k < fs.length
    · rw [List.getElem?_append_left hk] at hg
      exact ih k g hg
    · have hk' : k = fs.length := by
        have := (List.getElem?_eq_some_iff.1 hg).1
        rw [List.length_append, List.length_singleton] at this
        omega
      subst hk'
      have hg' : g = f := by simpa using hg.symm
      obtain ⟨t, dt, p, dt', h1, h2, h3, h4, _⟩ := controlled_run run
      rw [get_after_set _ _ _ _ rfl] at h1
      obtain rfl := Except.ok.inj h1
      rw [hparse] at h2
      obtain rfl := Except.ok.inj h2
      exact ⟨p, dt', h3, by rw [hg', h4]⟩

/-- a step of more than two thirds of the control period is replaced by the control period -/
theorem adjusted_long {rate dt : ℝ} (hrate : 0 < rate) (h : 2 / 3 / rate < dt) :
    GNC.checkTimeStepping rate dt = .ok (1 / rate, 1 / rate) := by
  have hdt : 0 < dt := lt_trans (by positivity) h
  have hx : 1 / rate / dt < 3 / 2 := by
    rw [div_lt_iff₀ hdt]
    have : 2 / 3 / rate = (2 / 3) * (1 / rate) := by ring
    rw [this] at h
    linarith
  have hx0 : 0 < 1 / rate / dt := by positivity
  unfold GNC.checkTimeStepping
  rw [if_pos hrate]
  simp only
  rw [if_neg hdt.ne']
  have hround : GNC.pyRound (1 / rate / dt) ≤ 1 := by
    generalize 1 / rate / dt = x at hx hx0
    have hf1 : (⌊x⌋ : ℝ) ≤ x := Int.floor_le x
    have hf2 : ⌊x⌋ ≤ 1 := by
      have : (⌊x⌋ : ℝ) < 2 := by linarith
      have : ⌊x⌋ < 2 := by exact_mod_cast this
      omega
    unfold GNC.pyRound
    simp only
    rcases eq_or_lt_of_le hf2 with h1 | h1
    · rw [h1, if_pos (by push_cast; linarith)]
    · split_ifs <;> omega
  by_cases hi : 1 / rate / dt ≠ (GNC.pyRound (1 / rate / dt) : ℝ)
  · rw [if_pos hi, max_eq_left hround]; simp
  · rw [if_neg hi]
    rw [not_not] at hi
    have h1 : GNC.pyRound (1 / rate / dt) = 1 := by
      have : (0 : ℝ) < (GNC.pyRound (1 / rate / dt) : ℝ) := by rw [← hi]; exact hx0
      have : 0 < GNC.pyRound (1 / rate / dt) := by exact_mod_cast this
      omega
    rw [h1] at hi
    have : 1 / rate = dt := by rw [div_eq_iff hdt.ne'] at hi; simpa using hi
    rw [this]

/-- **Violation.** The steps recorded for a rocket with a control system are not those used, since the control system replaces
steps that do not divide its period. If the third step is still longer than two thirds of the period, all three simulations
are the same and the study fails. -/
theorem controlled_violated {rate r h : ℝ} (hparse : ∀ k : ℕ, parse (fmt (h / r ^ k)) = .ok (h / r ^ k)) (hrate : 0 < rate) (hr : 1 < r) {fly : ℝ → Flight}
    {stop : Bool} {n : Nat} (hn : 3 ≤ n) {s s1 : Store} {e e1 : Unit}
    (hs : Start (controlledSim fmt parse rate fly) fmt parse s e s1 e1 "SimControl.timeStep".toList h)
    (hh : 2 / 3 / rate < h / r ^ 2) (st : St Unit) :
    study (controlledSim fmt parse rate fly) fmt parse r stop n s e ≠ .ok st := by
  intro hst
  obtain ⟨s2, e2, key, h', f0, f1, f2, fs, ⟨hu, c, t, hc, hkey, ht, hp⟩, hran, l, hl⟩ := study_checks hr hn hst
  obtain ⟨hu', c', t', hc', hkey', ht', hp'⟩ := hs
  rw [hu'] at hu
  obtain ⟨rfl, rfl⟩ := Prod.mk.inj (Except.ok.inj hu)
  rw [hc'] at hc
  obtain rfl := Except.ok.inj hc
  have hk := (stepKey_spec _ _).2 hkey
  rw [(stepKey_spec _ _).2 hkey'] at hk
  subst hk
  rw [ht'] at ht
  obtain rfl := Except.ok.inj ht
  rw [hp'] at hp
  obtain rfl := Except.ok.inj hp
  have hpos : 0 < h := by
    have : 0 < h / r ^ 2 := lt_trans (by positivity) hh
    have hr2 : (0 : ℝ) < r ^ 2 := by positivity
    rwa [div_pos_iff_of_pos_right hr2] at this
  have h1 : 2 / 3 / rate < h / r ^ 1 := by
    refine lt_of_lt_of_le hh ?_
    apply div_le_div_of_nonneg_left hpos.le (by positivity)
    exact pow_le_pow_right₀ hr.le (by norm_num)
  obtain ⟨p, d, e1, e2⟩ := controlled_flight hparse hran 1 f1 rfl
  obtain ⟨p', d', e3, e4⟩ := controlled_flight hparse hran 2 f2 rfl
  rw [adjusted_long hrate h1] at e1
  rw [adjusted_long hrate hh] at e3
  have a1 := (Prod.mk.inj (Except.ok.inj e1)).2
  have a2 := (Prod.mk.inj (Except.ok.inj e3)).2
  have := ((checkThree_iff hr).1 ⟨l, hl⟩).1.1
  rw [e2, e4, ← a1, ← a2] at this
  exact this rfl

/-- an adjusted step is not adjusted again -/
theorem adjusted_again {rate dt p dt' : ℝ} (hrate : 0 < rate) (h : GNC.checkTimeStepping rate dt = .ok (p, dt')) :
    (∃ p, GNC.checkTimeStepping rate dt' = .ok (p, dt')) ∧ (dt' ≠ dt → ∃ N : ℤ, dt' = 1 / rate / N) := by
  have round_int : ∀ z : ℤ, GNC.pyRound ((z : ℤ) : ℝ) = z := by intro z; unfold GNC.pyRound; simp
  by_cases hsame : dt' = dt
  · exact ⟨⟨p, by rw [hsame] at h ⊢; exact h⟩, fun hn => absurd hsame hn⟩
  · unfold GNC.checkTimeStepping at h
    rw [if_pos hrate] at h
    simp only at h
    by_cases h0 : dt = 0
    · rw [if_pos h0] at h; cases h
    rw [if_neg h0] at h
    by_cases hi : 1 / rate / dt ≠ (GNC.pyRound (1 / rate / dt) : ℝ)
    · rw [if_pos hi] at h
      obtain ⟨_, hd⟩ := Prod.mk.inj (Except.ok.inj h)
      generalize hN : max 1 (GNC.pyRound (1 / rate / dt)) = N at hd
      have hN1 : 1 ≤ N := by rw [← hN]; exact le_max_left _ _
      have hN0 : (N : ℝ) ≠ 0 := by have : N ≠ 0 := by omega
                                   exact_mod_cast this
      have hr0 : (1 / rate : ℝ) ≠ 0 := by positivity
      refine ⟨⟨1 / rate, ?_⟩, fun _ => ⟨N, hd.symm⟩⟩
      have hd0 : dt' ≠ 0 := by rw [← hd]; exact div_ne_zero hr0 hN0
      have hq : 1 / rate / dt' = (N : ℝ) := by rw [← hd]; field_simp
      unfold GNC.checkTimeStepping
      rw [if_pos hrate]
      simp only
      rw [if_neg hd0, hq, round_int, if_neg (by simp)]
    · rw [if_neg hi] at h
      exact absurd (Prod.mk.inj (Except.ok.inj h)).2.symm hsame

/-- all runs that refine the target error use the same step -/
theorem controlled_same {rate r h : ℝ} (hparse : ∀ N : ℤ, parse (fmt (1 / rate / N)) = .ok (1 / rate / N)) (hrate : 0 < rate) {fly : ℝ → Flight} {s s' : Store}
    {e e' : Unit} {fs : List Flight}
    (hr : Ran (controlledSim fmt parse rate fly) fmt "SimControl.TimeStepAdaptation.targetError".toList r h s e fs s' e') :
    fs = [] ∨ ∃ t dt p, (getValue s' "SimControl.timeStep".toList).1 = .ok t ∧ parse t = .ok dt ∧
      GNC.checkTimeStepping rate dt = .ok (p, dt) ∧ ∀ f ∈ fs, f = fly dt := by
  induction hr with
  | none => exact Or.inl rfl
  | more before run ih =>
    rename_i fs s1 e1 f s2 e2
    right
    obtain ⟨t, dt, p, dt', h1, h2, h3, h4, h5⟩ := controlled_run run
    have hafter : ∃ t', (getValue s2 "SimControl.timeStep".toList).1 = .ok t' ∧ parse t' = .ok dt' := by
      by_cases hd : dt' = dt
      · rw [if_pos hd] at h5
        exact ⟨t, by rw [h5, h1], by rw [h2, hd]⟩
      · rw [if_neg hd] at h5
        exact ⟨fmt dt', by rw [h5]; exact get_after_set _ _ _ _ rfl, by obtain ⟨N, hN⟩ := (adjusted_again hrate h3).2 hd; rw [hN]; exact hparse N⟩
    obtain ⟨t', g1, g2⟩ := hafter
    obtain ⟨p', g3⟩ := (adjusted_again hrate h3).1
    refine ⟨t', dt', p', g1, g2, g3, ?_⟩
    intro g hg
    simp only [List.mem_append, List.mem_singleton] at hg
    rcases hg with hg | rfl
    · rcases ih with rfl | ⟨t0, d0, p0, i1, i2, i3, i4⟩
      · simp at hg
      · rw [getValue_setValue_ne _ _ (by decide +kernel) (by decide +kernel), i1] at h1
        obtain rfl := Except.ok.inj h1
        rw [i2] at h2
        obtain rfl := Except.ok.inj h2
        rw [i3] at h3
        have := (Prod.mk.inj (Except.ok.inj h3)).2
        rw [← this]; exact i4 g hg
    · exact h4

/-- **Violation.** An adaptive method cannot be studied at all on a rocket with a control system of fixed rate: the method is
replaced, so the target error has no effect and all simulations are the same. -/
theorem controlled_adaptive_violated {rate r : ℝ} (hparse : ∀ N : ℤ, parse (fmt (1 / rate / N)) = .ok (1 / rate / N)) (hrate : 0 < rate) (hr : 1 < r)
    {fly : ℝ → Flight} {stop : Bool} {n : Nat} (hn : 3 ≤ n) {s s1 : Store} {e e1 : Unit} {h : ℝ}
    (hs : Start (controlledSim fmt parse rate fly) fmt parse s e s1 e1 "SimControl.TimeStepAdaptation.targetError".toList h)
    (st : St Unit) : study (controlledSim fmt parse rate fly) fmt parse r stop n s e ≠ .ok st := by
  intro hst
  obtain ⟨s2, e2, key, h', f0, f1, f2, fs, ⟨hu, c, t, hc, hkey, _, _⟩, hran, l, hl⟩ := study_checks hr hn hst
  obtain ⟨hu', c', t', hc', hkey', _, _⟩ := hs
  rw [hu'] at hu
  obtain ⟨rfl, rfl⟩ := Prod.mk.inj (Except.ok.inj hu)
  rw [hc'] at hc
  obtain rfl := Except.ok.inj hc
  have hk := (stepKey_spec _ _).2 hkey
  rw [(stepKey_spec _ _).2 hkey'] at hk
  subst hk
  rcases controlled_same hparse hrate hran with h0 | ⟨_, dt, _, _, _, _, hall⟩
  · cases h0
  · have := ((checkThree_iff hr).1 ⟨l, hl⟩).1.1
    rw [hall f1 (by simp), hall f2 (by simp)] at this
    exact this rfl

/-- a definition to which `controlled_violated` applies: a step of 4 with a control period of 1 -/
example : Start (controlledSim (fun _ => []) (fun _ => .ok 4) 1 (fun _ => ⟨0, ⟨1, 1, 1⟩, 1⟩)) (fun _ => []) (fun _ => .ok 4)
    (newStore [("SimControl.EndCondition".toList, "Time".toList), ("SimControl.timeDiscretization".toList, "RK4".toList),
      ("SimControl.timeStep".toList, "4".toList)] []) () (setValue (newStore [("SimControl.EndCondition".toList, "Time".toList),
      ("SimControl.timeDiscretization".toList, "RK4".toList), ("SimControl.timeStep".toList, "4".toList)] []) "SimControl.plot".toList
      "None".toList) () "SimControl.timeStep".toList 4 ∧ (2 / 3 / 1 : ℝ) < 4 / 2 ^ 2 :=
  ⟨⟨setUp_time () (by decide +kernel), "RK4".toList, "4".toList, by decide +kernel, by decide +kernel, by decide +kernel, rfl⟩,
    by norm_num⟩

/-- numbers can be printed and read back on the values that occur: here one letter per halving -/
example : ∃ (fmt : ℝ → Str) (parse : Str → Except PyErr ℝ), ∀ k : ℕ, parse (fmt (4 / 2 ^ k)) = .ok (4 / 2 ^ k) := by
  classical
  refine ⟨fun x => if h : ∃ k : ℕ, x = 4 / 2 ^ k then List.replicate h.choose 'a' else [],
    fun t => .ok (4 / 2 ^ t.length), fun k => ?_⟩
  have h : ∃ j : ℕ, (4 / 2 ^ k : ℝ) = 4 / 2 ^ j := ⟨k, rfl⟩
  simp only
  rw [dif_pos h, List.length_replicate, ← h.choose_spec]

end Mapleaf.Run.ConvRun
