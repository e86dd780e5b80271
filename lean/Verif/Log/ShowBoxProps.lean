import Verif.Log.ShowProps

/-!
# The box of the plots of flight paths and landing points

**C106**: a plot of flight paths has one curve per flight through all its recorded positions, in a box of equal edges that should
contain them all; likewise the plot of the landing points of a Monte Carlo study.
-/

namespace Mapleaf.Show
open Mapleaf Mapleaf.Motion Mapleaf.Replay

/-- The coordinates of all points -/
def coords (ps : List (V3 ℝ)) : List ℝ := ps.map V3.x ++ ps.map V3.y ++ ps.map V3.z

/-- What the limits of the axes around the points `ps` are: `d` is the largest difference of two coordinates -/
structure Around (ps : List (V3 ℝ)) (d : ℝ) (x y z : ℝ × ℝ) : Prop where
  range : IsRange (coords ps) d
  xlim : x = ((ps.map V3.x).sum / ps.length - d / 2, (ps.map V3.x).sum / ps.length + d / 2)
  ylim : y = ((ps.map V3.y).sum / ps.length - d / 2, (ps.map V3.y).sum / ps.length + d / 2)
  zlow : (∃ p ∈ ps, z.1 = p.z) ∧ ∀ p ∈ ps, z.1 ≤ p.z
  zhigh : z.2 = z.1 + d

theorem around_exists (ps : List (V3 ℝ)) (hne : ps ≠ []) : ∃ x y z d, limitsAround ps = .ok (x, y, z) ∧ Around ps d x y z := by
  have hc : coords ps ≠ [] := by
    cases ps with
    | nil => exact absurd rfl hne
    | cons p ps => simp [coords]
  have hr := listRange_spec (coords ps) hc
  obtain ⟨z1, z2⟩ := listMin_spec (ps.map V3.z) (by simpa using hne)
  unfold limitsAround
  dsimp only
  rw [if_neg (by cases ps with
    | nil => exact absurd rfl hne
    | cons p ps => simp)]
  refine ⟨_, _, _, _, rfl, hr, ?_, ?_, ⟨?_, ?_⟩, ?_⟩
  · simp [meanOf, coords]
  · simp [meanOf, coords]
  · obtain ⟨p, hp, e⟩ := List.mem_map.1 z1
    exact ⟨p, hp, e.symm⟩
  · intro p hp
    exact z2 p.z (List.mem_map.2 ⟨p, hp, rfl⟩)
  · simp only [coords]; ring

theorem limitsAround_error_iff (ps : List (V3 ℝ)) (e : PyErr) : limitsAround ps = .error e ↔ ps = [] ∧ e = .valueError := by
  constructor
  · intro h
    by_cases hne : ps = []
    · subst hne
      refine ⟨rfl, ?_⟩
      simp [limitsAround] at h
      exact h.symm
    · obtain ⟨x, y, z, d, h', _⟩ := around_exists ps hne
      rw [h] at h'; cases h'
  · rintro ⟨rfl, rfl⟩
    simp [limitsAround]

theorem range_unique {l : List ℝ} {a b : ℝ} (ha : IsRange l a) (hb : IsRange l b) : a = b := by
  obtain ⟨⟨x, hx, y, hy, e⟩, h1⟩ := ha
  obtain ⟨⟨x', hx', y', hy', e'⟩, h2⟩ := hb
  have := h2 x hx y hy
  have := h1 x' hx' y' hy'
  linarith

theorem Around.unique {ps : List (V3 ℝ)} {d d' : ℝ} {x y z x' y' z' : ℝ × ℝ} (h : Around ps d x y z) (h' : Around ps d' x' y' z') :
    d = d' ∧ x = x' ∧ y = y' ∧ z = z' := by
  have e := range_unique h.range h'.range
  subst e
  have hz : z.1 = z'.1 := by
    obtain ⟨⟨p, hp, e⟩, h1⟩ := h.zlow
    obtain ⟨⟨p', hp', e'⟩, h2⟩ := h'.zlow
    have := h1 p' hp'
    have := h2 p hp
    linarith
  refine ⟨rfl, h.xlim.trans h'.xlim.symm, h.ylim.trans h'.ylim.symm, Prod.ext hz ?_⟩
  rw [h.zhigh, h'.zhigh, hz]

/-- **C106** The plot of the flight paths: one curve per flight, through every recorded position in order, and the box around them;
it fails exactly if there are no positions at all. -/
theorem pathPlot_iff (flights : List Flight) (p : PathPlot) :
    pathPlot flights = .ok p ↔ p.curves = flights.map (fun f => f.states.map Body.pos) ∧
      (∃ f ∈ flights, f.states ≠ []) ∧ ∃ d, Around p.curves.flatten d p.xlim p.ylim p.zlim := by
  have hemp : (pathsOf flights).flatten = [] ↔ ¬ ∃ f ∈ flights, f.states ≠ [] := by
    simp [pathsOf]
  have hco : pathsOf flights = flights.map (fun f => f.states.map Body.pos) := rfl
  unfold pathPlot
  rcases hl : limitsAround (pathsOf flights).flatten with e | ⟨x, y, z⟩
  · dsimp only
    constructor
    · intro h; cases h
    · rintro ⟨_, h, _⟩
      exact absurd h (hemp.1 ((limitsAround_error_iff _ _).1 hl).1)
  · dsimp only
    have hne : (pathsOf flights).flatten ≠ [] := by
      intro h0
      rw [h0] at hl
      rw [(limitsAround_error_iff [] .valueError).2 ⟨rfl, rfl⟩] at hl
      cases hl
    obtain ⟨x', y', z', d, h1, h2⟩ := around_exists _ hne
    rw [hl] at h1
    cases h1
    constructor
    · intro h; cases h
      refine ⟨rfl, ?_, d, h2⟩
      by_contra hno
      exact hne (hemp.2 hno)
    · rintro ⟨hc, _, d', h3⟩
      rw [← hco] at hc
      rw [hc] at h3
      obtain ⟨_, e1, e2, e3⟩ := h2.unique h3
      rw [e1, e2, e3, ← hc]

/-- The same for the landing points of a Monte Carlo study. -/
theorem scatterPlot_iff (ps : List (V3 ℝ)) (p : PathPlot) :
    scatterPlot ps = .ok p ↔ p.curves = [ps] ∧ ps ≠ [] ∧ ∃ d, Around ps d p.xlim p.ylim p.zlim := by
  unfold scatterPlot
  rcases hl : limitsAround ps with e | ⟨x, y, z⟩
  · dsimp only
    constructor
    · intro h; cases h
    · rintro ⟨_, h, _⟩
      exact absurd ((limitsAround_error_iff _ _).1 hl).1 h
  · dsimp only
    have hne : ps ≠ [] := by
      intro h0
      rw [h0, (limitsAround_error_iff [] .valueError).2 ⟨rfl, rfl⟩] at hl
      cases hl
    obtain ⟨x', y', z', d, h1, h2⟩ := around_exists _ hne
    rw [hl] at h1
    cases h1
    constructor
    · intro h; cases h
      exact ⟨rfl, hne, d, h2⟩
    · rintro ⟨hc, _, d', h3⟩
      obtain ⟨_, e1, e2, e3⟩ := h2.unique h3
      rw [e1, e2, e3, ← hc]

theorem mean_near (l : List ℝ) (a r : ℝ) (hne : l ≠ []) (h : ∀ b ∈ l, |a - b| ≤ r) : |a - l.sum / l.length| ≤ r := by
  have hpos : (0 : ℝ) < l.length := by
    have := List.length_pos_of_ne_nil hne
    exact_mod_cast this
  have key : ∀ l : List ℝ, (∀ b ∈ l, |a - b| ≤ r) → |(l.length : ℝ) * a - l.sum| ≤ l.length * r := by
    intro l
    induction l with
    | nil => intro _; simp
    | cons b l ih =>
      intro h
      have h1 := h b (by simp)
      have h2 := ih (fun c hc => h c (by simp [hc]))
      rw [List.length_cons, List.sum_cons]
      push_cast
      calc |((l.length : ℝ) + 1) * a - (b + l.sum)| = |((l.length : ℝ) * a - l.sum) + (a - b)| := by congr 1; ring
        _ ≤ |(l.length : ℝ) * a - l.sum| + |a - b| := abs_add_le _ _
        _ ≤ l.length * r + r := add_le_add h2 h1
        _ = (l.length + 1) * r := by ring
  have e : a - l.sum / l.length = ((l.length : ℝ) * a - l.sum) / l.length := by field_simp
  rw [e, abs_div, abs_of_pos hpos, div_le_iff₀ hpos, mul_comm r]
  exact key l h

/-- **C106 partial.** The box has equal edges. Every point is inside its height. Every point is inside altogether if no two points are
further apart in `x` or in `y` than half the edge (as for a flight that goes up more than twice as far as it drifts). Missing: other
flights, see `path_cut_off_violated`. -/
theorem inside_partial (ps : List (V3 ℝ)) (d : ℝ) (x y z : ℝ × ℝ) (h : Around ps d x y z) :
    x.2 - x.1 = d ∧ y.2 - y.1 = d ∧ z.2 - z.1 = d ∧ (∀ p ∈ ps, z.1 ≤ p.z ∧ p.z ≤ z.2) ∧
      ((∀ p ∈ ps, ∀ q ∈ ps, |p.x - q.x| ≤ d / 2 ∧ |p.y - q.y| ≤ d / 2) →
        ∀ p ∈ ps, (x.1 ≤ p.x ∧ p.x ≤ x.2) ∧ (y.1 ≤ p.y ∧ p.y ≤ y.2)) := by
  refine ⟨by rw [h.xlim]; ring, by rw [h.ylim]; ring, by rw [h.zhigh]; ring, ?_, ?_⟩
  · intro p hp
    obtain ⟨⟨q, hq, e⟩, h1⟩ := h.zlow
    refine ⟨h1 p hp, ?_⟩
    have hm : ∀ r ∈ ps, r.z ∈ coords ps := fun r hr => List.mem_append_right _ (List.mem_map.2 ⟨r, hr, rfl⟩)
    have := h.range.2 p.z (hm p hp) q.z (hm q hq)
    rw [h.zhigh, e]
    linarith
  · intro hn p hp
    have hne : ps ≠ [] := List.ne_nil_of_mem hp
    have hx := mean_near (ps.map V3.x) p.x (d / 2) (by simpa using hne) (by
      intro b hb
      obtain ⟨q, hq, rfl⟩ := List.mem_map.1 hb
      exact (hn p hp q hq).1)
    have hy := mean_near (ps.map V3.y) p.y (d / 2) (by simpa using hne) (by
      intro b hb
      obtain ⟨q, hq, rfl⟩ := List.mem_map.1 hb
      exact (hn p hp q hq).2)
    rw [List.length_map] at hx hy
    obtain ⟨hx1, hx2⟩ := abs_le.1 hx
    obtain ⟨hy1, hy2⟩ := abs_le.1 hy
    rw [h.xlim, h.ylim]
    exact ⟨⟨by linarith, by linarith⟩, by linarith, by linarith⟩

/-- A flight that goes up 10 m and drifts 4 m on the way: two recorded states -/
example : ∃ x y z, Around [⟨0, 0, 0⟩, ⟨4, 0, 10⟩] 10 x y z ∧
    ∀ p ∈ ([⟨0, 0, 0⟩, ⟨4, 0, 10⟩] : List (V3 ℝ)), ∀ q ∈ ([⟨0, 0, 0⟩, ⟨4, 0, 10⟩] : List (V3 ℝ)), |p.x - q.x| ≤ (10 : ℝ) / 2 ∧ |p.y - q.y| ≤ (10 : ℝ) / 2 := by
  refine ⟨_, _, (0, 10), ⟨?_, rfl, rfl, ?_, ?_⟩, ?_⟩
  · refine ⟨⟨10, by simp [coords], 0, by simp [coords], by norm_num⟩, ?_⟩
    intro a ha b hb
    simp [coords] at ha hb
    rcases ha with rfl | rfl | rfl | rfl <;> rcases hb with rfl | rfl | rfl | rfl <;> norm_num
  · refine ⟨⟨⟨0, 0, 0⟩, by simp, rfl⟩, ?_⟩
    intro p hp; simp at hp
    rcases hp with rfl | rfl <;> norm_num
  · norm_num
  · intro p hp q hq
    simp at hp hq
    rcases hp with rfl | rfl <;> rcases hq with rfl | rfl <;> norm_num [abs_le]

/-- A flight that drifts 100 m in its last step -/
noncomputable def drift : Flight :=
  ⟨[0, 1, 2, 3], [.three ⟨⟨0, 0, 0⟩, 0⟩, .three ⟨⟨0, 0, 0⟩, 0⟩, .three ⟨⟨0, 0, 0⟩, 0⟩, .three ⟨⟨100, 0, 0⟩, 0⟩], none, none, none, none⟩

theorem drift_box {d : ℝ} {x y z : ℝ × ℝ} (h : Around [⟨0, 0, 0⟩, ⟨0, 0, 0⟩, ⟨0, 0, 0⟩, ⟨100, 0, 0⟩] d x y z) : x = (-25, 75) := by
  have hd : d = 100 := by
    refine range_unique h.range ⟨⟨100, by simp [coords], 0, by simp [coords], by norm_num⟩, ?_⟩
    intro a ha b hb
    simp [coords] at ha hb
    rcases ha with rfl | rfl | rfl <;> rcases hb with rfl | rfl | rfl <;> norm_num
  rw [h.xlim, hd]
  norm_num

/-- **C106 violated.** Part of a flight path can lie outside the box and is then not seen: the box is centred on the mean of the
recorded positions, not on the middle of the path. -/
theorem path_cut_off_violated : ∃ p, pathPlot [drift] = .ok p ∧ ∃ q ∈ p.curves.flatten, p.xlim.2 < q.x := by
  obtain ⟨x, y, z, d, hl, ha⟩ := around_exists (pathsOf [drift]).flatten (by simp [pathsOf, drift])
  have hx := drift_box (by simpa [pathsOf, drift, Body.pos] using ha)
  refine ⟨⟨pathsOf [drift], x, y, z⟩, by unfold pathPlot; rw [hl], ⟨100, 0, 0⟩, by simp [pathsOf, drift, Body.pos], ?_⟩
  rw [hx]; norm_num

/-- **C106 violated.** The same for landing points: one that lies apart from the others is not shown. -/
theorem landing_cut_off_violated : ∃ p, scatterPlot [⟨0, 0, 0⟩, ⟨0, 0, 0⟩, ⟨0, 0, 0⟩, ⟨100, 0, 0⟩] = .ok p ∧
    ∃ q ∈ p.curves.flatten, p.xlim.2 < q.x := by
  obtain ⟨x, y, z, d, hl, ha⟩ := around_exists [⟨0, 0, 0⟩, ⟨0, 0, 0⟩, ⟨0, 0, 0⟩, ⟨100, 0, 0⟩] (by simp)
  have hx := drift_box ha
  refine ⟨⟨[[⟨0, 0, 0⟩, ⟨0, 0, 0⟩, ⟨0, 0, 0⟩, ⟨100, 0, 0⟩]], x, y, z⟩, by unfold scatterPlot; rw [hl], ⟨100, 0, 0⟩, by simp, ?_⟩
  rw [hx]; norm_num

end Mapleaf.Show
