import Verif.Rocket.DrawProps

/-! # C104: nose cones, fins, stages and markers in the drawing -/

namespace Mapleaf.Rocket.Draw
open Set Mapleaf.Motion

/-! ## Nose cones -/

/-- the piece that holds a place of the nose -/
theorem piece_of {L d : ℝ} (hL : 0 < L) (h0 : 0 ≤ d) (h1 : d ≤ L) : ∃ i : ℕ, i < 99 ∧ i * (L / 99) ≤ d ∧ d ≤ (i + 1) * (L / 99) := by
  have hs : 0 < L / 99 := by positivity
  by_cases hd : d = L
  · exact ⟨98, by norm_num, by rw [hd]; push_cast; linarith, by rw [hd]; push_cast; linarith⟩
  · have hlt : d / (L / 99) < 99 := by
      rw [div_lt_iff₀ hs]
      have : d < L := lt_of_le_of_ne h1 hd
      linarith
    refine ⟨⌊d / (L / 99)⌋₊, ?_, ?_, ?_⟩
    · exact (Nat.floor_lt (div_nonneg h0 hs.le)).2 (by exact_mod_cast hlt)
    · have := Nat.floor_le (div_nonneg h0 hs.le)
      rwa [le_div_iff₀ hs] at this
    · have := (Nat.lt_floor_add_one (d / (L / 99))).le
      rwa [div_le_iff₀ hs] at this

/-- **C104.** A conical nose is drawn exactly: from the tip to the base, on both sides, at its radius. -/
theorem cone_drawn (n : Nose) (z : ℝ) (hs : n.shape = .cone) (hD : 0 < n.baseDiameter) (hL : 0 < n.length) :
    ∃ ls, drawNose n z = .ok ls ∧ shown ls = {p | (z - n.length ≤ p.1 ∧ p.1 ≤ z) ∧ |p.2| = n.baseDiameter / 2 * ((z - p.1) / n.length)} := by
  have hf : ∀ d, 0 ≤ d → d ≤ n.length → n.getRadius d = .ok (some (n.baseDiameter / 2 * (d / n.length))) := fun d _ _ => by
    unfold Nose.getRadius; rw [hs]; dsimp only; rw [if_neg hL.ne']
  obtain ⟨ls, h1, h2⟩ := nose_pieces n z _ hD hL hf
  refine ⟨ls, h1, ?_⟩
  ext ⟨ζ, r⟩
  rw [h2]
  set L := n.length
  have hstep : 0 < L / 99 := by positivity
  have hord : ∀ i : ℕ, z - ((i : ℝ) + 1) * (L / 99) < z - i * (L / 99) := fun i => by linarith
  have hlin : ∀ (i : ℕ) (c : ℝ), c * (((i : ℝ) + 1) * (L / 99) / L) + (ζ - (z - ((i : ℝ) + 1) * (L / 99))) / (z - i * (L / 99) - (z - ((i : ℝ) + 1) * (L / 99))) *
      (c * ((i : ℝ) * (L / 99) / L) - c * (((i : ℝ) + 1) * (L / 99) / L)) = c * ((z - ζ) / L) := fun i c => by
    have : z - i * (L / 99) - (z - ((i : ℝ) + 1) * (L / 99)) = L / 99 := by ring
    rw [this]; field_simp; ring
  have key : ∀ (i : ℕ) (c : ℝ), (ζ, r) ∈ segment ℝ (z - i * (L / 99), c * (i * (L / 99) / L)) (z - ((i : ℝ) + 1) * (L / 99), c * (((i : ℝ) + 1) * (L / 99) / L)) ↔
      (z - ((i : ℝ) + 1) * (L / 99) ≤ ζ ∧ ζ ≤ z - i * (L / 99)) ∧ r = c * ((z - ζ) / L) := fun i c => by
    rw [segment_symm, seg_graph (hord i), hlin]
  have hneg : ∀ x : ℝ, -(n.baseDiameter / 2 * x) = -(n.baseDiameter / 2) * x := fun x => by ring
  simp only [hneg, key, mem_setOf_eq]
  have hr : ∀ ζ, z - L ≤ ζ → ζ ≤ z → 0 ≤ n.baseDiameter / 2 * ((z - ζ) / L) := fun ζ _ h => by
    have : 0 ≤ (z - ζ) / L := div_nonneg (by linarith) hL.le
    positivity
  constructor
  · rintro (h | ⟨i, hi, h⟩)
    · rw [zero_div, mul_zero, mul_zero, segment_same, mem_singleton_iff, Prod.mk.injEq] at h
      obtain ⟨rfl, rfl⟩ := h
      exact ⟨⟨by linarith, le_rfl⟩, by simp⟩
    · have h3 : (i : ℝ) + 1 ≤ 99 := by exact_mod_cast (by omega : i + 1 ≤ 99)
      have h4 : ((i : ℝ) + 1) * (L / 99) ≤ L := by
        have := mul_le_mul_of_nonneg_right h3 hstep.le
        linarith
      have h5 : 0 ≤ (i : ℝ) * (L / 99) := by positivity
      rcases h with ⟨h, rfl⟩ | ⟨h, rfl⟩
      · exact ⟨⟨by linarith, by linarith⟩, abs_of_nonneg (hr ζ (by linarith) (by linarith))⟩
      · exact ⟨⟨by linarith, by linarith⟩, by rw [← hneg, abs_neg]; exact abs_of_nonneg (hr ζ (by linarith) (by linarith))⟩
  · rintro ⟨h, h'⟩
    obtain ⟨i, hi, ha, hb⟩ := piece_of hL (d := z - ζ) (by linarith) (by linarith)
    refine .inr ⟨i, hi, ?_⟩
    rcases (abs_eq (hr ζ h.1 h.2)).1 h' with h' | h'
    · exact .inl ⟨⟨by linarith, by linarith⟩, h'⟩
    · exact .inr ⟨⟨by linarith, by linarith⟩, by rw [h', hneg]⟩

/-- The profile of an ogive is concave. -/
theorem ogive_concave (n : Nose) (hD : 0 < n.baseDiameter) (hL : n.baseDiameter / 2 ≤ n.length) (x y u v : ℝ) (hx : 0 ≤ x ∧ x ≤ n.length) (hy : 0 ≤ y ∧ y ≤ n.length)
    (hu : 0 ≤ u) (hv : 0 ≤ v) (huv : u + v = 1) : u * n.ogiveRadius x + v * n.ogiveRadius y ≤ n.ogiveRadius (u * x + v * y) := by
  have hL0 : 0 < n.length := by linarith
  obtain ⟨h0, hle, hsq, _⟩ := n.curvature_facts hD hL0
  unfold Nose.ogiveRadius
  set ρ := n.curvature
  set L := n.length
  have e1 : L - (u * x + v * y) = u * (L - x) + v * (L - y) := by rw [show v = 1 - u by linarith]; ring
  have e2 : ∀ A B c : ℝ, u * (A - c) + v * (B - c) = u * A + v * B - c := fun A B c => by rw [show v = 1 - u by linarith]; ring
  rw [e1, e2]
  have hp : 0 ≤ L - x ∧ L - x ≤ ρ := ⟨by linarith [hx.2], by linarith [hx.1]⟩
  have hq : 0 ≤ L - y ∧ L - y ≤ ρ := ⟨by linarith [hy.2], by linarith [hy.1]⟩
  generalize L - x = p at hp ⊢
  generalize L - y = q at hq ⊢
  have ha : 0 ≤ ρ ^ 2 - p ^ 2 := by nlinarith
  have hb : 0 ≤ ρ ^ 2 - q ^ 2 := by nlinarith
  have hA := Real.sq_sqrt ha
  have hB := Real.sq_sqrt hb
  have hA0 := Real.sqrt_nonneg (ρ ^ 2 - p ^ 2)
  have hB0 := Real.sqrt_nonneg (ρ ^ 2 - q ^ 2)
  generalize Real.sqrt (ρ ^ 2 - p ^ 2) = A at hA hA0 ⊢
  generalize Real.sqrt (ρ ^ 2 - q ^ 2) = B at hB hB0 ⊢
  have hAB : A * B + p * q ≤ ρ ^ 2 := by nlinarith [sq_nonneg (A - B), sq_nonneg (p - q)]
  have hmain : u * A + v * B ≤ Real.sqrt (ρ ^ 2 - (u * p + v * q) ^ 2) := by
    apply Real.le_sqrt_of_sq_le
    have h1 : (u * A + v * B) ^ 2 + (u * p + v * q) ^ 2 = u ^ 2 * (A ^ 2 + p ^ 2) + v ^ 2 * (B ^ 2 + q ^ 2) + 2 * (u * v) * (A * B + p * q) := by ring
    have h2 : A ^ 2 + p ^ 2 = ρ ^ 2 := by linarith
    have h3 : B ^ 2 + q ^ 2 = ρ ^ 2 := by linarith
    rw [h2, h3] at h1
    have h4 := mul_le_mul_of_nonneg_left hAB (mul_nonneg hu hv)
    have h5 : u ^ 2 * ρ ^ 2 + v ^ 2 * ρ ^ 2 + 2 * (u * v) * ρ ^ 2 = ρ ^ 2 := by
      have : (u + v) ^ 2 * ρ ^ 2 = ρ ^ 2 := by rw [huv]; ring
      linarith
    linarith
  linarith

/-- **C104.** An ogive at least as long as its base radius is drawn inside its true profile, over its whole length on both sides, with 100 corners on the
profile: at the tip, at the base and at every 99th of the length in between. -/
theorem ogive_drawn (n : Nose) (z : ℝ) (hs : n.shape = .tangentOgive) (hD : 0 < n.baseDiameter) (hL : n.baseDiameter / 2 ≤ n.length) :
    ∃ ls, drawNose n z = .ok ls ∧ (∀ p ∈ shown ls, (z - n.length ≤ p.1 ∧ p.1 ≤ z) ∧ |p.2| ≤ n.ogiveRadius (z - p.1)) ∧
      (∀ ζ, z - n.length ≤ ζ → ζ ≤ z → ∃ r, 0 ≤ r ∧ (ζ, r) ∈ shown ls ∧ (ζ, -r) ∈ shown ls) ∧
      ∀ i : ℕ, i ≤ 99 → (z - i * (n.length / 99), n.ogiveRadius (i * (n.length / 99))) ∈ shown ls ∧ (z - i * (n.length / 99), -n.ogiveRadius (i * (n.length / 99))) ∈ shown ls := by
  have hL0 : 0 < n.length := by linarith
  obtain ⟨hf, hf0, hfL, hmono, _⟩ := n.ogive_shape hs hD hL
  obtain ⟨ls, h1, h2⟩ := nose_pieces n z _ hD hL0 hf
  have hconc := ogive_concave n hD hL
  set L := n.length
  set f := n.ogiveRadius
  have hstep : 0 < L / 99 := by positivity
  have hnn : ∀ d, 0 ≤ d → d ≤ L → 0 ≤ f d := fun d ha hb => by
    rcases ha.eq_or_lt with rfl | h
    · rw [hf0]
    · have := hmono 0 d le_rfl h hb
      linarith
  have hnode : ∀ i : ℕ, i ≤ 99 → 0 ≤ (i : ℝ) * (L / 99) ∧ (i : ℝ) * (L / 99) ≤ L := fun i hi => by
    have h3 : (i : ℝ) ≤ 99 := by exact_mod_cast hi
    have := mul_le_mul_of_nonneg_right h3 hstep.le
    exact ⟨by positivity, by linarith⟩
  have hnode' : ∀ i : ℕ, i < 99 → 0 ≤ ((i : ℝ) + 1) * (L / 99) ∧ ((i : ℝ) + 1) * (L / 99) ≤ L := fun i hi => by
    have := hnode (i + 1) (by omega)
    push_cast at this
    exact this
  have hchord : ∀ (i : ℕ), i < 99 → ∀ u ∈ Icc (0 : ℝ) 1, ∀ r, r = f (i * (L / 99)) + u * (f (((i : ℝ) + 1) * (L / 99)) - f (i * (L / 99))) →
      0 ≤ r ∧ r ≤ f (i * (L / 99) + u * (L / 99)) := fun i hi u hu r hr => by
    have hc := hconc (i * (L / 99)) (((i : ℝ) + 1) * (L / 99)) (1 - u) u (hnode i hi.le) (hnode' i hi) (by linarith [hu.2]) hu.1 (by ring)
    have e : (1 - u) * (i * (L / 99)) + u * (((i : ℝ) + 1) * (L / 99)) = i * (L / 99) + u * (L / 99) := by ring
    rw [e] at hc
    have hA := hnn _ (hnode i hi.le).1 (hnode i hi.le).2
    have hB := hnn _ (hnode' i hi).1 (hnode' i hi).2
    have : r = (1 - u) * f (i * (L / 99)) + u * f (((i : ℝ) + 1) * (L / 99)) := by rw [hr]; ring
    refine ⟨?_, by rw [this]; exact hc⟩
    rw [this]
    have := mul_nonneg (by linarith [hu.2] : 0 ≤ 1 - u) hA
    have := mul_nonneg hu.1 hB
    linarith
  refine ⟨ls, h1, ?_, ?_, ?_⟩
  · rintro ⟨ζ, r⟩ hp
    rcases (h2 _).1 hp with h | ⟨i, hi, h⟩
    · rw [hf0, neg_zero, segment_same, mem_singleton_iff, Prod.mk.injEq] at h
      obtain ⟨rfl, rfl⟩ := h
      refine ⟨⟨by dsimp only; linarith, le_rfl⟩, ?_⟩
      dsimp only
      rw [sub_self, hf0, abs_zero]
    · have hb := hnode i hi.le
      have hb' := hnode' i hi
      rcases h with h | h <;> rw [seg_iff] at h <;> obtain ⟨u, hu, h3, h4⟩ := h <;> dsimp only at h3 h4 ⊢
      · obtain ⟨k1, k2⟩ := hchord i hi u hu r h4
        have e : z - ζ = i * (L / 99) + u * (L / 99) := by rw [h3]; ring
        have m1 := mul_nonneg hu.1 hstep.le
        have m2 := mul_le_of_le_one_left hstep.le hu.2
        refine ⟨⟨by linarith, by linarith⟩, ?_⟩
        rw [e, abs_of_nonneg k1]
        exact k2
      · obtain ⟨k1, k2⟩ := hchord i hi u hu (-r) (by rw [h4]; ring)
        have e : z - ζ = i * (L / 99) + u * (L / 99) := by rw [h3]; ring
        have m1 := mul_nonneg hu.1 hstep.le
        have m2 := mul_le_of_le_one_left hstep.le hu.2
        refine ⟨⟨by linarith, by linarith⟩, ?_⟩
        rw [e, ← abs_neg, abs_of_nonneg k1]
        exact k2
  · intro ζ ha hb
    obtain ⟨i, hi, h3, h4⟩ := piece_of hL0 (d := z - ζ) (by linarith) (by linarith)
    have hu : (z - ζ - i * (L / 99)) / (L / 99) ∈ Icc (0 : ℝ) 1 := ⟨div_nonneg (by linarith) hstep.le, (div_le_one hstep).2 (by linarith)⟩
    have hz : (z - ζ - i * (L / 99)) / (L / 99) * (L / 99) = z - ζ - i * (L / 99) := div_mul_cancel₀ _ hstep.ne'
    set u := (z - ζ - i * (L / 99)) / (L / 99)
    refine ⟨f (i * (L / 99)) + u * (f (((i : ℝ) + 1) * (L / 99)) - f (i * (L / 99))), (hchord i hi u hu _ rfl).1, (h2 _).2 (.inr ⟨i, hi, .inl ?_⟩), (h2 _).2 (.inr ⟨i, hi, .inr ?_⟩)⟩
    · rw [seg_iff]
      exact ⟨u, hu, by dsimp only; linarith, rfl⟩
    · rw [seg_iff]
      exact ⟨u, hu, by dsimp only; linarith, by dsimp only; ring⟩
  · intro i hi
    rcases Nat.lt_or_ge i 99 with h | h
    · exact ⟨(h2 _).2 (.inr ⟨i, h, .inl (left_mem_segment ℝ _ _)⟩), (h2 _).2 (.inr ⟨i, h, .inr (left_mem_segment ℝ _ _)⟩)⟩
    · have : i = 99 := by omega
      subst this
      have e : ((98 : ℕ) : ℝ) + 1 = ((99 : ℕ) : ℝ) := by norm_num
      refine ⟨(h2 _).2 (.inr ⟨98, by norm_num, .inl ?_⟩), (h2 _).2 (.inr ⟨98, by norm_num, .inr ?_⟩)⟩
      · rw [e]; exact right_mem_segment ℝ _ _
      · rw [e]; exact right_mem_segment ℝ _ _

/-! ## Fins -/

/-- **C104.** The drawn fin: from the surface of the body to its tip, with the leading edge behind by the tangent of the sweep angle, and the chord of the
fin at every distance from the body. -/
def FinOutline (g : FinGeom) (z : ℝ) : Set (ℝ × ℝ) :=
  {p | (0 ≤ p.2 - g.bodyRadius ∧ p.2 - g.bodyRadius ≤ g.span) ∧
    (p.1 = z - (p.2 - g.bodyRadius) * Real.tan g.sweep ∨ p.1 = z - (p.2 - g.bodyRadius) * Real.tan g.sweep - g.chord (p.2 - g.bodyRadius) ∨
      (p.2 - g.bodyRadius = 0 ∨ p.2 - g.bodyRadius = g.span) ∧ z - (p.2 - g.bodyRadius) * Real.tan g.sweep - g.chord (p.2 - g.bodyRadius) ≤ p.1 ∧
        p.1 ≤ z - (p.2 - g.bodyRadius) * Real.tan g.sweep)}

/-- the first line of the drawing -/
noncomputable def finLine (g : FinGeom) (z : ℝ) : Line :=
  [(z, g.bodyRadius), (z - g.span * Real.tan g.sweep, g.bodyRadius + g.span), (z - g.span * Real.tan g.sweep - g.tipChord, g.bodyRadius + g.span),
    (z - g.rootChord, g.bodyRadius), (z, g.bodyRadius)]

theorem fin_outline (g : FinGeom) (z : ℝ) (hs : 0 < g.span) (hr : 0 ≤ g.rootChord) (ht : 0 ≤ g.tipChord) : trace (finLine g z) = FinOutline g z := by
  ext ⟨ζ, s⟩
  set R := g.bodyRadius with hR
  set T := Real.tan g.sweep
  have hlt : R < R + g.span := by linarith
  simp only [finLine, trace, mem_union, FinOutline, mem_setOf_eq, FinGeom.chord, ← hR]
  rw [seg_graph' hlt, segment_symm ℝ (z - g.span * T, R + g.span) (z - g.span * T - g.tipChord, R + g.span), seg_horiz (by linarith),
    segment_symm ℝ (z - g.span * T - g.tipChord, R + g.span) (z - g.rootChord, R), seg_graph' hlt, seg_horiz (by linarith), mem_singleton_iff, Prod.mk.injEq]
  have e1 : z + (s - R) / (R + g.span - R) * (z - g.span * T - z) = z - (s - R) * T := by
    rw [show R + g.span - R = g.span by ring]; field_simp; ring
  have e2 : z - g.rootChord + (s - R) / (R + g.span - R) * (z - g.span * T - g.tipChord - (z - g.rootChord)) =
      z - (s - R) * T - ((g.tipChord - g.rootChord) * ((s - R) / g.span) + g.rootChord) := by
    rw [show R + g.span - R = g.span by ring]; field_simp; ring
  rw [e1, e2]
  constructor
  · rintro (⟨h, h'⟩ | ⟨h, rfl⟩ | ⟨h, h'⟩ | ⟨h, rfl⟩ | ⟨rfl, rfl⟩)
    · exact ⟨⟨by linarith, by linarith⟩, .inl h'⟩
    · refine ⟨⟨by linarith, by linarith⟩, .inr (.inr ⟨.inr (by ring), ?_, ?_⟩)⟩
      · rw [show R + g.span - R = g.span by ring, div_self hs.ne']; linarith
      · rw [show R + g.span - R = g.span by ring]; linarith
    · exact ⟨⟨by linarith, by linarith⟩, .inr (.inl h')⟩
    · refine ⟨⟨by linarith, by linarith⟩, .inr (.inr ⟨.inl (by ring), ?_, ?_⟩)⟩
      · rw [sub_self, zero_div]; linarith
      · rw [sub_self]; linarith
    · exact ⟨⟨by linarith, by linarith⟩, .inl (by ring)⟩
  · rintro ⟨h, h' | h' | ⟨h0 | h0, h1, h2⟩⟩
    · exact .inl ⟨⟨by linarith, by linarith⟩, h'⟩
    · exact .inr (.inr (.inl ⟨⟨by linarith, by linarith⟩, h'⟩))
    · refine .inr (.inr (.inr (.inl ⟨?_, by linarith⟩)))
      rw [h0, zero_div] at h1
      rw [h0] at h2
      exact ⟨by linarith, by linarith⟩
    · refine .inr (.inl ⟨?_, by linarith⟩)
      rw [h0, div_self hs.ne'] at h1
      rw [h0] at h2
      exact ⟨by linarith, by linarith⟩

/-- scaling the distances from the axis -/
theorem trace_scale (l : Line) (c : ℝ) : trace (l.map fun p => (p.1, c * p.2)) = (fun p : ℝ × ℝ => (p.1, c * p.2)) '' trace l := by
  have seg : ∀ p q : ℝ × ℝ, segment ℝ (p.1, c * p.2) (q.1, c * q.2) = (fun p : ℝ × ℝ => (p.1, c * p.2)) '' segment ℝ p q := fun p q => by
    ext ⟨z, r⟩
    rw [seg_iff]
    constructor
    · rintro ⟨u, hu, h1, h2⟩
      refine ⟨(p.1 + u * (q.1 - p.1), p.2 + u * (q.2 - p.2)), (seg_iff _ _ _ _).2 ⟨u, hu, rfl, rfl⟩, ?_⟩
      dsimp only at h1 h2 ⊢
      rw [Prod.mk.injEq]
      exact ⟨h1.symm, by rw [h2]; ring⟩
    · rintro ⟨⟨a, b⟩, hab, h⟩
      obtain ⟨u, hu, h1, h2⟩ := (seg_iff _ _ _ _).1 hab
      rw [Prod.mk.injEq] at h
      dsimp only at h ⊢
      exact ⟨u, hu, by rw [← h.1, h1], by rw [← h.2, h2]; ring⟩
  induction l with
  | nil => simp [trace]
  | cons a l ih =>
    cases l with
    | nil => simp [trace]
    | cons b l =>
      simp only [List.map_cons] at ih ⊢
      rw [trace_cons, ih, trace_cons, image_union, seg]

theorem fins_lines (g : FinGeom) (z : ℝ) : drawFins g z =
    if g.numFins = 4 then [finLine g z, (finLine g z).map fun p => (p.1, -1 * p.2), (finLine g z).map fun p => (p.1, 0 * p.2)]
    else if g.numFins = 3 then [finLine g z, (finLine g z).map fun p => (p.1, -(1 / 2) * p.2)] else [finLine g z] := by
  have h30 : Real.sin (30 * Real.pi / 180) = 1 / 2 := by rw [show (30 : ℝ) * Real.pi / 180 = Real.pi / 6 by ring, Real.sin_pi_div_six]
  have hr : g.bodyRadius * 2 / 2 = g.bodyRadius := by ring
  unfold drawFins
  dsimp only
  rw [h30, hr]
  split
  · simp [finLine]
  · split
    · simp only [finLine, List.zip_cons_cons, List.map_cons, List.map_nil, List.zip_nil_right]
      have e1 : -g.bodyRadius * (1 / 2) = -(1 / 2) * g.bodyRadius := by ring
      have e2 : -(g.bodyRadius + g.span) * (1 / 2) = -(1 / 2) * (g.bodyRadius + g.span) := by ring
      rw [e1, e2]
    · rfl

theorem cos_third (k : ℕ) (hk : k < 3) : Real.cos (2 * Real.pi * k / 3) = if k = 0 then 1 else -(1 / 2) := by
  interval_cases k
  · simp
  · rw [show 2 * Real.pi * ((1 : ℕ) : ℝ) / 3 = Real.pi - Real.pi / 3 by push_cast; ring, Real.cos_pi_sub, Real.cos_pi_div_three]; norm_num
  · rw [show 2 * Real.pi * ((2 : ℕ) : ℝ) / 3 = Real.pi / 3 + Real.pi by push_cast; ring, Real.cos_add_pi, Real.cos_pi_div_three]; norm_num

theorem cos_quarter (k : ℕ) (hk : k < 4) : Real.cos (2 * Real.pi * k / 4) = if k = 0 then 1 else if k = 2 then -1 else 0 := by
  interval_cases k
  · simp
  · rw [show 2 * Real.pi * ((1 : ℕ) : ℝ) / 4 = Real.pi / 2 by push_cast; ring, Real.cos_pi_div_two]; norm_num
  · rw [show 2 * Real.pi * ((2 : ℕ) : ℝ) / 4 = Real.pi by push_cast; ring, Real.cos_pi]; norm_num
  · rw [show 2 * Real.pi * ((3 : ℕ) : ℝ) / 4 = Real.pi / 2 + Real.pi by push_cast; ring, Real.cos_add_pi, Real.cos_pi_div_two]; norm_num

/-- **C104.** Three or four fins are drawn as they look from the side: fin `k` is turned by `k/n` of a full turn about the axis, the first one is seen
from the side. -/
theorem fins_drawn_partial (g : FinGeom) (z : ℝ) (hn : g.numFins = 3 ∨ g.numFins = 4) (hs : 0 < g.span) (hr : 0 ≤ g.rootChord) (ht : 0 ≤ g.tipChord) :
    shown (drawFins g z) = {p | ∃ k < g.numFins, ∃ q ∈ FinOutline g z, p = (q.1, Real.cos (2 * Real.pi * k / g.numFins) * q.2)} := by
  rw [← fin_outline g z hs hr ht, fins_lines]
  have one : ∀ q : ℝ × ℝ, q = (q.1, (1 : ℝ) * q.2) := fun q => by rw [one_mul]
  rcases hn with hn | hn <;> rw [hn]
  · rw [if_neg (by norm_num), if_pos rfl]
    ext p
    simp only [shown, List.mem_cons, List.not_mem_nil, or_false, exists_eq_or_imp, exists_eq_left, mem_setOf_eq, trace_scale, mem_image]
    constructor
    · rintro (h | ⟨q, hq, rfl⟩)
      · exact ⟨0, by norm_num, p, h, by rw [show (((3 : ℕ)) : ℝ) = 3 by norm_num, cos_third 0 (by norm_num), if_pos rfl]; exact one p⟩
      · exact ⟨1, by norm_num, q, hq, by rw [show (((3 : ℕ)) : ℝ) = 3 by norm_num, cos_third 1 (by norm_num), if_neg (by norm_num)]⟩
    · rintro ⟨k, hk, q, hq, rfl⟩
      rw [show (((3 : ℕ)) : ℝ) = 3 by norm_num, cos_third k hk]
      split
      · left; rw [← one q]; exact hq
      · right; exact ⟨q, hq, rfl⟩
  · rw [if_pos rfl]
    ext p
    simp only [shown, List.mem_cons, List.not_mem_nil, or_false, exists_eq_or_imp, exists_eq_left, mem_setOf_eq, trace_scale, mem_image]
    constructor
    · rintro (h | ⟨q, hq, rfl⟩ | ⟨q, hq, rfl⟩)
      · exact ⟨0, by norm_num, p, h, by rw [show (((4 : ℕ)) : ℝ) = 4 by norm_num, cos_quarter 0 (by norm_num), if_pos rfl]; exact one p⟩
      · exact ⟨2, by norm_num, q, hq, by rw [show (((4 : ℕ)) : ℝ) = 4 by norm_num, cos_quarter 2 (by norm_num), if_neg (by norm_num), if_pos rfl]⟩
      · exact ⟨1, by norm_num, q, hq, by rw [show (((4 : ℕ)) : ℝ) = 4 by norm_num, cos_quarter 1 (by norm_num), if_neg (by norm_num), if_neg (by norm_num)]⟩
    · rintro ⟨k, hk, q, hq, rfl⟩
      rw [show (((4 : ℕ)) : ℝ) = 4 by norm_num, cos_quarter k hk]
      split
      · left; rw [← one q]; exact hq
      · split
        · right; left; exact ⟨q, hq, rfl⟩
        · right; right; exact ⟨q, hq, rfl⟩

/-- **C104 violated.** Any other number of fins, two for example, is drawn as one fin: there is a fin on the other side of the body that is not drawn. -/
theorem other_fins_violated (g : FinGeom) (z : ℝ) (hn : 2 ≤ g.numFins) (h3 : g.numFins ≠ 3) (h4 : g.numFins ≠ 4) (hs : 0 < g.span) (hr : 0 ≤ g.rootChord) (ht : 0 ≤ g.tipChord)
    (hR : 0 < g.bodyRadius) : (z, g.bodyRadius) ∈ FinOutline g z ∧ ∃ k < g.numFins, Real.cos (2 * Real.pi * k / g.numFins) < 0 ∧
      (z, Real.cos (2 * Real.pi * k / g.numFins) * g.bodyRadius) ∉ shown (drawFins g z) := by
  refine ⟨⟨⟨by dsimp only; linarith, by dsimp only; linarith⟩, .inl (by dsimp only; ring)⟩, g.numFins / 2, by omega, ?_⟩
  have hcos : Real.cos (2 * Real.pi * ((g.numFins / 2 : ℕ) : ℝ) / g.numFins) < 0 := by
    have hpos : (0 : ℝ) < g.numFins := by exact_mod_cast (by omega : 0 < g.numFins)
    have k1 : (g.numFins : ℝ) < 4 * ((g.numFins / 2 : ℕ) : ℝ) := by exact_mod_cast (by omega : g.numFins < 4 * (g.numFins / 2))
    have k2 : 2 * ((g.numFins / 2 : ℕ) : ℝ) ≤ g.numFins := by exact_mod_cast (by omega : 2 * (g.numFins / 2) ≤ g.numFins)
    apply Real.cos_neg_of_pi_div_two_lt_of_lt
    · rw [lt_div_iff₀ hpos]
      nlinarith [Real.pi_pos]
    · rw [div_lt_iff₀ hpos]
      nlinarith [Real.pi_pos, mul_pos Real.pi_pos hpos]
  refine ⟨hcos, ?_⟩
  rw [fins_lines, if_neg h4, if_neg h3]
  have hshow : shown [finLine g z] = trace (finLine g z) := by ext q; simp [shown]
  rw [hshow, fin_outline g z hs hr ht]
  rintro ⟨⟨h, _⟩, _⟩
  dsimp only at h
  have := mul_neg_of_neg_of_pos hcos hR
  linarith

/-- **C104 violated.** The angle of the first fin is not drawn: fin sets that are turned against each other look aligned. -/
theorem fin_angle_violated (g : FinGeom) (z : ℝ) (h0 : g.firstFinAngle = 0) :
    drawFins { g with firstFinAngle := 45 } z = drawFins g z ∧ (g.direction 0).y = 0 ∧ ({ g with firstFinAngle := 45 }.direction 0).y = Real.sqrt 2 / 2 := by
  refine ⟨rfl, ?_, ?_⟩
  · unfold FinGeom.direction
    dsimp only
    rw [h0]; simp
  · unfold FinGeom.direction
    dsimp only
    rw [show ((45 : ℝ) + ((0 : ℕ) : ℝ) * (360 / g.numFins)) * Real.pi / 180 = Real.pi / 4 by push_cast; ring, Real.sin_pi_div_four]

/-! ## Stages and the rocket -/

/-- **C104.** When all centres of gravity can be computed, the figure of a stage consists of the drawings of its components in their order, and one marker at
the centre of gravity of each component that can be drawn. -/
theorem stage_drawn (ps : List Piece) (F : Figure) (cg : Piece → V3 ℝ) (hcg : ∀ p ∈ ps, p.cg = .ok (cg p)) :
    drawStage ps = .ok F ↔ (∀ p ∈ ps, p.shape = .other ∨ ∃ ls, p.shape.draw = .ok ls) ∧
      F.lines = ps.flatMap (fun p => match p.shape.draw with | .ok ls => ls | .error _ => []) ∧
      F.marks = ps.filterMap (fun p => match p.shape with | .other => none | _ => some ((cg p).z, (cg p).y)) := by
  induction ps generalizing F with
  | nil =>
    constructor
    · intro h; cases h; simp
    · rintro ⟨_, h1, h2⟩
      obtain ⟨l, m⟩ := F
      simp only [List.flatMap_nil, List.filterMap_nil] at h1 h2
      subst h1; subst h2; rfl
  | cons p ps ih =>
    have hrest := fun G => ih G (fun q hq => hcg q (by simp [hq]))
    have hc := hcg p (by simp)
    have hne : ∀ e, p.shape.draw = .error e → (e = .attributeError ↔ p.shape = .other) := by
      intro e he
      cases hs : p.shape with
      | other => rw [hs] at he; cases he; simp
      | tube t => rw [hs] at he; cases he
      | trans t => rw [hs] at he; cases he
      | fins g z => rw [hs] at he; cases he
      | nose n z =>
        rw [hs] at he
        simp only [reduceCtorEq, iff_false]
        rintro rfl
        have hrad : ∀ xs, radii n xs ≠ .error .attributeError := by
          intro xs
          induction xs with
          | nil => simp [radii]
          | cons x xs ihx =>
            rw [radii]
            have : n.getRadius x ≠ .error .attributeError := by
              unfold Nose.getRadius
              split <;> (try split) <;> (try dsimp only) <;> (try split) <;> simp
            cases hr : n.getRadius x with
            | error e => intro h; injection h with h; exact this (by rw [hr, h])
            | ok r =>
              dsimp only
              cases hx : radii n xs with
              | error e => intro h; injection h with h; exact ihx (by rw [hx, h])
              | ok rs => simp
        have hneg : ∀ rs, negate rs ≠ .error .attributeError := by
          intro rs
          induction rs with
          | nil => simp [negate]
          | cons r rs ihr =>
            cases r with
            | none => simp [negate]
            | some r =>
              rw [negate]
              cases hx : negate rs with
              | error e => intro h; injection h with h; exact ihr (by rw [hx, h])
              | ok l => simp
        unfold Shape.draw drawNose at he
        dsimp only at he
        split at he
        · cases he
        · cases hr : radii n (samples (n.baseDiameter * n.aspectRatio)) with
          | error e => rw [hr] at he; injection he with he; exact hrad _ (by rw [hr, he])
          | ok ys =>
            rw [hr] at he
            dsimp only at he
            cases hy : negate ys with
            | error e => rw [hy] at he; injection he with he; exact hneg _ (by rw [hy, he])
            | ok bot => rw [hy] at he; cases he
    rw [drawStage]
    simp only [List.mem_cons, forall_eq_or_imp, List.flatMap_cons, List.filterMap_cons]
    cases hd : p.shape.draw with
    | error e =>
      have hiff := hne e hd
      by_cases ho : p.shape = .other
      · have he := hiff.2 ho
        subst he
        dsimp only
        rw [ho]
        simp only [true_or, true_and, List.nil_append]
        cases hr : drawStage ps with
        | error e' =>
          constructor
          · intro h; cases h
          · rintro ⟨a, b, c⟩
            have := (hrest F).2 ⟨a, b, c⟩
            rw [hr] at this; cases this
        | ok G =>
          rw [← hrest F, hr]
      · have he : e ≠ .attributeError := fun h => ho (hiff.1 h)
        constructor
        · intro h; exfalso; cases e <;> first | exact he rfl | cases h
        · rintro ⟨⟨h | ⟨ls, h⟩, _⟩, _⟩
          · exact absurd h ho
          · cases h
    | ok ls =>
      have ho : p.shape ≠ .other := by intro h; rw [h] at hd; cases hd
      have hm : (match p.shape with | .other => none | _ => some ((cg p).z, (cg p).y)) = some ((cg p).z, (cg p).y) := by
        cases hs : p.shape <;> first | rfl | exact absurd hs ho
      rw [hc, hm]
      dsimp only
      cases hr : drawStage ps with
      | error e' =>
        dsimp only
        constructor
        · intro h; cases h
        · rintro ⟨⟨_, a⟩, _, _⟩
          have := (hrest ⟨_, _⟩).2 ⟨a, rfl, rfl⟩
          rw [hr] at this; cases this
      | ok G =>
        obtain ⟨a, b, c⟩ := (hrest G).1 hr
        dsimp only
        constructor
        · intro h
          cases h
          refine ⟨⟨.inr ⟨ls, rfl⟩, a⟩, ?_, ?_⟩
          · rw [b]
          · rw [c]; rfl
        · rintro ⟨_, h1, h2⟩
          obtain ⟨l, m⟩ := F
          dsimp only at h1 h2
          rw [h1, h2, ← b, ← c]
          rfl

/-- **C104 violated.** Masses, motors and recovery systems have no marker: their centres of gravity are not shown. -/
theorem mass_marker_violated (ps qs : List Piece) (c : Except PyErr (V3 ℝ)) : drawStage (ps ++ ⟨.other, c⟩ :: qs) = drawStage (ps ++ qs) := by
  induction ps with
  | nil =>
    rw [List.nil_append, List.nil_append, drawStage]
    dsimp only [Shape.draw]
    cases drawStage qs <;> rfl
  | cons p ps ih =>
    rw [List.cons_append, List.cons_append, drawStage, drawStage, ih]

/-- **C104.** The outline is the one the aerodynamics uses: wherever the stage has a radius (stage.py `getRadius`, which also places the fins), the
drawing shows it on both sides, for stages of tubes, transitions and conical noses. -/
theorem stage_outline (posZ d r : ℝ) (ps : List Piece) (F : Figure) (cg : Piece → V3 ℝ) (hcg : ∀ p ∈ ps, p.cg = .ok (cg p)) (hF : drawStage ps = .ok F)
    (hn : ∀ p ∈ ps, ∀ n z, p.shape = .nose n z → n.shape = .cone ∧ 0 < n.baseDiameter ∧ 0 < n.length)
    (ht : ∀ p ∈ ps, ∀ t, p.shape = .tube t → 0 ≤ t.length ∧ 0 ≤ t.outerDiameter)
    (hc : ∀ p ∈ ps, ∀ t, p.shape = .trans t → 0 ≤ t.length ∧ 0 ≤ t.startDiameter ∧ 0 ≤ t.endDiameter)
    (hr : stageRadius posZ (ps.map fun p => p.shape.body) d = .ok r) : (posZ - d, r) ∈ shown F.lines ∧ (posZ - d, -r) ∈ shown F.lines := by
  have hl := ((stage_drawn ps F cg hcg).1 hF).2.1
  suffices h : ∃ p ∈ ps, ∃ ls, p.shape.draw = .ok ls ∧ (posZ - d, r) ∈ shown ls ∧ (posZ - d, -r) ∈ shown ls by
    obtain ⟨p, hp, ls, h1, ⟨l1, h2, h3⟩, ⟨l2, h4, h5⟩⟩ := h
    have hin : ∀ l ∈ ls, l ∈ F.lines := fun l hl' => by
      rw [hl, List.mem_flatMap]
      exact ⟨p, hp, by rw [h1]; exact hl'⟩
    exact ⟨⟨l1, hin l1 h2, h3⟩, ⟨l2, hin l2 h4, h5⟩⟩
  clear hl hF hcg
  induction ps with
  | nil => cases hr
  | cons p ps ih =>
    have rest := fun h => ih (fun q hq => hn q (by simp [hq])) (fun q hq => ht q (by simp [hq])) (fun q hq => hc q (by simp [hq])) h
    have up : (∃ q ∈ ps, ∃ ls, q.shape.draw = .ok ls ∧ (posZ - d, r) ∈ shown ls ∧ (posZ - d, -r) ∈ shown ls) →
        ∃ q ∈ p :: ps, ∃ ls, q.shape.draw = .ok ls ∧ (posZ - d, r) ∈ shown ls ∧ (posZ - d, -r) ∈ shown ls := fun ⟨q, hq, h⟩ => ⟨q, by simp [hq], h⟩
    rw [List.map_cons] at hr
    cases hs : p.shape with
    | other => rw [hs] at hr; exact up (rest hr)
    | fins g z => rw [hs] at hr; exact up (rest hr)
    | nose n z =>
      obtain ⟨q1, q2, q3⟩ := hn p (by simp) n z hs
      rw [hs] at hr
      simp only [Shape.body, stageRadius] at hr
      split at hr
      · rename_i hin
        have hrad : n.radiusE (z - (posZ - d)) = .ok (n.baseDiameter / 2 * ((z - (posZ - d)) / n.length)) := by
          unfold Nose.radiusE Nose.getRadius; rw [q1]; dsimp only; rw [if_neg q3.ne']
        rw [hrad] at hr
        dsimp only at hr
        injection hr with hr
        obtain ⟨ls, h1, h2⟩ := cone_drawn n z q1 q2 q3
        have hpos : 0 ≤ r := by
          rw [← hr]
          have : 0 ≤ (z - (posZ - d)) / n.length := div_nonneg (by linarith [hin.1]) q3.le
          positivity
        refine ⟨p, by simp, ls, by rw [hs]; exact h1, ?_, ?_⟩ <;> rw [h2]
        · exact ⟨⟨hin.2, hin.1⟩, by dsimp only; rw [hr, abs_of_nonneg hpos]⟩
        · exact ⟨⟨hin.2, hin.1⟩, by dsimp only; rw [hr, abs_neg, abs_of_nonneg hpos]⟩
      · exact up (rest hr)
    | tube t =>
      obtain ⟨q1, q2⟩ := ht p (by simp) t hs
      rw [hs] at hr
      simp only [Shape.body, stageRadius] at hr
      split at hr
      · rename_i hin
        injection hr with hr
        have hpos : 0 ≤ r := by rw [← hr]; unfold Tube.getRadius; linarith
        refine ⟨p, by simp, drawTube t, by rw [hs]; rfl, ?_, ?_⟩ <;> rw [tube_drawn t q1 q2]
        · exact ⟨⟨hin.2, hin.1⟩, .inl (by dsimp only; rw [hr, abs_of_nonneg hpos])⟩
        · exact ⟨⟨hin.2, hin.1⟩, .inl (by dsimp only; rw [hr, abs_neg, abs_of_nonneg hpos])⟩
      · exact up (rest hr)
    | trans t =>
      obtain ⟨q1, q2, q3⟩ := hc p (by simp) t hs
      rw [hs] at hr
      simp only [Shape.body, stageRadius] at hr
      split at hr
      · rename_i hin
        rcases q1.eq_or_lt with h0 | h0
        · have : t.getRadius (t.position.z - (posZ - d)) = .error .zeroDivision := by unfold Trans.getRadius; rw [if_pos h0.symm]
          rw [this] at hr; cases hr
        · obtain ⟨ρ, h1, h2⟩ := trans_drawn t h0 q2 q3
          rw [h1] at hr
          dsimp only at hr
          injection hr with hr
          have hpos : 0 ≤ r := by
            have h3 := h1 (t.position.z - (posZ - d))
            unfold Trans.getRadius at h3
            rw [if_neg h0.ne'] at h3
            injection h3 with h3
            rw [← hr, ← h3]
            have k0 : 0 ≤ (t.position.z - (posZ - d)) / t.length := div_nonneg (by linarith [hin.1]) h0.le
            have k1 : (t.position.z - (posZ - d)) / t.length ≤ 1 := (div_le_one h0).2 (by linarith [hin.2])
            generalize (t.position.z - (posZ - d)) / t.length = q at k0 k1
            nlinarith [mul_nonneg k0 q3, mul_nonneg (sub_nonneg.2 k1) q2]
          refine ⟨p, by simp, drawTrans t, by rw [hs]; rfl, ?_, ?_⟩ <;> rw [h2]
          · exact ⟨⟨hin.2, hin.1⟩, .inl (by dsimp only; rw [hr, abs_of_nonneg hpos])⟩
          · exact ⟨⟨hin.2, hin.1⟩, .inl (by dsimp only; rw [hr, abs_neg, abs_of_nonneg hpos])⟩
      · exact up (rest hr)

/-- **C104.** The figure of a rocket shows its centre of gravity and mass, and the figures of its stages from top to bottom; it fails only if one of these does. -/
theorem rocket_drawn (i : Except PyErr (Inertia ℝ)) (stages : List (List Piece)) (c : ℝ × ℝ) (m : ℝ) (F : Figure) :
    drawRocket i stages = .ok (c, m, F) ↔ ∃ I fs, i = .ok I ∧ c = (I.cg.z, 0) ∧ m = I.mass ∧ List.Forall₂ (fun s f => drawStage s = .ok f) stages fs ∧
      F.lines = fs.flatMap Figure.lines ∧ F.marks = fs.flatMap Figure.marks := by
  have hst : ∀ F, drawStages stages = .ok F ↔ ∃ fs, List.Forall₂ (fun s f => drawStage s = .ok f) stages fs ∧ F.lines = fs.flatMap Figure.lines ∧
      F.marks = fs.flatMap Figure.marks := by
    induction stages with
    | nil =>
      intro F
      constructor
      · intro h; cases h; exact ⟨[], .nil, rfl, rfl⟩
      · rintro ⟨fs, h, h1, h2⟩
        cases h
        obtain ⟨l, m⟩ := F
        simp only [List.flatMap_nil] at h1 h2
        subst h1; subst h2; rfl
    | cons s ss ih =>
      intro F
      rw [drawStages]
      constructor
      · intro h
        cases hs : drawStage s with
        | error e => rw [hs] at h; cases h
        | ok f =>
          rw [hs] at h
          dsimp only at h
          cases hr : drawStages ss with
          | error e => rw [hr] at h; cases h
          | ok G =>
            rw [hr] at h
            cases h
            obtain ⟨fs, k1, k2, k3⟩ := (ih G).1 hr
            exact ⟨f :: fs, .cons hs k1, by rw [k2]; rfl, by rw [k3]; rfl⟩
      · rintro ⟨fs, h, h1, h2⟩
        cases h with
        | @cons _ f _ fs hs hrest =>
          have := (ih ⟨fs.flatMap Figure.lines, fs.flatMap Figure.marks⟩).2 ⟨fs, hrest, rfl, rfl⟩
          rw [hs]
          dsimp only
          rw [this]
          obtain ⟨l, m⟩ := F
          simp only [List.flatMap_cons] at h1 h2
          subst h1; subst h2; rfl
  cases i with
  | error e =>
    constructor
    · intro h; cases h
    · rintro ⟨I, fs, h, _⟩; cases h
  | ok I =>
    unfold drawRocket
    dsimp only
    constructor
    · intro h
      cases hr : drawStages stages with
      | error e => rw [hr] at h; cases h
      | ok G =>
        rw [hr] at h
        cases h
        obtain ⟨fs, k1, k2, k3⟩ := (hst _).1 hr
        exact ⟨I, fs, rfl, rfl, rfl, k1, k2, k3⟩
    · rintro ⟨I', fs, hI, h1, h2, h3, h4, h5⟩
      injection hI with hI
      subst hI
      rw [(hst F).2 ⟨fs, h3, h4, h5⟩, h1, h2]

/-! ## Cases -/

/-- a cone, a tube with four fins and a boat tail meet the hypotheses -/
example : (Nose.mk 5 0.15 .cone).shape = .cone ∧ (0 : ℝ) < (Nose.mk 5 0.15 .cone).baseDiameter ∧ 0 < (Nose.mk 5 0.15 .cone).length := by
  refine ⟨rfl, by norm_num, by unfold Nose.length; norm_num⟩
example : (0 : ℝ) < (Nose.mk 5 0.15 .tangentOgive).baseDiameter ∧ (Nose.mk 5 0.15 .tangentOgive).baseDiameter / 2 ≤ (Nose.mk 5 0.15 .tangentOgive).length := by
  refine ⟨by norm_num, by unfold Nose.length; norm_num⟩
example : (FinGeom.mk 4 0 0 0.5 0.3 0.1 0.2 0.075 10).numFins = 3 ∨ (FinGeom.mk 4 0 0 0.5 0.3 0.1 0.2 0.075 10).numFins = 4 := .inr rfl
/-- a stage made of one tube is drawn, with one marker, and has its radius halfway -/
example : drawStage [⟨.tube ⟨2, 3, ⟨0, 0, 0⟩⟩, .ok ⟨0, 0, -1⟩⟩] = .ok ⟨[[(0, 2 / 2), (0, -(2 / 2)), (0 - 3, -(2 / 2)), (0 - 3, 2 / 2), (0, 2 / 2)]], [(-1, 0)]⟩ ∧
    stageRadius 0 [(Shape.tube ⟨2, 3, ⟨0, 0, 0⟩⟩).body] (3 / 2) = .ok (2 / 2 : ℝ) := by
  refine ⟨rfl, ?_⟩
  simp only [Shape.body, stageRadius, Tube.getRadius]
  rw [if_pos (by norm_num)]

end Mapleaf.Rocket.Draw
