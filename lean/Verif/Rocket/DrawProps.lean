import Verif.Rocket.DrawModel
import Verif.Rocket.GeomProps
import Mathlib.Analysis.Convex.Segment

/-! # C104: the drawing shows the rocket -/

namespace Mapleaf.Rocket.Draw
open Set Mapleaf.Motion

/-! ## Lines as sets of points -/

/-- the points of a line: what is drawn -/
def trace : Line → Set (ℝ × ℝ)
  | [] => ∅
  | [p] => {p}
  | p :: q :: l => segment ℝ p q ∪ trace (q :: l)

/-- the points of all lines -/
def shown (ls : List Line) : Set (ℝ × ℝ) := {p | ∃ l ∈ ls, p ∈ trace l}

theorem seg_iff (a b : ℝ × ℝ) (z r : ℝ) : (z, r) ∈ segment ℝ a b ↔ ∃ u ∈ Icc (0 : ℝ) 1, z = a.1 + u * (b.1 - a.1) ∧ r = a.2 + u * (b.2 - a.2) := by
  rw [segment_eq_image']
  constructor
  · rintro ⟨u, hu, h⟩
    rw [Prod.ext_iff] at h
    exact ⟨u, hu, by simpa using h.1.symm, by simpa using h.2.symm⟩
  · rintro ⟨u, hu, h1, h2⟩
    exact ⟨u, hu, by rw [Prod.ext_iff]; exact ⟨by simp [h1], by simp [h2]⟩⟩

/-- a line over an interval of the first coordinate -/
theorem seg_graph {a b : ℝ} (h : a < b) (ra rb z r : ℝ) : (z, r) ∈ segment ℝ (a, ra) (b, rb) ↔ (a ≤ z ∧ z ≤ b) ∧ r = ra + (z - a) / (b - a) * (rb - ra) := by
  rw [seg_iff]
  have hb : 0 < b - a := sub_pos.2 h
  constructor
  · rintro ⟨u, hu, h1, h2⟩
    dsimp only at h1 h2
    have hz : z - a = u * (b - a) := by rw [h1]; ring
    refine ⟨⟨?_, ?_⟩, ?_⟩
    · have := mul_nonneg hu.1 hb.le; linarith
    · have := mul_le_of_le_one_left hb.le hu.2; linarith
    · rw [hz, mul_div_assoc, div_self hb.ne', mul_one, h2]
  · rintro ⟨⟨h1, h2⟩, h3⟩
    refine ⟨(z - a) / (b - a), ⟨div_nonneg (by linarith) hb.le, (div_le_one hb).2 (by linarith)⟩, ?_, h3⟩
    dsimp only
    rw [div_mul_cancel₀ _ hb.ne']; ring

/-- a line over an interval of the second coordinate -/
theorem seg_graph' {a b : ℝ} (h : a < b) (za zb z r : ℝ) : (z, r) ∈ segment ℝ (za, a) (zb, b) ↔ (a ≤ r ∧ r ≤ b) ∧ z = za + (r - a) / (b - a) * (zb - za) := by
  have := seg_graph h za zb r z
  rw [seg_iff] at this ⊢
  simp only at this ⊢
  rw [← this]
  constructor
  · rintro ⟨u, hu, h1, h2⟩; exact ⟨u, hu, h2, h1⟩
  · rintro ⟨u, hu, h1, h2⟩; exact ⟨u, hu, h2, h1⟩

/-- a line across -/
theorem seg_vert {a r₁ r₂ : ℝ} (h : r₁ ≤ r₂) (z r : ℝ) : (z, r) ∈ segment ℝ (a, r₁) (a, r₂) ↔ z = a ∧ r₁ ≤ r ∧ r ≤ r₂ := by
  rcases h.eq_or_lt with rfl | h'
  · rw [segment_same, mem_singleton_iff, Prod.mk.injEq]
    constructor
    · rintro ⟨rfl, rfl⟩; exact ⟨rfl, le_rfl, le_rfl⟩
    · rintro ⟨rfl, h1, h2⟩; exact ⟨rfl, le_antisymm h2 h1⟩
  · rw [seg_graph' h', sub_self, mul_zero, add_zero]
    tauto

/-- a line along -/
theorem seg_horiz {a b r₀ : ℝ} (h : a ≤ b) (z r : ℝ) : (z, r) ∈ segment ℝ (a, r₀) (b, r₀) ↔ (a ≤ z ∧ z ≤ b) ∧ r = r₀ := by
  rcases h.eq_or_lt with rfl | h'
  · rw [segment_same, mem_singleton_iff, Prod.mk.injEq]
    constructor
    · rintro ⟨rfl, rfl⟩; exact ⟨⟨le_rfl, le_rfl⟩, rfl⟩
    · rintro ⟨⟨h1, h2⟩, rfl⟩; exact ⟨le_antisymm h2 h1, rfl⟩
  · rw [seg_graph h', sub_self, mul_zero, add_zero]

/-! ## Body components -/

/-- The outline of a body of revolution seen from the side, closed at both ends: `tip` is the place of its top, `ρ` its radius as a function of the
distance from the top. -/
def Outline (tip len : ℝ) (ρ : ℝ → ℝ) : Set (ℝ × ℝ) :=
  {p | (tip - len ≤ p.1 ∧ p.1 ≤ tip) ∧ (|p.2| = ρ (tip - p.1) ∨ (p.1 = tip ∨ p.1 = tip - len) ∧ |p.2| ≤ ρ (tip - p.1))}

/-- **C104.** A body tube is drawn as the outline of a cylinder with its radius, length and place. -/
theorem tube_drawn (t : Tube) (hl : 0 ≤ t.length) (hd : 0 ≤ t.outerDiameter) :
    shown (drawTube t) = Outline t.position.z t.length (fun d => t.getRadius d) := by
  ext ⟨z, r⟩
  have hR : 0 ≤ t.outerDiameter / 2 := by linarith
  simp only [shown, drawTube, List.mem_singleton, exists_eq_left, mem_setOf_eq, trace, mem_union, Outline, Tube.getRadius]
  rw [segment_symm ℝ (t.position.z, t.outerDiameter / 2) (t.position.z, -(t.outerDiameter / 2)), segment_symm ℝ (t.position.z, -(t.outerDiameter / 2)) (t.position.z - t.length, -(t.outerDiameter / 2)),
    seg_vert (by linarith), seg_vert (by linarith), seg_horiz (by linarith), seg_horiz (by linarith), abs_eq hR, abs_le, mem_singleton_iff, Prod.mk.injEq]
  constructor
  · rintro (⟨rfl, h⟩ | ⟨h, rfl⟩ | ⟨rfl, h⟩ | ⟨h, rfl⟩ | ⟨rfl, rfl⟩)
    · exact ⟨⟨by linarith, le_rfl⟩, .inr ⟨.inl rfl, h⟩⟩
    · exact ⟨h, .inl (.inr rfl)⟩
    · exact ⟨⟨le_rfl, by linarith⟩, .inr ⟨.inr rfl, h⟩⟩
    · exact ⟨h, .inl (.inl rfl)⟩
    · exact ⟨⟨by linarith, le_rfl⟩, .inl (.inl rfl)⟩
  · rintro ⟨h, (rfl | rfl) | ⟨rfl | rfl, h'⟩⟩
    · exact .inr (.inr (.inr (.inl ⟨h, rfl⟩)))
    · exact .inr (.inl ⟨h, rfl⟩)
    · exact .inl ⟨rfl, h'⟩
    · exact .inr (.inr (.inl ⟨rfl, h'⟩))

/-- **C104.** A transition or boat tail is drawn as the outline of a truncated cone with its radii, length and place. -/
theorem trans_drawn (t : Trans) (hl : 0 < t.length) (h1 : 0 ≤ t.startDiameter) (h2 : 0 ≤ t.endDiameter) :
    ∃ ρ : ℝ → ℝ, (∀ d, t.getRadius d = .ok (ρ d)) ∧ shown (drawTrans t) = Outline t.position.z t.length ρ := by
  refine ⟨fun d => (d / t.length * (t.endDiameter - t.startDiameter) + t.startDiameter) / 2, fun d => by unfold Trans.getRadius; rw [if_neg hl.ne'], ?_⟩
  ext ⟨z, r⟩
  have hR1 : 0 ≤ t.startDiameter / 2 := by linarith
  have hR2 : 0 ≤ t.endDiameter / 2 := by linarith
  have hlt : t.position.z - t.length < t.position.z := by linarith
  have hrho : ∀ z, t.endDiameter / 2 + (z - (t.position.z - t.length)) / (t.position.z - (t.position.z - t.length)) * (t.startDiameter / 2 - t.endDiameter / 2) =
      ((t.position.z - z) / t.length * (t.endDiameter - t.startDiameter) + t.startDiameter) / 2 := fun z => by
    rw [show t.position.z - (t.position.z - t.length) = t.length by ring]
    field_simp; ring
  have hneg : ∀ z, -(t.endDiameter / 2) + (z - (t.position.z - t.length)) / (t.position.z - (t.position.z - t.length)) * (-(t.startDiameter / 2) - -(t.endDiameter / 2)) =
      -(((t.position.z - z) / t.length * (t.endDiameter - t.startDiameter) + t.startDiameter) / 2) := fun z => by
    rw [← hrho z]; ring
  have hpos : ∀ z, t.position.z - t.length ≤ z → z ≤ t.position.z → 0 ≤ ((t.position.z - z) / t.length * (t.endDiameter - t.startDiameter) + t.startDiameter) / 2 := by
    intro z ha hb
    have q0 : 0 ≤ (t.position.z - z) / t.length := div_nonneg (by linarith) hl.le
    have q1 : (t.position.z - z) / t.length ≤ 1 := (div_le_one hl).2 (by linarith)
    generalize (t.position.z - z) / t.length = q at q0 q1
    nlinarith [mul_nonneg q0 h2, mul_nonneg (sub_nonneg.2 q1) h1]
  simp only [shown, drawTrans, List.mem_singleton, exists_eq_left, mem_setOf_eq, trace, mem_union, Outline]
  rw [segment_symm ℝ (t.position.z, t.startDiameter / 2) (t.position.z - t.length, t.endDiameter / 2), segment_symm ℝ (t.position.z - t.length, t.endDiameter / 2) (t.position.z - t.length, -(t.endDiameter / 2)),
    seg_vert (by linarith), seg_vert (by linarith), seg_graph hlt, seg_graph hlt, mem_singleton_iff, Prod.mk.injEq, hrho, hneg]
  have e1 : ((t.position.z - t.position.z) / t.length * (t.endDiameter - t.startDiameter) + t.startDiameter) / 2 = t.startDiameter / 2 := by simp
  have e2 : ((t.position.z - (t.position.z - t.length)) / t.length * (t.endDiameter - t.startDiameter) + t.startDiameter) / 2 = t.endDiameter / 2 := by
    rw [show t.position.z - (t.position.z - t.length) = t.length by ring, div_self hl.ne']; ring
  constructor
  · rintro (⟨h, rfl⟩ | ⟨rfl, h⟩ | ⟨h, rfl⟩ | ⟨rfl, h⟩ | ⟨rfl, rfl⟩)
    · exact ⟨h, .inl (abs_of_nonneg (hpos z h.1 h.2))⟩
    · exact ⟨⟨le_rfl, by linarith⟩, .inr ⟨.inr rfl, by rw [e2, abs_le]; exact h⟩⟩
    · exact ⟨h, .inl (by rw [abs_neg]; exact abs_of_nonneg (hpos z h.1 h.2))⟩
    · exact ⟨⟨by linarith, le_rfl⟩, .inr ⟨.inl rfl, by rw [e1, abs_le]; exact h⟩⟩
    · exact ⟨⟨by linarith, le_rfl⟩, .inl (by rw [e1]; exact abs_of_nonneg hR1)⟩
  · rintro ⟨h, h' | ⟨rfl | rfl, h'⟩⟩
    · rcases (abs_eq (hpos z h.1 h.2)).1 h' with h' | h'
      · exact .inl ⟨h, h'⟩
      · exact .inr (.inr (.inl ⟨h, h'⟩))
    · rw [e1, abs_le] at h'
      exact .inr (.inr (.inr (.inl ⟨rfl, h'⟩)))
    · rw [e2, abs_le] at h'
      exact .inr (.inl ⟨rfl, h'⟩)

/-! ## Nose cones -/

theorem trace_cons (p q : ℝ × ℝ) (l : Line) : trace (p :: q :: l) = segment ℝ p q ∪ trace (q :: l) := rfl

theorem head_traced (p : ℝ × ℝ) (l : Line) : p ∈ trace (p :: l) := by
  cases l with
  | nil => simp [trace]
  | cons q l => exact .inl (left_mem_segment ℝ p q)

/-- the points of the line through `g 0, g 1, …, g n` -/
theorem trace_range (g : ℕ → ℝ × ℝ) (n : ℕ) (p : ℝ × ℝ) : p ∈ trace ((List.range (n + 1)).map g) ↔ p = g 0 ∨ ∃ i < n, p ∈ segment ℝ (g i) (g (i + 1)) := by
  induction n generalizing g with
  | zero => simp [trace]
  | succ n ih =>
    have hl : (List.range (n + 1 + 1)).map g = g 0 :: (List.range (n + 1)).map (fun i => g (i + 1)) := by
      rw [List.range_succ_eq_map, List.map_cons, List.map_map]; rfl
    have hl2 : (List.range (n + 1)).map (fun i => g (i + 1)) = g 1 :: (List.range n).map (fun i => g (i + 2)) := by
      rw [List.range_succ_eq_map, List.map_cons, List.map_map]; rfl
    have := ih (fun i => g (i + 1))
    rw [hl, hl2, trace_cons, mem_union, ← hl2, this]
    constructor
    · rintro (h | h | ⟨i, hi, h⟩)
      · exact .inr ⟨0, by omega, h⟩
      · exact .inr ⟨0, by omega, h ▸ right_mem_segment ℝ (g 0) (g 1)⟩
      · exact .inr ⟨i + 1, by omega, h⟩
    · rintro (h | ⟨i, hi, h⟩)
      · exact .inl (h ▸ left_mem_segment ℝ (g 0) (g 1))
      · cases i with
        | zero => exact .inl h
        | succ i => exact .inr (.inr ⟨i, by omega, h⟩)

theorem trace_append (l : Line) (a b : ℝ × ℝ) (m : Line) : trace ((l ++ [a]) ++ (b :: m)) = trace (l ++ [a]) ∪ segment ℝ a b ∪ trace (b :: m) := by
  induction l with
  | nil =>
    simp only [List.nil_append, List.singleton_append, trace_cons]
    ext p
    simp only [mem_union, trace, mem_singleton_iff]
    constructor
    · rintro (h | h)
      · exact .inl (.inr h)
      · exact .inr h
    · rintro ((h | h) | h)
      · exact .inl (h ▸ left_mem_segment ℝ a b)
      · exact .inl h
      · exact .inr h
  | cons x l ih =>
    cases l with
    | nil =>
      simp only [List.nil_append, List.cons_append] at ih ⊢
      rw [trace_cons, ih, trace_cons, union_assoc, union_assoc, union_assoc]
    | cons y l =>
      simp only [List.cons_append] at ih ⊢
      rw [trace_cons, ih, trace_cons, union_assoc, union_assoc, union_assoc]

theorem trace_reverse (l : Line) : trace l.reverse = trace l := by
  induction l with
  | nil => rfl
  | cons a l ih =>
    cases l with
    | nil => rfl
    | cons b l =>
      have h1 : (a :: b :: l).reverse = (l.reverse ++ [b]) ++ [a] := by simp
      have h2 : (b :: l).reverse = l.reverse ++ [b] := by simp
      rw [h1, trace_append, ← h2, ih, trace_cons, segment_symm ℝ b a]
      ext p
      simp only [mem_union, trace, mem_singleton_iff]
      constructor
      · rintro ((h | h) | h)
        · exact .inr h
        · exact .inl h
        · exact .inl (h ▸ left_mem_segment ℝ a b)
      · rintro (h | h)
        · exact .inl (.inr h)
        · exact .inl (.inl h)

theorem radii_some (n : Nose) (f : ℝ → ℝ) (xs : List ℝ) (h : ∀ x ∈ xs, n.getRadius x = .ok (some (f x))) : radii n xs = .ok (xs.map fun x => some (f x)) := by
  induction xs with
  | nil => rfl
  | cons x xs ih => rw [radii, h x (by simp), ih (fun y hy => h y (by simp [hy]))]; rfl

theorem negate_some (rs : List ℝ) : negate (rs.map some) = .ok (rs.map fun r => -1 * r) := by
  induction rs with
  | nil => rfl
  | cons r rs ih => rw [List.map_cons, negate, ih]; rfl

/-- **C104, nose cones.** A nose cone is drawn as 99 straight pieces on each side, from the tip to the base, with corners on its profile. -/
theorem nose_pieces (n : Nose) (z : ℝ) (f : ℝ → ℝ) (hD : 0 < n.baseDiameter) (hL : 0 < n.length) (hf : ∀ d, 0 ≤ d → d ≤ n.length → n.getRadius d = .ok (some (f d))) :
    ∃ ls, drawNose n z = .ok ls ∧ ∀ p, p ∈ shown ls ↔ p ∈ segment ℝ (z, f 0) (z, -f 0) ∨ ∃ i : ℕ, i < 99 ∧
      (p ∈ segment ℝ (z - i * (n.length / 99), f (i * (n.length / 99))) (z - (i + 1) * (n.length / 99), f ((i + 1) * (n.length / 99))) ∨
      p ∈ segment ℝ (z - i * (n.length / 99), -f (i * (n.length / 99))) (z - (i + 1) * (n.length / 99), -f ((i + 1) * (n.length / 99)))) := by
  set L := n.length with hLdef
  have hlen : n.baseDiameter * n.aspectRatio = L := rfl
  have hs : ∀ x ∈ samples L, n.getRadius x = .ok (some (f x)) := fun x hx => by
    simp only [samples, List.mem_map, List.mem_range] at hx
    obtain ⟨i, hi, rfl⟩ := hx
    have h1 : (i : ℝ) ≤ 99 := by exact_mod_cast (by omega : i ≤ 99)
    refine hf _ (by positivity) ?_
    calc (i : ℝ) * (L / 99) ≤ 99 * (L / 99) := mul_le_mul_of_nonneg_right h1 (by positivity)
      _ = L := by ring
  set G : ℕ → ℝ × ℝ := fun i => (z - i * (L / 99), f (i * (L / 99))) with hG
  set G' : ℕ → ℝ × ℝ := fun i => (z - i * (L / 99), -f (i * (L / 99))) with hG'
  have htop : ((samples L).map fun i => -1 * i + z).zip ((((samples L).map f).map fun r => -1 * r).map fun r => -1 * r) = (List.range 100).map G := by
    simp only [samples, List.map_map, ← List.zip_map', List.zip_map_left, List.zip_map_right]
    rw [List.map_congr_left (g := fun i => ((fun i : ℕ => -1 * ((i : ℝ) * (L / 99)) + z) i, (fun i : ℕ => -1 * (-1 * f (i * (L / 99)))) i))]
    · rw [← List.zip_map']; rfl
    · intro i _; simp only [hG, Prod.mk.injEq]; constructor <;> ring
  have hbot : ((samples L).map fun i => -1 * i + z).zip (((samples L).map f).map fun r => -1 * r) = (List.range 100).map G' := by
    simp only [samples, List.map_map]
    rw [List.map_congr_left (g := fun i => ((fun i : ℕ => -1 * ((i : ℝ) * (L / 99)) + z) i, (fun i : ℕ => -1 * f (i * (L / 99))) i))]
    · rw [← List.zip_map']; rfl
    · intro i _; simp only [hG', Prod.mk.injEq]; constructor <;> ring
  refine ⟨[((List.range 100).map G).reverse ++ (List.range 100).map G'], ?_, fun p => ?_⟩
  · unfold drawNose
    rw [if_neg hD.ne']
    dsimp only
    rw [hlen, radii_some n f _ hs]
    dsimp only
    have : (samples L).map (fun x => some (f x)) = ((samples L).map f).map some := by rw [List.map_map]; rfl
    rw [this, negate_some]
    dsimp only
    rw [htop, hbot]
  · have hsplit : ((List.range 100).map G).reverse = (((List.range 99).map fun i => G (i + 1)).reverse) ++ [G 0] := by
      rw [List.range_succ_eq_map, List.map_cons, List.map_map, List.reverse_cons]; rfl
    have hsplit' : (List.range 100).map G' = G' 0 :: (List.range 99).map fun i => G' (i + 1) := by
      rw [List.range_succ_eq_map, List.map_cons, List.map_map]; rfl
    have hg0 : G 0 = (z, f 0) := by simp [hG]
    have hg0' : G' 0 = (z, -f 0) := by simp [hG']
    have hshow : shown [((List.range 100).map G).reverse ++ (List.range 100).map G'] = trace (((List.range 100).map G).reverse ++ (List.range 100).map G') := by
      ext q; simp [shown]
    rw [hshow, hsplit, hsplit', trace_append, ← hsplit, ← hsplit', trace_reverse, mem_union, mem_union, trace_range, trace_range, hg0, hg0']
    have hG1 : ∀ i : ℕ, G (i + 1) = (z - (i + 1) * (L / 99), f ((i + 1) * (L / 99))) := fun i => by simp only [hG]; push_cast; rfl
    have hG1' : ∀ i : ℕ, G' (i + 1) = (z - (i + 1) * (L / 99), -f ((i + 1) * (L / 99))) := fun i => by simp only [hG']; push_cast; rfl
    simp only [hG1, hG1']
    constructor
    · rintro (((h | ⟨i, hi, h⟩) | h) | (h | ⟨i, hi, h⟩))
      · exact .inl (h ▸ left_mem_segment ℝ _ _)
      · exact .inr ⟨i, hi, .inl h⟩
      · exact .inl h
      · exact .inl (h ▸ right_mem_segment ℝ _ _)
      · exact .inr ⟨i, hi, .inr h⟩
    · rintro (h | ⟨i, hi, h | h⟩)
      · exact .inl (.inr h)
      · exact .inl (.inl (.inr ⟨i, hi, h⟩))
      · exact .inr (.inr ⟨i, hi, h⟩)

end Mapleaf.Rocket.Draw
