import Verif.Run.ConvPlotModel
import Verif.Run.ConvProps

/-!
# C112: the uncertainty band of a convergence plot contains the exact values
-/

namespace Mapleaf.Run.ConvPlot
open Mapleaf Mapleaf.Str Mapleaf.Path Conv

/-! ## One place -/

/-- the factor by which `uncertainty_FS` enlarges the error estimate, for a formal order of 2 -/
theorem fs_uncertainty {c m f r : ℝ} (L : PowerLaw c m f r) (hr : 1 < r) :
    uncFS L.p f m r 2 = .ok ((if L.p ≤ 2 then 2.45 - 0.425 * L.p else 8.2 * L.p - 14.8) * |f - L.exact|) := by
  have hp := L.hp
  unfold uncFS
  rw [if_neg (by norm_num), L.errorEstimate_exact hr]
  dsimp only [Except.map]
  by_cases h : L.p ≤ 2
  · rw [if_pos ⟨by positivity, by linarith⟩, if_pos h]
    congr 2
    ring
  · rw [if_neg (by rintro ⟨-, h'⟩; linarith), if_pos (by push Not at h; linarith), if_neg h]
    congr 2
    ring

/-- **C112.** The uncertainty that `plotConvergence` shows is at least 1.6 times the true error if the error is a power of the step. -/
theorem fs_covers {c m f r : ℝ} (L : PowerLaw c m f r) (hr : 1 < r) :
    ∃ u, uncFS L.p f m r 2 = .ok u ∧ 1.6 * |f - L.exact| ≤ u := by
  refine ⟨_, fs_uncertainty L hr, ?_⟩
  apply mul_le_mul_of_nonneg_right _ (abs_nonneg _)
  split
  · rename_i h; linarith
  · rename_i h; push Not at h; linarith

theorem glb_covers {c m f r : ℝ} (L : PowerLaw c m f r) (hr : 1 < r) (formal : ℝ) :
    uncGCIglb L.p f m r formal = .ok (1.25 * |f - L.exact|) := by
  unfold uncGCIglb
  rw [L.errorEstimate_exact hr]
  rfl

theorem gcior_covers {c m f r : ℝ} (L : PowerLaw c m f r) (hr : 1 < r) (formal : ℝ) :
    uncGCIOR L.p f m r formal = .ok ((if 1.8 < L.p ∧ L.p < 2.2 then 1.25 else 3) * |f - L.exact|) := by
  unfold uncGCIOR
  rw [L.errorEstimate_exact hr]
  split <;> rfl

/-- the uncertainty of convergence studies (`uncertainty_GCI2g`): it contains the exact value exactly if the order is not too far below 2 -/
theorem gci2g_covers_iff {c m f r : ℝ} (L : PowerLaw c m f r) (hr : 1 < r) :
    ∃ u, uncGCI2g L.p f m r 2 = .ok u ∧ (|f - L.exact| ≤ u ↔ r ^ 2 - 1 ≤ 3 * (r ^ L.p - 1)) := by
  have hrp := L.rp_gt hr
  have hr2 : 0 < r ^ 2 - 1 := by nlinarith
  have he : r ^ (2 : ℝ) - 1 = r ^ 2 - 1 := by rw [show (2 : ℝ) = ((2 : ℕ) : ℝ) by norm_num, Real.rpow_natCast]
  have hfe : 0 < |f - L.exact| := by
    have h : f - L.exact = L.C * L.h ^ L.p := by have := L.hf; linarith
    rw [h, abs_pos]
    exact mul_ne_zero L.hC (Real.rpow_pos_of_pos L.hh _).ne'
  refine ⟨3 * (|f - m| / (r ^ 2 - 1)), ?_, ?_⟩
  · unfold uncGCI2g uncertainty errorEstimate
    rw [he, if_neg hr2.ne']
    rfl
  · have hx := L.errorEstimate_exact hr
    unfold errorEstimate at hx
    rw [if_neg (by linarith)] at hx
    have hx := Except.ok.inj hx
    have hfm : |f - m| = |f - L.exact| * (r ^ L.p - 1) := by
      rw [← hx, div_mul_cancel₀ _ (by linarith)]
    rw [hfm, mul_div_assoc', le_div_iff₀ hr2, ← mul_assoc, mul_comm 3, mul_assoc]
    constructor
    · intro h; exact le_of_mul_le_mul_left h hfe
    · intro h; exact mul_le_mul_of_nonneg_left h hfe.le

/-- **C112**, violated for convergence studies: with a first-order method and steps refined by 3 the exact value is outside the uncertainty -/
theorem study_first_order_violated {c m f : ℝ} (L : PowerLaw c m f 3) (hp : L.p = 1) :
    ∃ u, uncGCI2g L.p f m 3 2 = .ok u ∧ u < |f - L.exact| := by
  obtain ⟨u, h1, h2⟩ := gci2g_covers_iff L (by norm_num)
  refine ⟨u, h1, ?_⟩
  rw [← not_le, h2, hp]
  norm_num

/-- an order above the largest allowed one: the band is wider than needed, the exact value is inside -/
theorem fast_covers {c m f r : ℝ} (L : PowerLaw c m f r) (hr : 1 < r) {hi : ℝ} (h0 : 0 < hi) (h : hi ≤ L.p) :
    ∃ u, uncFS hi f m r 2 = .ok u ∧ 1.6 * |f - L.exact| ≤ u := by
  have hrp := L.rp_gt hr
  have hpos : 0 < r ^ L.p - 1 := by linarith
  have hhi : 1 < r ^ hi := Real.one_lt_rpow hr h0
  have hle : r ^ hi ≤ r ^ L.p := Real.rpow_le_rpow_of_exponent_le hr.le h
  have hx := L.errorEstimate_exact hr
  unfold errorEstimate at hx
  rw [if_neg hpos.ne'] at hx
  have hx := Except.ok.inj hx
  have hee : errorEstimate hi f m r = .ok (|f - m| / (r ^ hi - 1)) := by
    unfold errorEstimate; rw [if_neg (by linarith)]
  have hw : |f - L.exact| ≤ |f - m| / (r ^ hi - 1) := by
    rw [← hx]
    exact div_le_div_of_nonneg_left (abs_nonneg _) (by linarith) (by linarith)
  unfold uncFS
  rw [if_neg (by norm_num), hee]
  dsimp only [Except.map]
  have hn := abs_nonneg (f - L.exact)
  by_cases h2 : hi ≤ 2
  · rw [if_pos ⟨by positivity, by linarith⟩]
    refine ⟨_, rfl, ?_⟩
    calc 1.6 * |f - L.exact| ≤ 1.6 * (|f - m| / (r ^ hi - 1)) := by gcongr
      _ ≤ _ := mul_le_mul_of_nonneg_right (by linarith) (hn.trans hw)
  · push Not at h2
    rw [if_neg (by rintro ⟨-, h'⟩; linarith), if_pos (by linarith)]
    refine ⟨_, rfl, ?_⟩
    calc 1.6 * |f - L.exact| ≤ 1.6 * (|f - m| / (r ^ hi - 1)) := by gcongr
      _ ≤ _ := mul_le_mul_of_nonneg_right (by linarith) (hn.trans hw)

/-! ## Lists -/

theorem eachE_length {α β : Type} {f : α → Except PyErr β} {l : List α} {bs : List β} (h : eachE f l = .ok bs) : bs.length = l.length := by
  induction l generalizing bs with
  | nil => obtain rfl := Except.ok.inj h; rfl
  | cons a l ih =>
    unfold eachE at h
    split at h
    · cases h
    · split at h
      · cases h
      · rename_i bs' hbs
        obtain rfl := Except.ok.inj h
        simp [ih hbs]

theorem eachE_map {α β γ : Type} {f : α → Except PyErr β} {g : γ → α} {k : γ → β} (l : List γ) (h : ∀ a ∈ l, f (g a) = .ok (k a)) :
    eachE f (l.map g) = .ok (l.map k) := by
  induction l with
  | nil => rfl
  | cons a l ih =>
    rw [List.map_cons, List.map_cons]
    unfold eachE
    rw [h a (by simp), ih fun x hx => h x (by simp [hx])]

/-- a place with data whose error is a power of the step -/
structure Place (r lo hi : ℝ) where
  triple : Triple
  law : PowerLaw triple.coarse triple.med triple.fine r
  low : lo ≤ law.p
  high : law.p ≤ hi
  med : triple.med ≠ 0
  fine : triple.fine ≠ 0

/-- the safety factor of the grid convergence index: 1.25 close to the formal order in the asymptotic range, else 3 -/
noncomputable def safety (s : Settings) (p a : ℝ) : ℝ := open Classical in if |p - 2| < s.orderTol ∧ |a - 1| < s.asympTol then 1.25 else 3

theorem gci_fine {c m f r : ℝ} (L : PowerLaw c m f r) (hr : 1 < r) (hf : f ≠ 0) {k : ℝ} (hk : 0 ≤ k) :
    gci m f r L.p k = .ok (k * (|f - L.exact| / |f|) * 100) := by
  have hpos : 0 < r ^ L.p - 1 := by have := L.rp_gt hr; linarith
  have e : m - f = (f - L.exact) * (r ^ L.p - 1) := by
    rw [L.med_sub_fine hr]
    have := L.hf
    linear_combination (-(r ^ L.p - 1)) * this
  unfold gci
  rw [if_neg hf, if_neg hpos.ne', e]
  congr 2
  rw [abs_div, abs_mul, abs_div, abs_mul, abs_of_pos hpos, abs_of_nonneg hk, abs_of_nonneg (by positivity)]
  field_simp

theorem gci_med {c m f r : ℝ} (L : PowerLaw c m f r) (hr : 1 < r) (hm : m ≠ 0) {k : ℝ} (hk : 0 ≤ k) :
    gci c m r L.p k = .ok (k * (|m - L.exact| / |m|) * 100) := by
  have hpos : 0 < r ^ L.p - 1 := by have := L.rp_gt hr; linarith
  have e : c - m = (m - L.exact) * (r ^ L.p - 1) := by
    rw [L.coarse_sub_med hr]
    have h := L.hm
    rw [Real.mul_rpow (by linarith) L.hh.le] at h
    linear_combination (-(r ^ L.p - 1)) * h
  unfold gci
  rw [if_neg hm, if_neg hpos.ne', e]
  congr 2
  rw [abs_div, abs_mul, abs_div, abs_mul, abs_of_pos hpos, abs_of_nonneg hk, abs_of_nonneg (by positivity)]
  field_simp

/-- the check of one place: the grid convergence indices are the true relative errors of the fine and medium values in percent, times the safety
factor; the extrapolated value is the exact one -/
theorem checkPoint_law {r lo hi : ℝ} (hr : 1 < r) (s : Settings) (hs : s.ratio = r) (hf : s.formal = 2) (x : Place r lo hi) {u : ℝ}
    (hu : s.est x.law.p x.triple.fine x.triple.med r 2 = .ok u) :
    checkPoint s x.triple x.law.p = .ok ⟨x.law.p,
      safety s x.law.p (|x.triple.fine| / |x.triple.med|) * (|x.triple.fine - x.law.exact| / |x.triple.fine|) * 100,
      safety s x.law.p (|x.triple.fine| / |x.triple.med|) * (|x.triple.med - x.law.exact| / |x.triple.med|) * 100,
      |x.triple.fine| / |x.triple.med|, x.law.exact, u⟩ := by
  obtain ⟨g12, g23, h1, h2, h3⟩ := asymptotic_spec x.law rfl hr x.med x.fine
  have h4 := x.law.richardson_exact hr
  have h5 : (x.law.p < 2 + s.orderTol ∧ x.law.p > 2 - s.orderTol) ↔ |x.law.p - 2| < s.orderTol := by
    rw [abs_lt]
    constructor <;> rintro ⟨a, b⟩ <;> constructor <;> linarith
  unfold checkPoint safety
  rw [hs, hf, h1, h2]
  simp only [bind, Except.bind, h3, h5]
  split
  · rw [gci_fine x.law hr x.fine (by norm_num), gci_med x.law hr x.med (by norm_num)]
    simp only [pure, Except.pure, h4, hu]
  · rw [gci_fine x.law hr x.fine (by norm_num)] at h1
    rw [gci_med x.law hr x.med (by norm_num)] at h2
    obtain rfl := Except.ok.inj h1
    obtain rfl := Except.ok.inj h2
    simp only [pure, Except.pure, h4, hu]

theorem mean_same {l : List ℝ} {p : ℝ} (h : ∀ x ∈ l, x = p) (hne : l ≠ []) : l.sum / l.length = p := by
  have hs : l.sum = l.length * p := by
    clear hne
    induction l with
    | nil => simp
    | cons a l ih =>
      rw [List.sum_cons, h a (by simp), ih fun x hx => h x (by simp [hx]), List.length_cons]
      push_cast
      ring
  have : (l.length : ℝ) ≠ 0 := by
    rw [Nat.cast_ne_zero, Ne, List.length_eq_zero_iff]; exact hne
  rw [hs, mul_comm, mul_div_assoc, div_self this, mul_one]

/-- all places at once: the observed orders are the true ones, the extrapolated values the exact ones, the uncertainties those of the estimator.
Asking for the average order changes nothing if the orders are the same everywhere. -/
theorem checkAll_law {r lo hi : ℝ} (hr : 1 < r) (s : Settings) (hs : s.ratio = r) (hlo : s.minOrder = lo) (hhi : s.maxOrder = hi) (hf : s.formal = 2)
    (xs : List (Place r lo hi)) (hne : xs ≠ []) (havg : s.useAvg = true → ∃ p, ∀ x ∈ xs, x.law.p = p) (unc : Place r lo hi → ℝ)
    (hu : ∀ x ∈ xs, s.est x.law.p x.triple.fine x.triple.med r 2 = .ok (unc x)) :
    ∃ cs, checkAll s (xs.map (·.triple)) = .ok (xs.map (·.law.p), cs) ∧ cs.map (·.extrap) = xs.map (·.law.exact) ∧
      cs.map (·.unc) = xs.map unc ∧ cs.map (·.asym) = xs.map (fun x => |x.triple.fine| / |x.triple.med|) ∧
      cs.map (·.gci12) = xs.map (fun x =>
        safety s x.law.p (|x.triple.fine| / |x.triple.med|) * (|x.triple.fine - x.law.exact| / |x.triple.fine|) * 100) ∧
      cs.map (·.gci23) = xs.map (fun x =>
        safety s x.law.p (|x.triple.fine| / |x.triple.med|) * (|x.triple.med - x.law.exact| / |x.triple.med|) * 100) := by
  have h1 : eachE (fun x : Triple => orderOf x.coarse x.med x.fine s.ratio s.minOrder s.maxOrder) (xs.map (·.triple)) = .ok (xs.map (·.law.p)) := by
    refine eachE_map xs fun x _ => ?_
    rw [hs, hlo, hhi]
    exact x.law.order_exact hr x.low x.high
  have hp : ∀ x ∈ xs, (if s.useAvg = true then (xs.map (·.law.p)).sum / (xs.map (·.law.p)).length else x.law.p) = x.law.p := by
    intro x hx
    split
    · rename_i ha
      obtain ⟨p, hp⟩ := havg ha
      rw [hp x hx]
      refine mean_same (fun y hy => ?_) (by simpa using hne)
      obtain ⟨z, hz, rfl⟩ := List.mem_map.1 hy
      exact hp z hz
    · rfl
  refine ⟨xs.map fun x => ⟨x.law.p,
      safety s x.law.p (|x.triple.fine| / |x.triple.med|) * (|x.triple.fine - x.law.exact| / |x.triple.fine|) * 100,
      safety s x.law.p (|x.triple.fine| / |x.triple.med|) * (|x.triple.med - x.law.exact| / |x.triple.med|) * 100,
      |x.triple.fine| / |x.triple.med|, x.law.exact, unc x⟩, ?_, ?_, ?_, ?_, ?_, ?_⟩
  · unfold checkAll
    rw [h1]
    dsimp only
    rw [if_neg (by simpa using hne), List.zip_map']
    rw [eachE_map xs]
    intro x hx
    dsimp only
    rw [hp x hx]
    exact checkPoint_law hr s hs hf x (hu x hx)
  all_goals
    rw [List.map_map]
    rfl

/-! ## The figures -/

theorem column_values (l : List ℝ) : (column l).values = l := by
  unfold column
  split <;> rfl

theorem column_iter (l : List ℝ) : (column l).iter = if l.length = 1 then .error .typeError else .ok l := by
  unfold column
  split
  · rfl
  · rename_i h
    rw [if_neg]
    · rfl
    · intro h1
      obtain ⟨x, rfl⟩ := List.length_eq_one_iff.1 h1
      exact h x rfl

theorem zipWith_triples {α : Type} (xs : List α) (t : α → Triple) :
    List.zipWith (fun c y => (⟨c, y.1, y.2⟩ : Triple)) (xs.map fun x => (t x).coarse) ((xs.map fun x => (t x).med).zip (xs.map fun x => (t x).fine)) =
      xs.map t := by
  induction xs with
  | nil => rfl
  | cons a l ih => simpa using ih

/-- half the width of the band where the exact value is `e` away from the fine one and the order is `p` -/
noncomputable def halfWidth (p e : ℝ) : ℝ := (if p ≤ 2 then 2.45 - 0.425 * p else 8.2 * p - 14.8) * e

/-- **C112.** The figures of `plotConvergence` for data whose errors are powers of the step, at two places or more: what is drawn, in which order,
for all choices of what to show. The orders in the second figure are the true ones, the line `_R` goes through the exact values. -/
theorem figures_exact {r lo hi : ℝ} (hr : 1 < r) (spline : List ℝ → List ℝ → Except PyErr (ℝ → ℝ)) (fs : FS) (useAvg : Bool) (sh : Show) (pre a b c : Str)
    (overwrite : Bool) (g1 g2 g3 : Given) (ps : List (ℝ × Place r lo hi)) (h2 : 2 ≤ ps.length)
    (havg : useAvg = true → ∃ p, ∀ x ∈ ps, x.2.law.p = p) (medX medY fineX fineY : List ℝ) (hm : medX.length = medY.length)
    (hf : fineX.length = fineY.length) {med fine : ℝ → ℝ} (hmed : spline medX medY = .ok med) (hfine : spline fineX fineY = .ok fine)
    (hpm : ∀ x ∈ ps, med x.1 = x.2.triple.med) (hpf : ∀ x ∈ ps, fine x.1 = x.2.triple.fine) :
    plotConvergence spline fs lo hi r useAvg sh pre (a, b, c) none overwrite g1 g2 g3 (ps.map (·.1)) (ps.map (·.2.triple.coarse)) medX medY fineX fineY =
      .ok ⟨(if sh.uncertainty then [.band (pre ++ "Uncertainty".toList) (ps.map (·.1))
            (ps.map fun x => x.2.triple.fine - halfWidth x.2.law.p |x.2.triple.fine - x.2.law.exact|)
            (ps.map fun x => x.2.triple.fine + halfWidth x.2.law.p |x.2.triple.fine - x.2.law.exact|)] else []) ++
          (if sh.coarse then [.line (pre ++ a) (ps.map (·.1)) (ps.map (·.2.triple.coarse))] else []) ++
          (if sh.med then [.line (pre ++ b) medX medY] else []) ++ (if sh.fine then [.line (pre ++ c) fineX fineY] else []) ++
          (if sh.extrap then [.line (pre ++ "_R".toList) (ps.map (·.1)) (ps.map (·.2.law.exact))] else []),
        [.line (pre ++ "Observed order of convergence".toList) (ps.map (·.1)) (ps.map (·.2.law.p)),
          .line (pre ++ "Asymptotic check".toList) (ps.map (·.1)) (ps.map fun x => |x.2.triple.fine| / |x.2.triple.med|)],
        [.line (pre ++ "Uncertainty".toList) (ps.map (·.1)) (ps.map fun x => halfWidth x.2.law.p |x.2.triple.fine - x.2.law.exact|)],
        (!g1.axes, !g2.axes, !g3.axes), []⟩ := by
  obtain ⟨cs, hc, he, hu, ha, -⟩ := checkAll_law hr ⟨r, lo, hi, 0.2, 0.05, 2, uncFS, useAvg⟩ rfl rfl rfl rfl (ps.map (·.2))
    (by intro h; rw [List.map_eq_nil_iff] at h; rw [h] at h2; simp at h2)
    (fun h => by
      obtain ⟨p, hp⟩ := havg h
      refine ⟨p, fun x hx => ?_⟩
      obtain ⟨y, hy, rfl⟩ := List.mem_map.1 hx
      exact hp y hy)
    (fun x => halfWidth x.law.p |x.triple.fine - x.law.exact|) (fun x _ => fs_uncertainty x.law hr)
  rw [List.map_map] at he hu ha hc
  have hM : (ps.map (·.1)).map med = ps.map fun x => x.2.triple.med := by
    rw [List.map_map]; exact List.map_congr_left hpm
  have hF : (ps.map (·.1)).map fine = ps.map fun x => x.2.triple.fine := by
    rw [List.map_map]; exact List.map_congr_left hpf
  have hck : checkConvergence ⟨r, lo, hi, 0.2, 0.05, 2, uncFS, useAvg⟩ (ps.map (·.2.triple.coarse)) ((ps.map (·.1)).map med) ((ps.map (·.1)).map fine) =
      .ok ⟨column (ps.map (·.2.law.p)), column (cs.map (·.gci12)), column (cs.map (·.gci23)),
        column (ps.map fun x => |x.2.triple.fine| / |x.2.triple.med|), column (ps.map (·.2.law.exact)),
        column (ps.map fun x => halfWidth x.2.law.p |x.2.triple.fine - x.2.law.exact|)⟩ := by
    unfold checkConvergence
    rw [hM, hF, zipWith_triples ps (fun x => x.2.triple)]
    rw [show (ps.map fun x => x.2.triple) = ps.map ((fun x : Place r lo hi => x.triple) ∘ fun x => x.2) from rfl, hc]
    dsimp only
    rw [he, hu, ha, List.map_map]
    rfl
  have hl : ∀ (s : Str) (f : ℝ × Place r lo hi → ℝ), line s (ps.map (·.1)) (ps.map f) = .ok (.line s (ps.map (·.1)) (ps.map f)) := by
    intro s f; unfold line; rw [if_pos (by simp)]
  have hb : ∀ (s : Str) (f g : ℝ × Place r lo hi → ℝ), band s (ps.map (·.1)) (ps.map f) (ps.map g) = .ok (.band s (ps.map (·.1)) (ps.map f) (ps.map g)) := by
    intro s f g; unfold band; rw [if_pos (by simp)]
  have hl2 : ∀ s, line s medX medY = .ok (.line s medX medY) := by intro s; unfold line; rw [if_pos hm]
  have hl3 : ∀ s, line s fineX fineY = .ok (.line s fineX fineY) := by intro s; unfold line; rw [if_pos hf]
  have hit : (column (ps.map fun x => halfWidth x.2.law.p |x.2.triple.fine - x.2.law.exact|)).iter =
      .ok (ps.map fun x => halfWidth x.2.law.p |x.2.triple.fine - x.2.law.exact|) := by
    rw [column_iter, if_neg (by rw [List.length_map]; omega)]
  unfold plotConvergence
  rw [hmed, hfine]
  simp only [bind, Except.bind]
  rw [hck]
  dsimp only
  have hres : resultMarks sh pre (a, b, c) (ps.map (·.1)) (ps.map (·.2.triple.coarse)) medX medY fineX fineY ((ps.map (·.1)).map fine)
      ⟨column (ps.map (·.2.law.p)), column (cs.map (·.gci12)), column (cs.map (·.gci23)),
        column (ps.map fun x => |x.2.triple.fine| / |x.2.triple.med|), column (ps.map (·.2.law.exact)),
        column (ps.map fun x => halfWidth x.2.law.p |x.2.triple.fine - x.2.law.exact|)⟩ =
      .ok ((if sh.uncertainty then [.band (pre ++ "Uncertainty".toList) (ps.map (·.1))
            (ps.map fun x => x.2.triple.fine - halfWidth x.2.law.p |x.2.triple.fine - x.2.law.exact|)
            (ps.map fun x => x.2.triple.fine + halfWidth x.2.law.p |x.2.triple.fine - x.2.law.exact|)] else []) ++
          (if sh.coarse then [.line (pre ++ a) (ps.map (·.1)) (ps.map (·.2.triple.coarse))] else []) ++
          (if sh.med then [.line (pre ++ b) medX medY] else []) ++ (if sh.fine then [.line (pre ++ c) fineX fineY] else []) ++
          (if sh.extrap then [.line (pre ++ "_R".toList) (ps.map (·.1)) (ps.map (·.2.law.exact))] else [])) := by
    unfold resultMarks
    rw [hF]
    simp only [hit, bind, Except.bind, pure, Except.pure, column_values, hl, hl2, hl3, List.zipWith_map, List.zipWith_self, hb]
    obtain ⟨s1, s2, s3, s4, s5⟩ := sh
    cases s1 <;> cases s2 <;> cases s3 <;> cases s4 <;> cases s5 <;> rfl
  rw [hres]
  simp only [column_values, hl, Option.isSome, Bool.and_false, Bool.or_false]

/-- **C112.** The band contains the exact value at every place, and reaches at least 60 % further. -/
theorem band_contains {p e f : ℝ} (hp : 0 < p) : f - halfWidth p |f - e| ≤ e ∧ e ≤ f + halfWidth p |f - e| ∧ 1.6 * |f - e| ≤ halfWidth p |f - e| := by
  have hn := abs_nonneg (f - e)
  have h : 1.6 * |f - e| ≤ halfWidth p |f - e| := by
    unfold halfWidth
    apply mul_le_mul_of_nonneg_right _ hn
    split
    · linarith
    · rename_i h; push Not at h; linarith
  have h' : |f - e| ≤ halfWidth p |f - e| := by linarith
  rw [abs_le] at h'
  exact ⟨by linarith, by linarith, h⟩

/-! ## Where it fails -/

/-- **C112**, violated for orders below the smallest allowed one: the error falls with the power 1/4 of the step, the observed order is limited
to 1/2, and the exact value 1 is below the band -/
theorem slow_band_violated : Nonempty (PowerLaw 3 (1 + √2) 2 4) ∧ Conv.orderOf 3 (1 + √2) 2 4 (1 / 2) 2 = .ok (1 / 2) ∧
    ∃ u, uncFS (1 / 2) 2 (1 + √2) 4 2 = .ok u ∧ (1 : ℝ) < 2 - u := by
  have h2 : √2 * √2 = (2 : ℝ) := Real.mul_self_sqrt (by norm_num)
  have h0 : 0 ≤ √(2 : ℝ) := Real.sqrt_nonneg _
  have hlt : √(2 : ℝ) < 1.4143 := by nlinarith
  have hgt : (1.4142 : ℝ) < √2 := by nlinarith
  have h4 : (4 : ℝ) ^ (1 / 4 : ℝ) = √2 := by
    rw [show (4 : ℝ) = (2 : ℝ) ^ (2 : ℝ) by norm_num, ← Real.rpow_mul (by norm_num), Real.sqrt_eq_rpow]
    norm_num
  have h16 : (4 : ℝ) ^ (1 / 2 : ℝ) = 2 := by
    rw [show (4 : ℝ) = (2 : ℝ) ^ (2 : ℝ) by norm_num, ← Real.rpow_mul (by norm_num)]
    norm_num
  have h16' : ((4 : ℝ) ^ 2) ^ (1 / 4 : ℝ) = 2 := by
    rw [show (4 : ℝ) ^ 2 = (2 : ℝ) ^ (4 : ℝ) by norm_num, ← Real.rpow_mul (by norm_num)]
    norm_num
  refine ⟨⟨⟨1, 1, 1, 1 / 4, by norm_num, by norm_num, by norm_num, ?_, ?_, ?_⟩⟩, ?_, ?_⟩
  · rw [mul_one, h16']; norm_num
  · rw [mul_one, h4]; ring
  · norm_num
  · have hb : (3 - (1 + √2)) / (1 + √2 - 2) = √(2 : ℝ) := by
      rw [div_eq_iff (by linarith)]
      nlinarith
    have hlog : 0 < Real.log 4 := Real.log_pos (by norm_num)
    unfold Conv.orderOf
    rw [if_neg (by linarith)]
    dsimp only
    rw [hb, if_neg (by linarith), if_neg (by norm_num), if_neg hlog.ne']
    have : Real.log √2 / Real.log 4 = 1 / 4 := by
      rw [← h4, Real.log_rpow (by norm_num)]
      field_simp
    rw [this]
    norm_num
  · have he : errorEstimate (1 / 2) 2 (1 + √2) 4 = .ok (√2 - 1) := by
      unfold errorEstimate
      rw [h16, if_neg (by norm_num), abs_of_neg (by linarith)]
      congr 1
      ring
    unfold uncFS
    rw [if_neg (by norm_num), he]
    dsimp only [Except.map]
    rw [if_pos (by norm_num)]
    refine ⟨_, rfl, ?_⟩
    nlinarith

/-- **C112**, violated for one place: no figure, an exception, whatever the data (if the check itself succeeds and uncertainties are shown) -/
theorem single_place_violated (spline : List ℝ → List ℝ → Except PyErr (ℝ → ℝ)) (fs : FS) (lo hi r : ℝ) (useAvg : Bool) (sh : Show) (pre : Str)
    (labels : Str × Str × Str) (dir : Option Str) (overwrite : Bool) (g1 g2 g3 : Given) (x y : ℝ) (medX medY fineX fineY : List ℝ) {med fine : ℝ → ℝ}
    (hmed : spline medX medY = .ok med) (hfine : spline fineX fineY = .ok fine) {c : Checks}
    (hc : checkConvergence ⟨r, lo, hi, 0.2, 0.05, 2, uncFS, useAvg⟩ [y] [med x] [fine x] = .ok c) (hs : sh.uncertainty = true) :
    plotConvergence spline fs lo hi r useAvg sh pre labels dir overwrite g1 g2 g3 [x] [y] medX medY fineX fineY = .error .typeError := by
  have hu : c.unc.iter = .error .typeError := by
    unfold checkConvergence at hc
    split at hc
    · cases hc
    · rename_i ps cs hcs
      obtain rfl := Except.ok.inj hc
      dsimp only
      rw [column_iter, if_pos]
      rw [List.length_map]
      unfold checkAll at hcs
      split at hcs
      · cases hcs
      · rename_i ps' hps
        split at hcs
        · cases hcs
        · split at hcs
          · cases hcs
          · rename_i cs' hcs'
            obtain ⟨rfl, rfl⟩ := Prod.mk.inj (Except.ok.inj hcs)
            rw [eachE_length hcs', List.length_zip, eachE_length hps]
            rfl
  unfold plotConvergence
  rw [hmed, hfine]
  simp only [bind, Except.bind, List.map_cons, List.map_nil]
  rw [hc]
  dsimp only
  unfold resultMarks
  simp only [hs, if_true, hu, bind, Except.bind]

/-- **C112**, violated when the figures are saved: with axes but no figure handed in for the uncertainty, the third figure cannot be written, although the
same call works for the other two figures (gridConvergenceFunctions.py:290 asks for the axes twice) -/
theorem save_given_axes_violated : 
    (∀ (fs : FS) (d : Str), saveAll fs d true [("Results".toList, true), ("Convergence".toList, true), ("Uncertainty".toList, false)] [] = .error .attributeError) ∧
    ∀ (fs : FS) (d : Str), ∃ l, saveAll fs d true [("Results".toList, true), ("Convergence".toList, true), ("Uncertainty".toList, true)] [] = .ok l := by
  constructor
  · intro fs d
    simp [saveAll, Fig.saveFigure]
  · intro fs d
    simp [saveAll, Fig.saveFigure]

/-- what is passed to `saveAll` when figures are saved: the first two figures always exist, the third unless axes without figure were handed in -/
theorem saved_figures {spline : List ℝ → List ℝ → Except PyErr (ℝ → ℝ)} {fs : FS} {lo hi r : ℝ} {useAvg : Bool} {sh : Show} {pre : Str}
    {labels : Str × Str × Str} {d : Str} {overwrite : Bool} {g1 g2 g3 : Given} {cX cY mX mY fX fY : List ℝ} {P : Panels}
    (h : plotConvergence spline fs lo hi r useAvg sh pre labels (some d) overwrite g1 g2 g3 cX cY mX mY fX fY = .ok P) :
    saveAll fs d overwrite [("Results".toList, true), ("Convergence".toList, true), ("Uncertainty".toList, !g3.axes || g3.fig)] [] = .ok P.written := by
  unfold plotConvergence at h
  simp only [bind, Except.bind] at h
  repeat' (split at h; · cases h)
  obtain rfl := Except.ok.inj h
  rename_i w hw
  have e1 : ∀ g : Given, (!g.axes || !g.fig && (some d).isSome || g.fig) = true := by rintro ⟨x, y⟩; cases x <;> cases y <;> rfl
  have e2 : ∀ g : Given, (!g.axes || !g.axes && (some d).isSome || g.fig) = (!g.axes || g.fig) := by rintro ⟨x, y⟩; cases x <;> cases y <;> rfl
  rw [e1, e1, e2] at hw
  exact hw

/-- **C112**, violated when the figures are saved: a call that hands in axes but no figure for the uncertainty does not succeed, whatever the data -/
theorem save_axes_violated (spline : List ℝ → List ℝ → Except PyErr (ℝ → ℝ)) (fs : FS) (lo hi r : ℝ) (useAvg : Bool) (sh : Show) (pre : Str)
    (labels : Str × Str × Str) (d : Str) (g1 g2 : Given) (cX cY mX mY fX fY : List ℝ) (P : Panels) :
    plotConvergence spline fs lo hi r useAvg sh pre labels (some d) true g1 g2 ⟨true, false⟩ cX cY mX mY fX fY ≠ .ok P := by
  intro h
  have := saved_figures h
  rw [show (!(⟨true, false⟩ : Given).axes || (⟨true, false⟩ : Given).fig) = false from rfl, save_given_axes_violated.1] at this
  cases this

/-! ## The hypotheses can be met -/

/-- errors proportional to the step, at steps 4, 2 and 1 -/
noncomputable def law1 (e : ℝ) : PowerLaw (e + 4) (e + 2) (e + 1) 2 :=
  ⟨e, 1, 1, 1, by norm_num, by norm_num, by norm_num, by norm_num, by norm_num, by norm_num⟩

noncomputable def place1 (e : ℝ) (h : 0 < e) : Place 2 (1 / 2) 2 :=
  ⟨⟨e + 4, e + 2, e + 1⟩, law1 e, by norm_num [law1], by norm_num [law1], (by linarith : (0 : ℝ) < e + 2).ne', (by linarith : (0 : ℝ) < e + 1).ne'⟩

/-- a spline through points on a straight line of slope 10 -/
noncomputable def straight : List ℝ → List ℝ → Except PyErr (ℝ → ℝ) := fun _ ys => .ok fun x => ys.headD 0 + 10 * x

/-- hypotheses of `figures_exact`: two places, exact values 10 and 20; only the band, which is 2.025 wide on each side, and the extrapolated values -/
example (fs : FS) : ∃ P, plotConvergence straight fs (1 / 2) 2 2 true ⟨true, false, false, false, true⟩ [] ([], [], []) none false ⟨false, false⟩ ⟨false, false⟩
    ⟨false, false⟩ [0, 1] [14, 24] [0, 1] [12, 22] [0, 1] [11, 21] = .ok P ∧
    P.results = [.band "Uncertainty".toList [0, 1] [11 - 2.025, 21 - 2.025] [11 + 2.025, 21 + 2.025], .line "_R".toList [0, 1] [10, 20]] := by
  have := figures_exact (r := 2) (lo := 1 / 2) (hi := 2) (by norm_num) straight fs true ⟨true, false, false, false, true⟩ [] [] [] [] false
    ⟨false, false⟩ ⟨false, false⟩ ⟨false, false⟩ [(0, place1 10 (by norm_num)), (1, place1 20 (by norm_num))] (by simp)
    (fun _ => ⟨1, by simp [place1, law1]⟩) [0, 1] [12, 22] [0, 1] [11, 21] rfl rfl (med := fun x => 12 + 10 * x) (fine := fun x => 11 + 10 * x) rfl rfl
    (by simp [place1]; norm_num) (by simp [place1]; norm_num)
  simp only [List.map_cons, List.map_nil] at this
  have hY : [(place1 10 (by norm_num)).triple.coarse, (place1 20 (by norm_num)).triple.coarse] = [14, 24] := by simp [place1]; norm_num
  rw [hY] at this
  refine ⟨_, this, ?_⟩
  simp [place1, law1, halfWidth]
  norm_num

/-- hypotheses of `study_first_order_violated` -/
example : ∃ L : PowerLaw 19 13 11 3, L.p = 1 :=
  ⟨⟨10, 1, 1, 1, by norm_num, by norm_num, by norm_num, by norm_num, by norm_num, by norm_num⟩, rfl⟩

/-- hypotheses of `single_place_violated` -/
example : ∃ c, checkConvergence ⟨2, 1 / 2, 2, 0.2, 0.05, 2, uncFS, false⟩ [14] [12] [11] = .ok c := by
  obtain ⟨cs, h, -⟩ := checkAll_law (r := 2) (lo := 1 / 2) (hi := 2) (by norm_num) ⟨2, 1 / 2, 2, 0.2, 0.05, 2, uncFS, false⟩ rfl rfl rfl rfl
    [place1 10 (by norm_num)] (by simp) (by simp) (fun x => halfWidth x.law.p |x.triple.fine - x.law.exact|)
    (fun x _ => fs_uncertainty x.law (by norm_num))
  have e : List.map (fun x : Place 2 (1 / 2) 2 => x.triple) [place1 10 (by norm_num)] = [⟨14, 12, 11⟩] := by
    simp [place1]; norm_num
  rw [e] at h
  unfold checkConvergence
  rw [show List.zipWith (fun c (y : ℝ × ℝ) => (⟨c, y.1, y.2⟩ : Triple)) [14] ([12].zip [11]) = [⟨14, 12, 11⟩] from rfl, h]
  exact ⟨_, rfl⟩

/-- hypotheses of `fast_covers`: order 4, limited to 2 -/
example : ∃ L : PowerLaw 266 26 11 2, (2 : ℝ) ≤ L.p :=
  ⟨⟨10, 1, 1, 4, by norm_num, by norm_num, by norm_num, by norm_num, by norm_num, by norm_num⟩, by norm_num⟩

end Mapleaf.Run.ConvPlot
