import Verif.ENV.TurbModel
import Verif.Motion.InterpProps
import Mathlib.Algebra.BigOperators.Group.List.Basic
import Mathlib.Algebra.Order.Archimedean.Basic
import Mathlib.Topology.Order.LiminfLimsup
import Mathlib.Topology.Piecewise
import Mathlib.Topology.Order.OrderClosed

/-!
# C39 (pink noise) and C40 (sine gust)
-/

namespace Mapleaf.ENV
open Mapleaf.Motion

variable {K : Type} [Field K] [LinearOrder K] [IsStrictOrderedRing K]

namespace Pink

/-- The noise sequence belonging to a sequence of Gaussian numbers: the first `n` are taken as they are, every later one is
its Gaussian number minus the weighted sum of the `n` values before it. -/
def noise (g : Nat → K) (c : List K) (n : Nat) (k : Nat) : K :=
  if k < n then g k
  else g k - ((List.range n).map fun i => c.getD i 0 * (if _h : k - 1 - i < k then noise g c n (k - 1 - i) else 0)).sum
termination_by k

theorem noise_rec (g : Nat → K) (c : List K) (n k : Nat) (hn : 0 < n) (hk : n ≤ k) :
    noise g c n k = g k - ((List.range n).map fun i => c.getD i 0 * noise g c n (k - 1 - i)).sum := by
  rw [noise, if_neg (by omega)]
  congr 2
  apply List.map_congr_left
  intro i _
  rw [dif_pos (by omega)]

theorem noise_first (g : Nat → K) (c : List K) (n k : Nat) (hk : k < n) : noise g c n k = g k := by
  rw [noise, if_pos hk]

theorem foldl_sub (l : List Nat) (f : Nat → K) (a : K) : l.foldl (fun w i => w - f i) a = a - (l.map f).sum := by
  induction l generalizing a with
  | nil => simp
  | cons i l ih => simp only [List.foldl_cons, List.map_cons, List.sum_cons]; rw [ih]; ring

/-- The invariant: `k` samples have been made, and the ring buffer holds the last `n` of them. -/
structure Good (g : Nat → K) (c : List K) (n k : Nat) (s : Pink K) : Prop where
  coeffs : s.coeffs = c
  npoles : s.n = n
  len : s.vals.length = n
  next : s.next = k % n
  drawn : s.drawn = k
  enough : n ≤ k
  held : ∀ m, m < k → k ≤ m + n → s.vals.getD (m % n) 0 = noise g c n m

theorem mod_index (k n i : Nat) (hi : i < k) : ((((k % n : Nat) : Int) - i - 1) % n).toNat = (k - 1 - i) % n := by
  have h : (((k % n : Nat) : Int) - i - 1) % n = (((k - 1 - i : Nat) : Int)) % n := by
    have e : ((k - 1 - i : Nat) : Int) = (k : Int) - (i + 1) := by omega
    rw [e, Int.sub_sub, Int.sub_emod]
    push_cast
    rw [Int.emod_emod, ← Int.sub_emod]
  rw [h]
  exact_mod_cast Int.toNat_natCast _

theorem sample_good {g : Nat → K} {c : List K} {n k : Nat} {s : Pink K} (hn : 0 < n) (h : Good g c n k s) :
    (s.sample g).1 = noise g c n k ∧ Good g c n (k + 1) (s.sample g).2 ∧ (s.sample g).2.lastT = s.lastT ∧
    (s.sample g).2.dt = s.dt := by
  have hv : (s.sample g).1 = noise g c n k := by
    unfold sample
    simp only [h.npoles, h.drawn, h.coeffs, h.next]
    rw [foldl_sub, noise_rec g c n k hn h.enough]
    congr 2
    apply List.map_congr_left
    intro i hi
    have hi' : i < n := List.mem_range.1 hi
    have := h.enough
    rw [mod_index k n i (by omega), h.held (k - 1 - i) (by omega) (by omega)]
  refine ⟨hv, ⟨h.coeffs, h.npoles, ?_, ?_, ?_, ?_, ?_⟩, rfl, rfl⟩
  · show (s.vals.set _ _).length = n
    rw [List.length_set]; exact h.len
  · show (s.next + 1) % s.n = _
    rw [h.next, h.npoles, Nat.mod_add_mod]
  · show s.drawn + 1 = _
    rw [h.drawn]
  · have := h.enough; omega
  · intro m hm hmn
    show (s.vals.set s.next (s.sample g).1).getD (m % n) 0 = _
    rw [hv, h.next]
    by_cases hmk : m = k
    · subst hmk
      rw [List.getD_eq_getElem?_getD, List.getElem?_set_self (by rw [h.len]; exact Nat.mod_lt _ hn)]
      rfl
    · have hne : k % n ≠ m % n := by
        intro he
        have h1 : (k - m) % n = 0 := Nat.sub_mod_eq_zero_of_mod_eq he
        have h2 : k - m < n := by omega
        rw [Nat.mod_eq_of_lt h2] at h1
        omega
      rw [List.getD_eq_getElem?_getD, List.getElem?_set_ne hne, ← List.getD_eq_getElem?_getD]
      exact h.held m (by omega) (by omega)

theorem warm_good {g : Nat → K} {c : List K} {n : Nat} (hn : 0 < n) (j : Nat) : ∀ (k : Nat) (s : Pink K), Good g c n k s →
    Good g c n (k + j) (warm g j s) ∧ (warm g j s).lastT = s.lastT ∧ (warm g j s).dt = s.dt := by
  induction j with
  | zero => intro k s h; exact ⟨h, rfl, rfl⟩
  | succ j ih =>
    intro k s h
    obtain ⟨_, h2, h3, h4⟩ := sample_good hn h
    obtain ⟨r1, r2, r3⟩ := ih (k + 1) _ h2
    rw [warm]
    refine ⟨?_, r2.trans h3, r3.trans h4⟩
    rw [show k + (j + 1) = k + 1 + j by omega]
    exact r1

/-- after `J` sampling steps -/
structure At (g : Nat → K) (c : List K) (n : Nat) (dt : K) (J : Nat) (s : Pink K) : Prop where
  good : Good g c n (11 * n + J) s
  time : s.lastT = J * dt
  dt : s.dt = dt

theorem init_at (g : Nat → K) (alpha : K) (n : Nat) (dt : K) (hn : 0 < n) :
    At g (coeffList alpha n) n dt 0 (init g alpha n dt) := by
  have h0 : Good g (coeffList alpha n) n n
      ⟨coeffList alpha n, n, 0, 0, dt, (List.range n).map g, n⟩ := by
    refine ⟨rfl, rfl, by simp, by simp, rfl, le_refl _, ?_⟩
    intro m hm _
    rw [Nat.mod_eq_of_lt hm, noise_first g _ n m hm, List.getD_eq_getElem?_getD]
    simp [hm]
  obtain ⟨h1, h2, h3⟩ := warm_good hn (10 * n) n _ h0
  refine ⟨?_, by rw [init, h2]; simp, by rw [init, h3]⟩
  have : 11 * n + 0 = n + 10 * n := by omega
  rw [this]; exact h1

/-- The straight line through the samples belonging to times `(j−1) dt` and `j dt`. -/
def line (g : Nat → K) (c : List K) (n : Nat) (dt : K) (j : Nat) (t : K) : K :=
  (noise g c n (11 * n + j - 2) * (j * dt - t) + noise g c n (11 * n + j - 1) * (t - ((j : K) - 1) * dt)) / dt

theorem between_at {g : Nat → K} {c : List K} {n : Nat} {dt : K} {J : Nat} {s : Pink K} (hn : 2 ≤ n) (hdt : 0 < dt)
    (h : At g c n dt J s) (t : K) :
    s.between t = .ok (line g c n dt J t) := by
  have hlen := h.good.len
  have get : ∀ d : Nat, 1 ≤ d → d ≤ n → pyGet s.vals ((s.next : Int) - d) = .ok (noise g c n (11 * n + J - d)) := by
    intro d hd1 hdn
    rw [h.good.next]
    have hheld := h.good.held (11 * n + J - d) (by omega) (by omega)
    have hidx : (11 * n + J - d) % n = if d ≤ (11 * n + J) % n then (11 * n + J) % n - d else n + (11 * n + J) % n - d := by
      have e := Nat.div_add_mod (11 * n + J) n
      have hlt := Nat.mod_lt (11 * n + J) (by omega : 0 < n)
      generalize (11 * n + J) % n = r at *
      generalize (11 * n + J) / n = q at *
      have hq : 1 ≤ q := by
        by_contra hq
        have : q = 0 := by omega
        subst this; simp at e; omega
      split
      · rw [show 11 * n + J - d = (r - d) + n * q by omega, Nat.add_mul_mod_self_left, Nat.mod_eq_of_lt (by omega)]
      · obtain ⟨q', rfl⟩ : ∃ q', q = q' + 1 := ⟨q - 1, by omega⟩
        have : n * (q' + 1) = n * q' + n := by ring
        rw [show 11 * n + J - d = (n + r - d) + n * q' by omega, Nat.add_mul_mod_self_left, Nat.mod_eq_of_lt (by omega)]
    rw [hidx] at hheld
    have hlt := Nat.mod_lt (11 * n + J) (by omega : 0 < n)
    generalize (11 * n + J) % n = r at *
    split at hheld
    · rename_i hc
      have : ((r : Int) - d) = ((r - d : Nat) : Int) := by omega
      rw [this, pyGet_nat _ _ (by omega)]
      rw [List.getD_eq_getElem?_getD, List.getElem?_eq_getElem (by omega)] at hheld
      simp only [Option.getD_some] at hheld
      rw [hheld]
    · rename_i hc
      rw [List.getD_eq_getElem?_getD, List.getElem?_eq_getElem (by omega)] at hheld
      simp only [Option.getD_some] at hheld
      have e : ((r : Int) - d + s.vals.length).toNat = n + r - d := by omega
      unfold pyGet
      simp only [if_pos (show ((r : Int) - d) < 0 by omega)]
      rw [if_neg (by omega), e, List.getElem?_eq_getElem (by omega), hheld]
  have g1 := get 1 (le_refl _) (by omega)
  have g2 := get 2 (by omega) hn
  rw [show ((1 : Nat) : Int) = 1 from rfl] at g1
  rw [show ((2 : Nat) : Int) = 2 from rfl] at g2
  unfold between line
  rw [g1, g2]
  simp only
  rw [h.dt, if_neg hdt.ne', h.time]
  congr 1
  push_cast
  field_simp
  ring

/-- One query: whatever has been asked before (up to the sampling interval of `t`), the answer is the point at time `t` of the
line through the two samples around it. -/
theorem getValue_at {g : Nat → K} {c : List K} {n : Nat} {dt : K} (hn : 2 ≤ n) (hdt : 0 < dt) (j : Nat) (t : K)
    (ht : t ≤ j * dt) (htj : j = 0 ∨ ((j : K) - 1) * dt < t) : ∀ (fuel J : Nat) (s : Pink K), At g c n dt J s → J ≤ j →
    j - J ≤ fuel → ∃ s', getValue g t fuel s = .ok (line g c n dt j t, s') ∧ At g c n dt j s' := by
  have hcast : ∀ a b : Nat, (a : K) * dt < b * dt → a < b := by
    intro a b h
    exact_mod_cast lt_of_mul_lt_mul_right h hdt.le
  intro fuel
  induction fuel with
  | zero =>
    intro J s h hJ hf
    obtain rfl : J = j := by omega
    refine ⟨s, ?_, h⟩
    unfold getValue
    rw [if_neg (by rw [h.time]; exact not_lt.2 ht), between_at hn hdt h]
  | succ f ih =>
    intro J s h hJ hf
    unfold getValue
    by_cases hlt : t > s.lastT
    · rw [if_pos hlt]
      have hJj : J + 1 ≤ j := by
        rw [h.time] at hlt
        exact hcast J j (lt_of_lt_of_le hlt ht)
      obtain ⟨e1, e2, e3, e4⟩ := sample_good (by omega) h.good
      have hAt : At g c n dt (J + 1) { (s.sample g).2 with lastT := (s.sample g).2.lastT + (s.sample g).2.dt } := by
        refine ⟨⟨e2.coeffs, e2.npoles, e2.len, e2.next, e2.drawn, e2.enough, e2.held⟩, ?_, ?_⟩
        · show (s.sample g).2.lastT + (s.sample g).2.dt = _
          rw [e3, e4, h.time, h.dt]; push_cast; ring
        · show (s.sample g).2.dt = _
          rw [e4, h.dt]
      have htime : (s.sample g).2.lastT + (s.sample g).2.dt = ((J + 1 : Nat) : K) * dt := hAt.time
      simp only
      by_cases heq : (s.sample g).2.lastT + (s.sample g).2.dt = t
      · rw [if_pos heq]
        have hj : j = J + 1 := by
          rcases htj with h0 | h1
          · omega
          · have h2 : (((j - 1 : Nat)) : K) * dt < ((J + 1 : Nat) : K) * dt := by
              rw [← htime, heq, Nat.cast_sub (by omega)]; exact_mod_cast h1
            have := hcast _ _ h2
            omega
        subst hj
        refine ⟨_, ?_, hAt⟩
        congr 2
        rw [e1]
        unfold line
        rw [← heq, htime, sub_self, mul_zero, zero_add]
        push_cast
        rw [show 11 * n + (J + 1) - 1 = 11 * n + J by omega]
        field_simp
        ring
      · rw [if_neg heq]
        exact ih (J + 1) _ hAt hJj (by omega)
    · rw [if_neg hlt]
      have hJj : J = j := by
        rcases htj with h0 | h1
        · omega
        · by_contra hne
          have : (J : K) ≤ (j : K) - 1 := by
            have : ((J + 1 : Nat) : K) ≤ (j : K) := by exact_mod_cast (by omega : J + 1 ≤ j)
            push_cast at this; linarith
          have h2 : (J : K) * dt ≤ ((j : K) - 1) * dt := mul_le_mul_of_nonneg_right this hdt.le
          rw [h.time] at hlt
          exact hlt (lt_of_le_of_lt h2 h1)
      subst hJj
      refine ⟨s, ?_, h⟩
      rw [between_at hn hdt h]

/-- every query time up to `j dt` keeps the generator at or before sample `j` -/
theorem queries_at {g : Nat → K} {c : List K} {n : Nat} {dt : K} (hn : 2 ≤ n) (hdt : 0 < dt) (j fuel : Nat) (hf : j ≤ fuel)
    (ts : List K) : ∀ (J : Nat) (s : Pink K), At g c n dt J s → J ≤ j → (∀ u ∈ ts, u ≤ j * dt) →
    ∃ vs s' J', queries g fuel s ts = .ok (vs, s') ∧ At g c n dt J' s' ∧ J' ≤ j := by
  induction ts with
  | nil => intro J s h hJ _; exact ⟨[], s, J, rfl, h, hJ⟩
  | cons u ts ih =>
    intro J s h hJ hu
    -- the sampling interval reached by the first query
    have hex : ∃ i : Nat, J ≤ i ∧ u ≤ i * dt := ⟨j, hJ, hu u (by simp)⟩
    classical
    let i := Nat.find hex
    have hi : J ≤ i ∧ u ≤ i * dt := Nat.find_spec hex
    have hij : i ≤ j := Nat.find_min' hex ⟨hJ, hu u (by simp)⟩
    by_cases hiJ : i = J
    · -- no new sample is needed
      have hnot : ¬ u > s.lastT := by rw [h.time, ← hiJ]; exact not_lt.2 hi.2
      have hgv : getValue g u fuel s = .ok (line g c n dt J u, s) := by
        unfold getValue
        rw [if_neg hnot, between_at hn hdt h]
      obtain ⟨vs, s', J', h1, h2, h3⟩ := ih J s h hJ (fun w hw => hu w (by simp [hw]))
      exact ⟨line g c n dt J u :: vs, s', J', by rw [queries, hgv]; simp only [h1], h2, h3⟩
    · have hprev : ((i : K) - 1) * dt < u := by
        have hmin := Nat.find_min hex (show i - 1 < i by omega)
        have : ¬ (u ≤ ((i - 1 : Nat) : K) * dt) := fun hle => hmin ⟨by omega, hle⟩
        rw [Nat.cast_sub (by omega)] at this
        push_cast at this
        exact not_le.1 this
      obtain ⟨s1, hgv, hs1⟩ := getValue_at (c := c) hn hdt i u hi.2 (Or.inr hprev) fuel J s h hi.1 (by omega)
      obtain ⟨vs, s', J', h1, h2, h3⟩ := ih i s1 hs1 hij (fun w hw => hu w (by simp [hw]))
      exact ⟨line g c n dt i u :: vs, s', J', by rw [queries, hgv]; simp only [h1], h2, h3⟩

/-- **C39 (partial).** For every seed (sequence of Gaussian numbers), exponent, number of poles (at least two) and sampling
interval: after any sequence of earlier queries that did not go past the end of the sampling interval of `t`, the value at
`t` is the linear interpolation of two members of the noise sequence that depend only on the seed and on `t`. So the order
and the number of the earlier queries do not matter. Missing: a query that goes back to an earlier sampling interval
(`backwards_violated`). -/
theorem function_of_time_partial (g : Nat → K) (alpha : K) (n : Nat) (dt : K) (hn : 2 ≤ n) (hdt : 0 < dt)
    (j : Nat) (t : K) (ht : t ≤ j * dt) (htj : j = 0 ∨ ((j : K) - 1) * dt < t)
    (earlier : List K) (he : ∀ u ∈ earlier, u ≤ j * dt) (fuel : Nat) (hf : j ≤ fuel) :
    ∃ vs s v s', queries g fuel (init g alpha n dt) earlier = .ok (vs, s) ∧ getValue g t fuel s = .ok (v, s') ∧
      v = (noise g (coeffList alpha n) n (11 * n + j - 2) * (j * dt - t) +
        noise g (coeffList alpha n) n (11 * n + j - 1) * (t - ((j : K) - 1) * dt)) / dt := by
  obtain ⟨vs, s, J, h1, h2, h3⟩ := queries_at hn hdt j fuel hf earlier 0 _ (init_at g alpha n dt (by omega)) (by omega) he
  obtain ⟨s', h4, _⟩ := getValue_at hn hdt j t ht htj fuel J s h2 h3 (by omega)
  exact ⟨vs, s, _, s', h1, h4, rfl⟩

/-- In particular any two simulations with the same seed whose query times never go back more than to the current sampling
interval see the same turbulence at `t`, whatever their time steps. -/
theorem same_for_all_steps (g : Nat → K) (alpha : K) (n : Nat) (dt : K) (hn : 2 ≤ n) (hdt : 0 < dt)
    (j : Nat) (t : K) (ht : t ≤ j * dt) (htj : j = 0 ∨ ((j : K) - 1) * dt < t)
    (e1 e2 : List K) (h1 : ∀ u ∈ e1, u ≤ j * dt) (h2 : ∀ u ∈ e2, u ≤ j * dt) (fuel : Nat) (hf : j ≤ fuel) :
    ∃ v s1 s2 r1 r2 w1 w2, queries g fuel (init g alpha n dt) e1 = .ok (w1, s1) ∧
      queries g fuel (init g alpha n dt) e2 = .ok (w2, s2) ∧
      getValue g t fuel s1 = .ok (v, r1) ∧ getValue g t fuel s2 = .ok (v, r2) := by
  obtain ⟨w1, s1, v1, r1, a1, a2, a3⟩ := function_of_time_partial g alpha n dt hn hdt j t ht htj e1 h1 fuel hf
  obtain ⟨w2, s2, v2, r2, b1, b2, b3⟩ := function_of_time_partial g alpha n dt hn hdt j t ht htj e2 h2 fuel hf
  exact ⟨v1, s1, s2, r1, r2, w1, w2, a1, b1, a2, by rw [b2, a3, b3]⟩

/-- The curve the values lie on is continuous: neighbouring lines agree at the sample between them, and there the value is
the sample itself. -/
theorem line_nodes (g : Nat → K) (c : List K) (n : Nat) (dt : K) (hn : 1 ≤ n) (hdt : 0 < dt) (j : Nat) :
    line g c n dt j (j * dt) = noise g c n (11 * n + j - 1) ∧
    line g c n dt (j + 1) (j * dt) = noise g c n (11 * n + j - 1) := by
  constructor
  · unfold line
    rw [sub_self, mul_zero, zero_add]; field_simp; ring
  · unfold line
    push_cast
    rw [show 11 * n + (j + 1) - 2 = 11 * n + j - 1 by omega]
    field_simp; ring

/-- The noise sequence, characterised without reference to the program: it is the only sequence that starts with the `n`
Gaussian numbers and satisfies the autoregression. -/
theorem noise_unique (g : Nat → K) (c : List K) (n : Nat) (hn : 0 < n) (x : Nat → K) (h0 : ∀ k < n, x k = g k)
    (h1 : ∀ k, n ≤ k → x k + ∑ i ∈ Finset.range n, c.getD i 0 * x (k - 1 - i) = g k) (k : Nat) :
    x k = noise g c n k := by
  induction k using Nat.strong_induction_on with
  | _ k ih =>
    by_cases hk : k < n
    · rw [h0 k hk, noise_first g c n k hk]
    · rw [noise_rec g c n k hn (by omega), ← h1 k (by omega)]
      rw [Finset.sum_range, ← List.sum_ofFn]
      have : (List.range n).map (fun i => c.getD i 0 * noise g c n (k - 1 - i)) =
          List.ofFn (fun i : Fin n => c.getD i 0 * x (k - 1 - i)) := by
        apply List.ext_getElem
        · simp
        · intro m hm1 hm2
          simp only [List.length_map, List.length_range] at hm1
          simp only [List.getElem_map, List.getElem_range, List.getElem_ofFn]
          rw [ih (k - 1 - m) (by omega)]
      rw [this]; ring

/-- **C39 (violated).** Asking for an earlier time again, after a later time has been asked for, gives a different value: the
program extrapolates the latest segment backwards. Here two poles, 20 Hz, and white noise that is zero except for one
number. -/
theorem backwards_violated : ∃ (g : Nat → ℚ) (u v w : ℚ), v ≠ w ∧
    ((queries g 10 (init g (5/3) 2 (1/20)) [1/40, 1/10, 1/40]).toOption.map Prod.fst) = some [v, u, w] :=
  ⟨fun k => if k = 23 then 1 else 0, 1, 0, -1/2, by norm_num, by decide +kernel⟩

/-- a case meeting the hypotheses: third sampling interval, three earlier queries out of order -/
example : ∃ vs s v s', queries (fun k => (k : ℚ)) 5 (init (fun k => (k : ℚ)) (5/3) 2 (1/20)) [1/100, 1/8, 0] = .ok (vs, s) ∧
    getValue (fun k => (k : ℚ)) (1/8) 5 s = .ok (v, s') ∧ v = (noise (fun k => (k : ℚ)) (coeffList (5/3) 2) 2 (11 * 2 + 3 - 2) *
      ((3 : Nat) * (1/20) - 1/8) + noise (fun k => (k : ℚ)) (coeffList (5/3) 2) 2 (11 * 2 + 3 - 1) *
      (1/8 - (((3 : Nat) : ℚ) - 1) * (1/20))) / (1/20) :=
  function_of_time_partial _ (5/3) 2 (1/20) (by norm_num) (by norm_num) 3 (1/8) (by norm_num) (Or.inr (by norm_num)) _
    (by intro u hu; simp at hu; rcases hu with rfl | rfl | rfl <;> norm_num) 5 (by norm_num)

end Pink

/-! ### The turbulence models built from the generators -/

open Pink in
/-- **C39 (1D).** The turbulence is along the mean wind, its size the noise value times the desired standard deviation. -/
theorem turb1_spec (g : Nat → ℝ) (c : List ℝ) (n : Nat) (dt : ℝ) (hn : 2 ≤ n) (hdt : 0 < dt) (J j : Nat) (p : Pink ℝ)
    (hp : At g c n dt J p) (hJ : J ≤ j) (t : ℝ) (ht : t ≤ j * dt) (htj : j = 0 ∨ ((j : ℝ) - 1) * dt < t) (fuel : Nat)
    (hf : j ≤ fuel) (sd : ℝ) (w : V3 ℝ) : ∃ p', turb1 g fuel p sd w t = .ok ((line g c n dt j t * sd) • w.normalize, p') ∧
      At g c n dt j p' := by
  obtain ⟨p', h1, h2⟩ := getValue_at hn hdt j t ht htj fuel J p hp hJ (by omega)
  exact ⟨p', by unfold turb1; rw [h1], h2⟩

open Pink in
/-- **C39 (2D).** Two independent generators for x and y, no vertical component. -/
theorem turb2_spec (g1 g2 : Nat → ℝ) (c : List ℝ) (n : Nat) (dt : ℝ) (hn : 2 ≤ n) (hdt : 0 < dt) (J1 J2 j : Nat)
    (p1 p2 : Pink ℝ) (hp1 : At g1 c n dt J1 p1) (hp2 : At g2 c n dt J2 p2) (hJ1 : J1 ≤ j) (hJ2 : J2 ≤ j) (t : ℝ)
    (ht : t ≤ j * dt) (htj : j = 0 ∨ ((j : ℝ) - 1) * dt < t) (fuel : Nat) (hf : j ≤ fuel) (sd : ℝ) :
    ∃ q1 q2, turb2 g1 g2 fuel p1 p2 sd t = .ok (⟨line g1 c n dt j t * sd, line g2 c n dt j t * sd, 0⟩, q1, q2) ∧
      At g1 c n dt j q1 ∧ At g2 c n dt j q2 := by
  obtain ⟨q1, h1, h2⟩ := getValue_at hn hdt j t ht htj fuel J1 p1 hp1 hJ1 (by omega)
  obtain ⟨q2, h3, h4⟩ := getValue_at hn hdt j t ht htj fuel J2 p2 hp2 hJ2 (by omega)
  exact ⟨q1, q2, by unfold turb2; rw [h1]; simp only [h3], h2, h4⟩

open Pink in
/-- **C39 (3D, violated).** The vertical component always equals the y component, for every pair of generators, state and time:
the third generator is never used. -/
theorem turb3_vertical_violated (g1 g2 : Nat → ℝ) (c : List ℝ) (n : Nat) (dt : ℝ) (hn : 2 ≤ n) (hdt : 0 < dt)
    (J1 J2 j : Nat) (p1 p2 : Pink ℝ) (hp1 : At g1 c n dt J1 p1) (hp2 : At g2 c n dt J2 p2) (hJ1 : J1 ≤ j) (hJ2 : J2 ≤ j)
    (t : ℝ) (ht : t ≤ j * dt) (htj : j = 0 ∨ ((j : ℝ) - 1) * dt < t) (fuel : Nat) (hf : j ≤ fuel) (sd : ℝ) :
    ∃ q1 q2, turb3 g1 g2 fuel p1 p2 sd t =
      .ok (⟨line g1 c n dt j t * sd, line g2 c n dt j t * sd, line g2 c n dt j t * sd⟩, q1, q2) := by
  obtain ⟨q1, h1, h2⟩ := getValue_at hn hdt j t ht htj fuel J1 p1 hp1 hJ1 (by omega)
  obtain ⟨q2, h3, h4⟩ := getValue_at hn hdt j t ht htj fuel J2 p2 hp2 hJ2 (by omega)
  obtain ⟨q3, h5, h6⟩ := getValue_at hn hdt j t ht htj fuel j q2 h4 (le_refl _) (by omega)
  exact ⟨q1, q3, by unfold turb3; rw [h1]; simp only [h3, h5]⟩

/-- a freshly built generator is in the state the three theorems above start from -/
example : Pink.At (fun k => (k : ℝ)) (Pink.coeffList (5/3) 2) 2 (1/20) 0 (Pink.init (fun k => (k : ℝ)) (5/3) 2 (1/20)) :=
  Pink.init_at _ _ 2 _ (by norm_num)

/-! ### C40: the sine gust -/

namespace SineGust
open Classical

/-- the one-minus-cosine profile as a function of altitude -/
noncomputable def profile (s : SineGust) (h : ℝ) : ℝ :=
  if h ≤ s.start then 0
  else if h ≤ s.start + s.blend then s.magnitude * (1 - Real.cos (Real.pi * ((h - s.start) / s.blend))) / 2
  else if h ≤ s.start + s.blend + s.thickness then s.magnitude
  else if h ≤ s.start + s.blend + s.thickness + s.blend then
    s.magnitude * (1 - Real.cos (Real.pi * ((s.start + s.blend + s.thickness + s.blend - h) / s.blend))) / 2
  else 0

/-- **C40.** The gust is along its direction and follows the one-minus-cosine profile, for every altitude and every gust with
positive blend distance and nonnegative thickness. -/
theorem velocity_profile (s : SineGust) (hb : 0 < s.blend) (ht : 0 ≤ s.thickness) (h : ℝ) :
    s.velocity h = (s.profile h) • s.direction := by
  have zero : (0 : V3 ℝ) = (0 : ℝ) • s.direction := by
    apply V3.ext' <;> simp [V3.smul_x, V3.smul_y, V3.smul_z]
  unfold velocity profile b1 b2 b3
  by_cases h0 : h > s.start
  · rw [if_pos h0, if_neg (not_le.2 h0)]
    by_cases h1 : h < s.start + s.blend
    · rw [if_pos h1, if_pos h1.le]
      congr 1
      rw [mul_div_assoc]; ring
    · rw [if_neg h1]
      by_cases h1' : h ≤ s.start + s.blend
      · obtain rfl : h = s.start + s.blend := le_antisymm h1' (not_lt.1 h1)
        rw [if_pos (le_refl _)]
        have e : Real.cos (Real.pi * ((s.start + s.blend - s.start) / s.blend)) = -1 := by
          rw [add_sub_cancel_left, div_self hb.ne', mul_one, Real.cos_pi]
        rw [e]
        by_cases ht0 : s.thickness = 0
        · rw [ht0, if_neg (by simp), if_pos (by linarith)]
          have : Real.pi * (s.start + s.blend - s.start - (s.start + s.blend + 0 + s.blend - s.start)) / s.blend = -Real.pi := by
            field_simp; ring
          rw [this, Real.cos_neg, Real.cos_pi]; congr 1; ring
        · rw [if_pos (by have := lt_of_le_of_ne ht (Ne.symm ht0); linarith)]; congr 1; ring
      · rw [if_neg h1']
        by_cases h2 : h < s.start + s.blend + s.thickness
        · rw [if_pos h2, if_pos h2.le]
        · rw [if_neg h2]
          have key : Real.cos (Real.pi * (h - s.start - (s.start + s.blend + s.thickness + s.blend - s.start)) / s.blend) =
              Real.cos (Real.pi * ((s.start + s.blend + s.thickness + s.blend - h) / s.blend)) := by
            rw [← Real.cos_neg]; congr 1; field_simp; ring
          by_cases h2' : h ≤ s.start + s.blend + s.thickness
          · obtain rfl : h = s.start + s.blend + s.thickness := le_antisymm h2' (not_lt.1 h2)
            rw [if_pos (le_refl _), if_pos (by linarith), key]
            have e : Real.cos (Real.pi * ((s.start + s.blend + s.thickness + s.blend -
                (s.start + s.blend + s.thickness)) / s.blend)) = -1 := by
              rw [add_sub_cancel_left, div_self hb.ne', mul_one, Real.cos_pi]
            rw [e]; congr 1; ring
          · rw [if_neg h2']
            by_cases h3 : h < s.start + s.blend + s.thickness + s.blend
            · rw [if_pos h3, if_pos h3.le, key]; congr 1; ring
            · rw [if_neg h3]
              by_cases h3' : h ≤ s.start + s.blend + s.thickness + s.blend
              · obtain rfl := le_antisymm h3' (not_lt.1 h3)
                rw [if_pos (le_refl _), sub_self, zero_div, mul_zero, Real.cos_zero, zero]
                congr 1; ring
              · rw [if_neg h3', zero]
  · rw [if_neg h0, if_pos (not_lt.1 h0), zero]

/-- **C40.** No gust at or below its start and from its end upwards, whatever the parameters. -/
theorem velocity_outside (s : SineGust) (h : ℝ) (hb : 0 ≤ s.blend) (ht : 0 ≤ s.thickness)
    (ho : h ≤ s.start ∨ s.start + 2 * s.blend + s.thickness ≤ h) : s.velocity h = 0 := by
  unfold velocity b1 b2 b3
  rcases ho with ho | ho
  · rw [if_neg (not_lt.2 ho)]
  · by_cases h0 : h > s.start
    · rw [if_pos h0, if_neg (not_lt.2 (by linarith)), if_neg (not_lt.2 (by linarith)), if_neg (not_lt.2 (by linarith))]
    · rw [if_neg h0]

/-- **C40.** Full strength on the plateau. -/
theorem velocity_plateau (s : SineGust) (h : ℝ) (hb : 0 < s.blend) (ht : 0 ≤ s.thickness) (h1 : s.start + s.blend ≤ h)
    (h2 : h ≤ s.start + s.blend + s.thickness) : s.velocity h = s.magnitude • s.direction := by
  rw [velocity_profile s hb ht]
  congr 1
  unfold profile
  rw [if_neg (by linarith)]
  by_cases h1' : h ≤ s.start + s.blend
  · obtain rfl := le_antisymm h1' h1
    rw [if_pos (le_refl _), add_sub_cancel_left, div_self hb.ne', mul_one, Real.cos_pi]; ring
  · rw [if_neg h1', if_pos h2]

/-- **C40.** Never stronger than its magnitude, and never reversed. -/
theorem profile_bounds (s : SineGust) (hm : 0 ≤ s.magnitude) (h : ℝ) : 0 ≤ s.profile h ∧ s.profile h ≤ s.magnitude := by
  have key : ∀ x : ℝ, 0 ≤ s.magnitude * (1 - Real.cos x) / 2 ∧ s.magnitude * (1 - Real.cos x) / 2 ≤ s.magnitude := by
    intro x
    have h1 := Real.cos_le_one x
    have h2 := Real.neg_one_le_cos x
    constructor
    · exact div_nonneg (mul_nonneg hm (by linarith)) (by norm_num)
    · nlinarith
  unfold profile
  split_ifs
  · exact ⟨le_refl _, hm⟩
  · exact key _
  · exact ⟨hm, le_refl _⟩
  · exact key _
  · exact ⟨le_refl _, hm⟩

/-- **C40.** The gust varies continuously with altitude. -/
theorem profile_continuous (s : SineGust) (hb : 0 < s.blend) (ht : 0 ≤ s.thickness) : Continuous s.profile := by
  have hc1 : Continuous fun h => s.magnitude * (1 - Real.cos (Real.pi * ((h - s.start) / s.blend))) / 2 := by fun_prop
  have hc2 : Continuous fun h => s.magnitude *
      (1 - Real.cos (Real.pi * ((s.start + s.blend + s.thickness + s.blend - h) / s.blend))) / 2 := by fun_prop
  unfold profile
  refine continuous_if_le continuous_id continuous_const continuousOn_const (Continuous.continuousOn ?_) ?_
  · refine continuous_if_le continuous_id continuous_const hc1.continuousOn (Continuous.continuousOn ?_) ?_
    · refine continuous_if_le continuous_id continuous_const continuousOn_const (Continuous.continuousOn ?_) ?_
      · refine continuous_if_le continuous_id continuous_const hc2.continuousOn continuousOn_const ?_
        rintro h rfl
        simp
      · rintro h rfl
        rw [if_pos (by linarith)]
        simp only [add_sub_cancel_left, div_self hb.ne', mul_one, Real.cos_pi]; ring
    · rintro h rfl
      rw [if_pos (by linarith)]
      simp only [add_sub_cancel_left, div_self hb.ne', mul_one, Real.cos_pi]; ring
  · rintro h rfl
    rw [if_pos (by linarith)]
    simp

/-- **C40.** The three components of the gust velocity vary continuously with altitude. -/
theorem velocity_continuous (s : SineGust) (hb : 0 < s.blend) (ht : 0 ≤ s.thickness) :
    Continuous (fun h => (s.velocity h).x) ∧ Continuous (fun h => (s.velocity h).y) ∧
    Continuous (fun h => (s.velocity h).z) := by
  have hc := profile_continuous s hb ht
  simp only [velocity_profile s hb ht, V3.smul_x, V3.smul_y, V3.smul_z]
  exact ⟨continuous_const.mul hc, continuous_const.mul hc, continuous_const.mul hc⟩

/-- **C40 (violated at zero blend distance).** With no blend distance the gust switches on at its start without a transition;
the program accepts this and does not divide by zero. -/
theorem zero_blend (s : SineGust) (hb : s.blend = 0) (h : ℝ) :
    s.velocity h = if s.start < h ∧ h < s.start + s.thickness then s.magnitude • s.direction else 0 := by
  unfold velocity b1 b2 b3
  rw [hb]
  simp only [add_zero]
  by_cases h0 : s.start < h
  · rw [if_pos h0, if_neg (not_lt.2 h0.le)]
    by_cases h1 : h < s.start + s.thickness
    · rw [if_pos h1, if_pos ⟨h0, h1⟩]
    · rw [if_neg h1, if_neg h1, if_neg (fun hh => h1 hh.2)]
  · rw [if_neg h0, if_neg (fun hh => h0 hh.1)]

/-- a gust meeting the hypotheses, half way up its lower blend -/
example : (⟨1000, 100, 50, 8, ⟨1, 0, 0⟩⟩ : SineGust).velocity 1050 = ⟨4, 0, 0⟩ := by
  have h := velocity_profile ⟨1000, 100, 50, 8, ⟨1, 0, 0⟩⟩ (by norm_num) (by norm_num) 1050
  rw [h]
  have e : (⟨1000, 100, 50, 8, ⟨1, 0, 0⟩⟩ : SineGust).profile 1050 = 4 := by
    unfold profile
    norm_num
    rw [show Real.pi * (1 / 2) = Real.pi / 2 by ring, Real.cos_pi_div_two]; norm_num
  rw [e]
  apply V3.ext' <;> simp [V3.smul_x, V3.smul_y, V3.smul_z]

end SineGust

/-- **C39.** The filter coefficients are those of the `1/f^α` filter: the `k`-th one is `∏_{j<k} (j - α/2)/(j+1)`, the
coefficient of `z^k` in the binomial series of `(1 - z)^(α/2)`; the leading 1 is not stored. -/
theorem coeffList_spec {K : Type} [Field K] (alpha : K) (n : Nat) :
    (Pink.coeffList alpha n).length = n ∧
    ∀ i (h : i < (Pink.coeffList alpha n).length),
      (Pink.coeffList alpha n)[i] = ((List.range (i + 1)).map fun j : Nat => ((j : K) - alpha / 2) / ((j : K) + 1)).prod := by
  have hc : ∀ k, Pink.coeff alpha k = ((List.range k).map fun j : Nat => ((j : K) - alpha / 2) / ((j : K) + 1)).prod := by
    intro k
    induction k with
    | zero => rfl
    | succ k ih =>
      rw [List.range_succ, List.map_append, List.prod_append, ← ih]
      simp only [List.map_cons, List.map_nil, List.prod_cons, List.prod_nil, mul_one]
      show ((k : K) - alpha / 2) * Pink.coeff alpha k / ((k : K) + 1) = _
      rw [mul_comm, mul_div_assoc]
  refine ⟨by simp [Pink.coeffList], ?_⟩
  intro i h
  simp only [Pink.coeffList, List.getElem_map, List.getElem_range]
  exact hc _

example : Pink.coeffList (5/3 : ℚ) 2 = [-5/6, -5/72] := by decide +kernel

/-- **C39.** The turbulence's standard deviation: the mean wind speed times the intensity when an intensity is given (whatever
the absolute value), otherwise the given standard deviation; neither raises. -/
theorem desiredStdDev_spec (intensity stdDev : Option ℝ) (m : V3 ℝ) :
    (∀ i, intensity = some i → desiredStdDev intensity stdDev m = .ok (i * Real.sqrt (m.x ^ 2 + m.y ^ 2 + m.z ^ 2))) ∧
    (intensity = none → ∀ s, stdDev = some s → desiredStdDev intensity stdDev m = .ok s) ∧
    (intensity = none → stdDev = none → desiredStdDev intensity stdDev m = .error .typeError) := by
  refine ⟨?_, ?_, ?_⟩
  · rintro i rfl
    show Except.ok (m.length * i) = _
    rw [mul_comm, V3.length]
    congr 3
    ring
  · rintro rfl s rfl; rfl
  · rintro rfl rfl; rfl

end Mapleaf.ENV
