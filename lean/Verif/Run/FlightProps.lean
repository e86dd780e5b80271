import Verif.Run.FlightModel
import Mathlib.Tactic.Linarith
import Mathlib.Tactic.FieldSimp
import Mathlib.Tactic.NormNum

/-!
# Flight summary numbers (C51)
-/

namespace Mapleaf.Run

open Mapleaf.Motion

/-- the loop computes the maximum of the start value and all values: it is not exceeded anywhere and it is
attained -/
theorem runningMax_spec (start : ℝ) (f : Rec → ℝ) (states : List Rec) :
    start ≤ runningMax start f states ∧ (∀ s ∈ states, f s ≤ runningMax start f states) ∧
      (runningMax start f states = start ∨ ∃ s ∈ states, f s = runningMax start f states) := by
  induction states generalizing start with
  | nil => simp [runningMax]
  | cons a l ih =>
    have e : runningMax start f (a :: l) = runningMax (if start < f a then f a else start) f l := by
      simp [runningMax]
    rw [e]
    obtain ⟨h1, h2, h3⟩ := ih (if start < f a then f a else start)
    refine ⟨?_, ?_, ?_⟩
    · refine le_trans ?_ h1
      split_ifs with h
      · exact h.le
      · exact le_refl _
    · intro s hs
      rcases List.mem_cons.1 hs with rfl | hs
      · refine le_trans ?_ h1
        split_ifs with h
        · exact le_refl _
        · exact not_lt.1 h
      · exact h2 s hs
    · rcases h3 with h3 | ⟨s, hs, h3⟩
      · by_cases h : start < f a
        · simp only [h, if_true] at h3 ⊢
          exact Or.inr ⟨a, by simp, h3.symm⟩
        · simp only [h, if_false] at h3 ⊢
          exact Or.inl h3
      · exact Or.inr ⟨s, by simp [hs], h3⟩

/-- **Apogee.**  For a recorded flight that is somewhere above −10 000 km, the reported apogee is the
altitude of some recorded state, and no recorded state is higher. -/
theorem apogee_spec {states : List Rec} {s₀ : Rec} (h0 : s₀ ∈ states) (hz : -10000000 ≤ s₀.pos.z) :
    (∃ s ∈ states, s.pos.z = getApogee states) ∧ ∀ s ∈ states, s.pos.z ≤ getApogee states := by
  obtain ⟨h1, h2, h3⟩ := runningMax_spec (-10000000) (fun s => s.pos.z) states
  refine ⟨?_, h2⟩
  rcases h3 with h3 | h3
  · refine ⟨s₀, h0, le_antisymm (h2 s₀ h0) ?_⟩
    show runningMax _ _ _ ≤ _
    rw [h3]; exact hz
  · exact h3

example : ∃ s ∈ [(⟨⟨0, 0, 5⟩, ⟨3, 0, 4⟩⟩ : Rec)], s.pos.z = getApogee [⟨⟨0, 0, 5⟩, ⟨3, 0, 4⟩⟩] :=
  (apogee_spec (s₀ := ⟨⟨0, 0, 5⟩, ⟨3, 0, 4⟩⟩) (by simp) (by norm_num)).1

/-- **Maximum speed** of a nonempty flight: attained and not exceeded -/
theorem maxSpeed_spec {states : List Rec} (hne : states ≠ []) :
    (∃ s ∈ states, s.vel.length = getMaxSpeed states) ∧ ∀ s ∈ states, s.vel.length ≤ getMaxSpeed states := by
  obtain ⟨h1, h2, h3⟩ := runningMax_spec 0 (fun s => s.vel.length) states
  refine ⟨?_, h2⟩
  rcases h3 with h3 | h3
  · obtain ⟨s, hs⟩ := List.exists_mem_of_ne_nil states hne
    refine ⟨s, hs, le_antisymm (h2 s hs) ?_⟩
    show runningMax _ _ _ ≤ _
    rw [h3]; exact Real.sqrt_nonneg _
  · exact h3

/-- **Maximum horizontal speed** of a nonempty flight: attained and not exceeded; it is at most the maximum
speed -/
theorem maxHorizontalVel_spec {states : List Rec} (hne : states ≠ []) :
    (∃ s ∈ states, Real.sqrt (s.vel.x ^ 2 + s.vel.y ^ 2) = getMaxHorizontalVel states) ∧
    (∀ s ∈ states, Real.sqrt (s.vel.x ^ 2 + s.vel.y ^ 2) ≤ getMaxHorizontalVel states) ∧
    getMaxHorizontalVel states ≤ getMaxSpeed states := by
  obtain ⟨h1, h2, h3⟩ := runningMax_spec 0 (fun s => Real.sqrt (s.vel.x ^ 2 + s.vel.y ^ 2)) states
  have hatt : ∃ s ∈ states, Real.sqrt (s.vel.x ^ 2 + s.vel.y ^ 2) = getMaxHorizontalVel states := by
    rcases h3 with h3 | h3
    · obtain ⟨s, hs⟩ := List.exists_mem_of_ne_nil states hne
      refine ⟨s, hs, le_antisymm (h2 s hs) ?_⟩
      show runningMax _ _ _ ≤ _
      rw [h3]; exact Real.sqrt_nonneg _
    · exact h3
  refine ⟨hatt, h2, ?_⟩
  obtain ⟨s, hs, he⟩ := hatt
  rw [← he]
  refine le_trans ?_ ((maxSpeed_spec hne).2 s hs)
  unfold V3.length
  apply Real.sqrt_le_sqrt
  nlinarith [mul_self_nonneg s.vel.z]

/-- The two horizontal components never exceed the reported maximum, and the climb rate never exceeds the
maximum speed -/
theorem speed_components {states : List Rec} {s : Rec} (hs : s ∈ states) :
    |s.vel.x| ≤ getMaxHorizontalVel states ∧ |s.vel.y| ≤ getMaxHorizontalVel states ∧
      |s.vel.z| ≤ getMaxSpeed states := by
  have hne : states ≠ [] := List.ne_nil_of_mem hs
  have h := (maxHorizontalVel_spec hne).2.1 s hs
  refine ⟨le_trans ?_ h, le_trans ?_ h, le_trans ?_ ((maxSpeed_spec hne).2 s hs)⟩
  · rw [← Real.sqrt_sq_eq_abs]; apply Real.sqrt_le_sqrt; nlinarith [sq_nonneg s.vel.y]
  · rw [← Real.sqrt_sq_eq_abs]; apply Real.sqrt_le_sqrt; nlinarith [sq_nonneg s.vel.x]
  · rw [← Real.sqrt_sq_eq_abs]; unfold V3.length; apply Real.sqrt_le_sqrt
    nlinarith [sq_nonneg s.vel.x, sq_nonneg s.vel.y]

/-- **Violation.**  A flight recorded more than 10 000 km below the origin plane (possible in Earth-centred
coordinates, where Z is the polar axis) reports an apogee it never had. -/
theorem apogee_violated :
    ∃ states : List Rec, states ≠ [] ∧ ∀ s ∈ states, s.pos.z ≠ getApogee states := by
  refine ⟨[⟨⟨0, 0, -20000000⟩, ⟨0, 0, 0⟩⟩], by simp, ?_⟩
  intro s hs
  simp at hs
  subst hs
  simp [getApogee, runningMax]
  norm_num

variable {K : Type} [Field K] [LinearOrder K] [IsStrictOrderedRing K]

/-- **Landing location.**  The result is exactly this: if the last height is more than twice the last height
change, the point at height zero of the line through the last two positions; otherwise the last position.
In particular a result different from the last position has height zero and lies on that line. -/
theorem landing_spec (p q : V3 K) (hdz : q.z ≠ p.z) :
    ∃ r, landing p q = .ok r ∧
      (r = q ∨ r.z = 0) ∧
      ∃ t : K, r = ⟨q.x + t * (q.x - p.x), q.y + t * (q.y - p.y), q.z + t * (q.z - p.z)⟩ ∧
        ((q.z - p.z) * 2 < q.z → t = -q.z / (q.z - p.z)) ∧ (¬ (q.z - p.z) * 2 < q.z → t = 0) := by
  have h : q.z - p.z ≠ 0 := sub_ne_zero.2 hdz
  unfold landing
  by_cases hc : (q.z - p.z) * 2 < q.z
  · simp only [hc, if_true, h, if_false]
    refine ⟨_, rfl, Or.inr rfl, -q.z / (q.z - p.z), ?_, by simp, by simp⟩
    ext <;> simp only
    · field_simp
    · field_simp
    · field_simp; ring
  · simp only [hc, if_false]
    refine ⟨q, rfl, Or.inl rfl, 0, ?_, by simp, by simp⟩
    ext <;> simp

/-- Exactly the last two recorded positions matter, and exactly these flights raise: fewer than two states, or
level at the end above the ground. -/
theorem getLandingLocation_spec (l : List (V3 K)) (p q : V3 K) :
    getLandingLocation (l ++ [p, q]) = landing p q ∧
    ((∃ e, landing p q = .error e) ↔ q.z = p.z ∧ 0 < q.z) ∧
    (q.z = p.z → q.z ≤ 0 → landing p q = .ok q) := by
  refine ⟨by simp [getLandingLocation], ?_, ?_⟩
  · unfold landing
    simp only
    constructor
    · rintro ⟨e, h⟩
      split_ifs at h with h1 h2
      have h2 := sub_eq_zero.1 h2
      rw [h2] at h1 ⊢
      exact ⟨rfl, by simpa using h1⟩
    · rintro ⟨h1, h2⟩
      exact ⟨.zeroDivision, by rw [h1] at h2 ⊢; simp [h2]⟩
  · intro h1 h2
    unfold landing
    simp [h1] at h2 ⊢
    exact h2

/-- When the last step passes through the ground the landing point lies between the last two positions -/
theorem landing_between (p q : V3 K) (hp : 0 ≤ p.z) (hq : q.z ≤ 0) (hpq : q.z < p.z) :
    ∃ s : K, 0 ≤ s ∧ s ≤ 1 ∧
      landing p q = .ok ⟨p.x + s * (q.x - p.x), p.y + s * (q.y - p.y), 0⟩ := by
  have h : q.z - p.z ≠ 0 := by intro h; linarith
  have hd : 0 < p.z - q.z := by linarith
  refine ⟨p.z / (p.z - q.z), div_nonneg hp hd.le, by rw [div_le_one hd]; linarith, ?_⟩
  have hc : (q.z - p.z) * 2 < q.z := by linarith
  unfold landing
  simp only [hc, if_true, h, if_false, Except.ok.injEq]
  have h2 : p.z - q.z ≠ 0 := hd.ne'
  ext <;> simp only
  · field_simp; ring
  · field_simp; ring

/-- **Violation.**  A simulation that stops long before the ground is *not* reported at its last position
(as the documentation says) but extrapolated: climbing at the end, backwards in time. -/
theorem landing_stopped_violated :
    landing (⟨0, 0, 990⟩ : V3 ℚ) ⟨1, 0, 1000⟩ = .ok ⟨-99, 0, 0⟩ ∧
    landing (⟨0, 0, 1010⟩ : V3 ℚ) ⟨1, 0, 1000⟩ = .ok ⟨101, 0, 0⟩ := by
  constructor <;> decide +kernel

/-- **Violation.**  Level at the end and above ground: division by zero.  One recorded state: index error. -/
theorem landing_raises_violated (p : V3 K) (x y : K) (hz : 0 < p.z) :
    landing p ⟨x, y, p.z⟩ = .error .zeroDivision ∧ getLandingLocation [p] = .error .indexError := by
  constructor
  · simp [landing, hz]
  · rfl

example : getLandingLocation [⟨0, 0, 30⟩, ⟨1, 2, 10⟩, (⟨2, 4, -10⟩ : V3 ℚ)] = .ok ⟨3 / 2, 3, 0⟩ := by
  decide +kernel

/-- The flight time is the last recorded time -/
theorem flightTime_spec (ts : List K) (t : K) : getFlightTime (ts ++ [t]) = .ok t := by
  simp [getFlightTime]

end Mapleaf.Run
