import Verif.Log.ReplayProps

/-! # C82: what is drawn in each frame, and where the animation departs from the flight -/

namespace Mapleaf.Replay

open Mapleaf.Motion Mapleaf.CaseM
open Quat (delta)
open V3 (dot cross)

/-! ## Departures of the resampled flights from the recorded ones -/

/-- **C82 violated.** The recorded flights are overwritten: after an animation every flight, however short, reports the
latest final time of all flights as its flight time. -/
theorem flight_time_violated (flights out : List Flight) (T : ℝ) (n : Nat) (hn : 2 ≤ n) (hT : Latest flights T)
    (h : keepN n flights = .ok out) : ∀ g ∈ out, Run.getFlightTime g.times = .ok T := by
  obtain ⟨hne, T', hT', hf⟩ := (keepN_ok_iff _ _ _).1 h
  have e : T' = T := by
    have h1 := (maxTime_spec _ _).2 hT
    have h2 := (maxTime_spec _ _).2 hT'
    rw [h1] at h2; cases h2; rfl
  subst e
  clear hT hT' h
  clear hne
  induction hf with
  | nil => intro g hg; cases hg
  | @cons f g fs gs hfg _ ih' =>
    intro g' hg'
    rcases List.mem_cons.1 hg' with rfl | hg'
    · obtain ⟨h1, _⟩ := hfg
      have hl := (linspace_spec (0 : ℝ) T' n).2.2.1 hn
      have hlin : linspace 0 T' n = (List.range n).map (fun i : ℕ => (i : ℝ) * (T' / ((n : ℝ) - 1))) := by
        unfold linspace; simp
      unfold Run.getFlightTime
      rw [h1, ← hlin, List.getLast?_eq_getElem?, (linspace_spec (0 : ℝ) T' n).1, hl]
    · exact ih' g' hg'

/-- **C82 violated.** The recorded targets of the actuators are not resampled: they keep their recorded number, so they no
longer belong to the times. -/
theorem targets_violated (flights out : List Flight) (n : Nat) (h : keepN n flights = .ok out) :
    List.Forall₂ (fun f g => g.targets = f.targets ∧ g.times.length = n) flights out := by
  obtain ⟨_, T, _, hf⟩ := (keepN_ok_iff _ _ _).1 h
  refine hf.imp (fun f g hfg => ⟨hfg.2.2.2.2.1, ?_⟩)
  rw [hfg.1]; simp

/-- **C82 violated.** The orientation shown at a recorded time is that of the next recorded state, and the one shown after
the end of the flight is that of its start. -/
theorem shown_orientation_violated (f : Flight) (hf : Recorded f) (i : Nat) (hi : i + 1 < f.times.length) (s s' : RBState)
    (hs : f.states[i]? = some (.six s)) (hs' : f.states[i + 1]? = some (.six s')) (hq : 0 ≤ (delta s.ori s'.ori).q0) :
    ∃ b, stateAt f f.times[i] = .ok (.six b) ∧ b.ori = s'.ori := by
  have hl := hf.len
  have hlt : f.times[i] < f.times[i + 1] := List.pairwise_iff_getElem.1 hf.strict i (i + 1) (by omega) hi (by omega)
  have hw := weights_inside f.times f.times[i] i hf.strict hi le_rfl hlt
  have hd : f.times[i + 1] - f.times[i] ≠ 0 := by linarith
  rw [div_self hd, sub_self, zero_div] at hw
  have hu := hf.unit _ (List.mem_of_getElem? hs)
  have hu' := hf.unit _ (List.mem_of_getElem? hs')
  obtain ⟨b, hb, ho⟩ := (interpolate_orientation_violated s s' hu hu' hq).1
  refine ⟨b, ?_, ho⟩
  have e1 : pyGet f.states (i : Int) = .ok (.six s) := by
    rw [pyGet_nat f.states i (by omega)]
    rw [List.getElem?_eq_getElem (by omega)] at hs
    simp_all
  have e2 : pyGet f.states ((i + 1 : Nat) : Int) = .ok (.six s') := by
    rw [pyGet_nat f.states (i + 1) (by omega)]
    rw [List.getElem?_eq_getElem (by omega)] at hs'
    simp_all
  unfold stateAt
  rw [hw]
  dsimp only
  rw [e1, e2]
  dsimp only [between]
  rw [hb]

theorem landed_orientation_violated (f : Flight) (hf : Recorded f) (t : ℝ) (ht : f.times.getLast hf.ne ≤ t) (s s' : RBState)
    (hs : f.states.head? = some (.six s)) (hs' : f.states.getLast? = some (.six s')) (hq : 0 ≤ (delta s.ori s'.ori).q0) :
    ∃ b, stateAt f t = .ok (.six b) ∧ b.ori = s.ori := by
  have hl := hf.len
  have hpos : 0 < f.times.length := List.length_pos_of_ne_nil hf.ne
  have hne : f.states ≠ [] := by intro h; rw [h] at hl; simp at hl; omega
  have hu := hf.unit _ (List.mem_of_head? hs)
  have hu' := hf.unit _ (List.mem_of_getLast? hs')
  obtain ⟨b, hb, ho⟩ := (interpolate_orientation_violated s s' hu hu' hq).2
  refine ⟨b, ?_, ho⟩
  have e1 : pyGet f.states ((0 : Nat) : Int) = .ok (.six s) := by
    rw [pyGet_nat f.states 0 (by omega)]
    rw [List.head?_eq_getElem?, List.getElem?_eq_getElem (by omega)] at hs
    simp_all
  have e2 : pyGet f.states (-1) = .ok (.six s') := by
    rw [pyGet_neg_one f.states hne]
    rw [List.getLast?_eq_some_getLast hne] at hs'
    simp_all
  unfold stateAt
  rw [weights_after f.times t hf.strict hf.ne ht]
  dsimp only
  rw [show ((0 : Int)) = ((0 : Nat) : Int) from rfl, e1, e2]
  dsimp only [between]
  rw [hb]

/-- A flight that goes up for one second and comes down again -/
noncomputable def hop : Flight :=
  ⟨[0, 1, 2], [.three ⟨⟨0, 0, 0⟩, 0⟩, .three ⟨⟨0, 0, 10⟩, 0⟩, .three ⟨⟨0, 0, 0⟩, 0⟩], none, none, none, none⟩

theorem hop_recorded : Recorded hop where
  ne := by simp [hop]
  strict := by simp [hop]
  len := rfl
  unit := by intro b hb; simp [hop] at hb; rcases hb with rfl | rfl | rfl <;> trivial
  defl := by intro ds h; cases h

theorem hop_latest : Latest [hop] 2 := by
  refine ⟨?_, by norm_num, Or.inr ⟨hop, by simp, rfl⟩⟩
  intro f hf
  simp at hf
  subst hf
  exact ⟨2, rfl, le_rfl⟩

theorem hop_shown (t : ℝ) (h0 : 0 ≤ t) (h2 : t ≤ 2) (h1 : t ≠ 1) (b : Body) (hb : stateAt hop t = .ok b) : b.pos.z < 10 := by
  rcases lt_or_gt_of_ne h1 with h | h
  · obtain ⟨c, hc, _, hl, _⟩ := stateAt_inside hop hop_recorded t 0 (by simp [hop]) (by simpa [hop] using h0) (by simpa [hop] using h)
    rw [hb] at hc; cases hc
    rw [(hl trivial).1]
    simp [hop, AffineMap.lineMap_apply_module, Body.pos]
    linarith
  · rcases h2.lt_or_eq with h2 | rfl
    · obtain ⟨c, hc, _, hl, _⟩ := stateAt_inside hop hop_recorded t 1 (by simp [hop]) (by simpa [hop] using h.le)
        (by simpa [hop] using h2)
      rw [hb] at hc; cases hc
      rw [(hl trivial).1]
      simp [hop, AffineMap.lineMap_apply_module, Body.pos]
      linarith
    · obtain ⟨z, c, hz, hc, _, _, hp, _⟩ := stateAt_after hop hop_recorded 2 (by simp [hop])
      rw [hb] at hc; cases hc
      rw [hp]
      simp [hop] at hz
      subst hz
      norm_num [Body.pos]

/-- **C82 violated.** The apogee can be lost: the flight recorded a state 10 m up, and after the animation (900 frames) no
state of the returned flight reaches it. -/
theorem apogee_violated : ∃ out, keepN 900 [hop] = .ok out ∧ (∃ b ∈ hop.states, b.pos.z = 10) ∧
    ∀ g ∈ out, ∀ b ∈ g.states, b.pos.z < 10 := by
  obtain ⟨out, ho, _⟩ := keepN_total 900 [hop] (by simp) (by intro f hf; simp at hf; subst hf; exact hop_recorded)
  refine ⟨out, ho, ⟨.three ⟨⟨0, 0, 10⟩, 0⟩, by simp [hop], rfl⟩, ?_⟩
  obtain ⟨_, T, hT, hf⟩ := (keepN_ok_iff _ _ _).1 ho
  have e : T = 2 := by
    have h1 := (maxTime_spec _ _).2 hT
    have h2 := (maxTime_spec _ _).2 hop_latest
    rw [h1] at h2; cases h2; rfl
  subst e
  obtain ⟨g, gs, hg, hgs, rfl⟩ := List.forall₂_cons_left_iff.1 hf
  cases hgs
  intro g' hg' b hb
  simp at hg'
  subst hg'
  obtain ⟨_, hs, _⟩ := hg
  obtain ⟨k, hk, hkb⟩ := List.getElem_of_mem hb
  have hlen := hs.length_eq
  have hk9 : k < 900 := by
    rw [← hlen, List.length_map, List.length_range] at hk; exact hk
  have hst := hs.get (i := k) (by simpa using hk9) hk
  simp only [List.get_eq_getElem, List.getElem_map, List.getElem_range] at hst
  rw [hkb] at hst
  have hkr : (k : ℝ) ≤ 899 := by exact_mod_cast (by omega : k ≤ 899)
  refine hop_shown _ ?_ ?_ ?_ b hst
  · exact mul_nonneg (Nat.cast_nonneg k) (by norm_num)
  · rw [show (2 : ℝ) / (((900 : ℕ) : ℝ) - 1) = 2 / 899 by norm_num]; linarith
  · rw [show (2 : ℝ) / (((900 : ℕ) : ℝ) - 1) = 2 / 899 by norm_num]
    intro h
    have h3 : (k : ℝ) * 2 = 899 := by linarith
    have h4 : k * 2 = 899 := by exact_mod_cast h3
    omega

/-- **C82 violated.** A controlled rocket that drops the stage with its canards keeps the recorded deflections, but records
no more of them. Its animation then fails. -/
theorem dropped_canards_violated :
    ∃ r0 r1 r2 : Craft, ∃ f, HasActuators 1 r0 ∧ r1.control = none ∧ r2.control = none ∧
      record (setUpCaching r0) [r1, r2] = .ok f ∧ f.times = [0, 1, 2] ∧ f.defls = some [[0]] ∧
      ∀ out, keepN 900 [f] ≠ .ok out := by
  let b : Body := .three ⟨0, 0⟩
  refine ⟨⟨0, b, some (some [(0, 0)])⟩, ⟨1, b, none⟩, ⟨2, b, none⟩,
    ⟨[0, 1, 2], [b, b, b], some [[0]], some [[0]], none, none⟩, ⟨_, rfl, rfl⟩, rfl, rfl, rfl, rfl, rfl, ?_⟩
  intro out ho
  obtain ⟨_, T, hT, hf⟩ := (keepN_ok_iff _ _ _).1 ho
  have e : T = 2 := by
    obtain ⟨h1, h2, h3⟩ := hT
    obtain ⟨t, ht, hle⟩ := h1 _ (List.mem_singleton.2 rfl)
    simp at ht
    subst ht
    rcases h3 with h3 | ⟨f, hf, h3⟩
    · linarith
    · simp at hf; subst hf; simp at h3; exact h3.symm
  subst e
  obtain ⟨g, gs, hg, _, _⟩ := List.forall₂_cons_left_iff.1 hf
  obtain ⟨_, _, _, hd, _⟩ := hg
  obtain ⟨ds', _, h2⟩ := hd _ rfl
  obtain ⟨d', _, h3, _, _⟩ := List.forall₂_cons_left_iff.1 h2
  have hlen := h3.length_eq
  have hst := h3.get (i := 500) (by simp) (by rw [← hlen]; simp)
  simp only [List.get_eq_getElem, List.getElem_map, List.getElem_range] at hst
  have hw := weights_inside [0, 1, 2] (((500 : ℕ) : ℝ) * (2 / (((900 : ℕ) : ℝ) - 1))) 1 (by simp) (by simp)
    (by norm_num) (by norm_num)
  unfold deflAt at hst
  rw [hw] at hst
  cases hst

/-! ## Events and frames -/

/-- **C82** The frame of an event is the first frame after it: all frames before show times up to the event, all others
later times. An event that did not happen has no frame. -/
theorem eventFrame_spec (times : List ℝ) (hs : times.Pairwise (· ≤ ·)) :
    eventFrame times none = none ∧
    ∀ t, ∃ k, eventFrame times (some t) = some k ∧ k ≤ times.length ∧
      ∀ (i : ℕ) (x : ℝ), times[i]? = some x → (x ≤ t ↔ i < k) := by
  refine ⟨rfl, fun t => ⟨bisect times t, rfl, (bisect_spec times t hs).1, ?_⟩⟩
  intro i x hx
  obtain ⟨hi, rfl⟩ := List.getElem?_eq_some_iff.1 hx
  exact ((bisect_spec times t hs).2.1 i hi).symm

/-- **C82** The path of the first flight is red while the engine burns and black afterwards, black throughout without
engine; the paths of dropped stages are red while the engine burns and gray afterwards. -/
theorem pathColour_spec (i k : Nat) (off : Option Nat) (c : Colour) :
    pathColour i k off = .ok c ↔
      (∃ o, off = some o ∧ k < o ∧ c = .red) ∨
      (i = 0 ∧ (∀ o, off = some o → o ≤ k) ∧ c = .black) ∨
      (0 < i ∧ ∃ o, off = some o ∧ o ≤ k ∧ c = .gray) := by
  unfold pathColour
  rcases Nat.eq_zero_or_pos i with rfl | hi
  · rw [if_neg (lt_irrefl 0)]
    cases off with
    | none => simp [eq_comm]
    | some o =>
      by_cases h : o ≤ k
      · simp [h, eq_comm]
      · simp [h, eq_comm]; omega
  · rw [if_pos hi]
    cases off with
    | none => simp; omega
    | some o =>
      have hi0 : i ≠ 0 := by omega
      by_cases h : k < o
      · have h' : ¬ o ≤ k := by omega
        simp [h, h', hi, hi0, eq_comm]
      · have h' : o ≤ k := by omega
        simp [h, h', hi, hi0, eq_comm]

/-- **C82 violated.** A dropped stage without engine shut-off time cannot be drawn: comparing a number with `None` raises. -/
theorem unpowered_stage_violated (i k : Nat) (f : Flight) (hi : 0 < i) (h : f.engineOff = none) :
    pathColour i k (eventFrame f.times f.engineOff) = .error .typeError := by
  rw [h]
  unfold pathColour eventFrame
  rw [if_pos hi]
  rfl

/-- **C82** In frame `k` the path is drawn up to, and without, the position of frame `k`; frames 0, 1, … are shown in order. -/
theorem frames_spec (f : Flight) (k : Nat) :
    (k ∈ framesShown f ↔ k + 1 < f.states.length) ∧ (framesShown f).Pairwise (· < ·) ∧
    (k ≤ f.states.length → (pathDrawn f k).length = k) ∧
    ∀ (i : ℕ) p, (pathDrawn f k)[i]? = some p ↔ i < k ∧ ∃ b, f.states[i]? = some b ∧ b.pos = p := by
  refine ⟨?_, ?_, ?_, ?_⟩
  · simp [framesShown]; omega
  · exact List.pairwise_lt_range
  · intro h; simp [pathDrawn, h]
  · intro i p
    unfold pathDrawn
    rw [List.getElem?_take]
    by_cases hi : i < k
    · simp [hi]
    · simp [hi]

/-- **C82 violated.** The last state, which is the landing, is never shown, so no stage that lands last is seen landed. -/
theorem last_frame_violated (f : Flight) : f.states.length - 1 ∉ framesShown f := by
  simp [framesShown]

/-- **C82 violated.** The file name given for the animation is ignored. -/
theorem file_name_violated (name : Str) : animationFile (some name) = some "SampleRocket.mp4".toList := rfl

/-! ## The rocket in a frame -/

theorem zturn (θ a φ : ℝ) :
    (Quat.axisAngle ⟨0, 0, 1⟩ θ).rotate ⟨a * Real.cos φ, a * Real.sin φ, 0⟩
      = .ok (⟨a * Real.cos (φ + θ), a * Real.sin (φ + θ), 0⟩, Quat.axisAngle ⟨0, 0, 1⟩ θ) := by
  have hne : (⟨0, 0, 1⟩ : V3 ℝ) ≠ 0 := by
    intro h; have := congrArg V3.z h; norm_num at this
  obtain ⟨hn, ⟨r, hr⟩, _⟩ := Quat.axisAngle_rotates ⟨0, 0, 1⟩ θ hne ⟨a * Real.cos φ, a * Real.sin φ, 0⟩
  obtain ⟨_, _, hq⟩ := Quat.rotate_ok hr
  have hunit : (⟨0, 0, 1⟩ : V3 ℝ).normalize = ⟨0, 0, 1⟩ := by
    symm
    apply V3.normalize_unique _ _ hne
    have : (⟨0, 0, 1⟩ : V3 ℝ).length = 1 := by simp [V3.length]
    rw [this, one_smul]
  rw [hr, hq, hn, hunit]
  congr 2
  · rw [Real.cos_add, Real.sin_add]
    apply V3.ext' <;> simp [Quat.rodrigues, cross, dot] <;> ring
  · apply Quat.ext4 <;> simp [Quat.scale]

theorem turns_spec (θ a φ : ℝ) (k : Nat) :
    ∃ vs, turns (Quat.axisAngle ⟨0, 0, 1⟩ θ) ⟨a * Real.cos φ, a * Real.sin φ, 0⟩ k = .ok vs ∧ vs.length = k + 1 ∧
      ∀ (i : ℕ), i ≤ k → vs[i]? = some ⟨a * Real.cos (φ + i * θ), a * Real.sin (φ + i * θ), 0⟩ := by
  induction k generalizing φ with
  | zero =>
    refine ⟨_, rfl, rfl, ?_⟩
    intro i hi
    obtain rfl : i = 0 := by omega
    simp
  | succ k ih =>
    obtain ⟨vs, h1, h2, h3⟩ := ih (φ + θ)
    refine ⟨⟨a * Real.cos φ, a * Real.sin φ, 0⟩ :: vs, ?_, by simp [h2], ?_⟩
    · unfold turns
      rw [zturn]
      dsimp only
      rw [h1]
    · intro i hi
      cases i with
      | zero => simp
      | succ i =>
        rw [List.getElem?_cons_succ, h3 i (by omega)]
        have : φ + θ + i * θ = φ + ((i + 1 : ℕ) : ℝ) * θ := by push_cast; ring
        rw [this]

/-- **C82** The rocket is drawn a quarter of the box long, with one vector of a twentieth of the box per fin, the `k`-th at
`k/n` of a full turn. Without fins to draw, a division by zero is raised. -/
theorem referenceVectors_spec (n : Nat) (size : ℝ) :
    (n = 0 → referenceVectors n size = .error .zeroDivision) ∧
    (n ≠ 0 → ∃ vs, referenceVectors n size = .ok (⟨0, 0, size / 4⟩, vs) ∧ vs.length = n ∧
      ∀ (k : ℕ), k < n → vs[k]? = some ⟨size / 20 * Real.cos (2 * Real.pi * k / n), size / 20 * Real.sin (2 * Real.pi * k / n), 0⟩) := by
  constructor
  · rintro rfl; simp [referenceVectors]
  · intro hn
    obtain ⟨vs, h1, h2, h3⟩ := turns_spec (360 / (n : ℝ) * (Real.pi / 180)) (size * 0.05) 0 (n - 1)
    have hn' : (n : ℝ) ≠ 0 := by exact_mod_cast hn
    refine ⟨vs, ?_, by omega, ?_⟩
    · unfold referenceVectors
      rw [if_neg hn]
      rw [Real.cos_zero, Real.sin_zero, mul_one, mul_zero] at h1
      rw [h1]
      dsimp only
      congr 3
      ring
    · intro k hk
      rw [h3 k (by omega)]
      have e : 0 + (k : ℝ) * (360 / (n : ℝ) * (Real.pi / 180)) = 2 * Real.pi * k / n := by field_simp; ring
      have e2 : size * 0.05 = size / 20 := by ring
      rw [e, e2]

/-- **C82** A 6-DoF state is drawn as the reference rocket turned by its orientation: centre at the recorded position, axis
and fins of unchanged lengths and angles, fins at the base. -/
theorem rocketPoints_six (f : Flight) (k : Nat) (axis : V3 ℝ) (perps : List (V3 ℝ)) (s : RBState) (P : Points)
    (hs : f.states[k]? = some (.six s)) (hP : rocketPoints f k axis perps = .ok P) :
    ∃ ax r ps, s.ori.rotate axis = .ok (ax, r) ∧ List.Forall₂ (fun p p' => ∃ r, s.ori.rotate p = .ok (p', r)) perps ps ∧
      P.cg = s.pos ∧ P.base = s.pos - (1 / 2 : ℝ) • ax ∧ P.tip = s.pos + (1 / 2 : ℝ) • ax ∧
      P.perpTips = ps.map (P.base + ·) ∧ ax.length = axis.length := by
  have hk := (List.getElem?_eq_some_iff.1 hs).1
  have hg : pyGet f.states (k : Int) = .ok (.six s) := by
    rw [pyGet_nat f.states k hk]
    rw [List.getElem?_eq_getElem hk] at hs
    simp_all
  unfold rocketPoints at hP
  rw [hg] at hP
  dsimp only at hP
  cases hr : s.ori.rotate axis with
  | error e => rw [hr] at hP; cases hP
  | ok v =>
    obtain ⟨ax, o⟩ := v
    rw [hr] at hP
    dsimp only at hP
    obtain ⟨hne, hax, ho⟩ := Quat.rotate_ok hr
    have hlen : ax.length = axis.length := (Quat.rotate_isometry s.ori axis axis ax ax o o 1 hr hr).2.1
    cases hm : perps.mapM (fun p => (o.rotate p).map Prod.fst) with
    | error e => rw [hm] at hP; cases hP
    | ok ps =>
      rw [hm] at hP
      dsimp only at hP
      have hf : List.Forall₂ (fun p p' => ∃ r, s.ori.rotate p = .ok (p', r)) perps ps := by
        refine ((Run.Opt.mapM_ok_iff _ _ _).1 hm).imp (fun p p' hp => ?_)
        obtain ⟨w', r', h1, h2⟩ := (Quat.rotate_scale_invariant s.ori axis p ax o hr).2
        rw [h1] at hp
        cases hp
        exact ⟨r', h2⟩
      have hb : s.pos - (0.5 : ℝ) • ax = s.pos - (1 / 2 : ℝ) • ax := by norm_num
      have ht : s.pos - (0.5 : ℝ) • ax + ax = s.pos + (1 / 2 : ℝ) • ax := by
        apply V3.ext' <;> simp <;> ring
      refine ⟨ax, o, ps, rfl, hf, ?_⟩
      cases hd : f.defls with
      | none =>
        rw [hd] at hP
        cases hP
        exact ⟨rfl, hb, ht, rfl, hlen⟩
      | some ds =>
        rw [hd] at hP
        dsimp only at hP
        split at hP
        · cases hP
        · cases hP
          exact ⟨rfl, hb, ht, rfl, hlen⟩

/-- **C82** Every canard is drawn at three quarters of the rocket's length, half a fin vector out, a fifth of the rocket
long, and turned away from the axis by the deflection in degrees of the frame. -/
theorem rocketPoints_canards (f : Flight) (k : Nat) (axis : V3 ℝ) (perps : List (V3 ℝ)) (s : RBState) (P : Points)
    (ds : List (List ℝ)) (hs : f.states[k]? = some (.six s)) (hd : f.defls = some ds)
    (hP : rocketPoints f k axis perps = .ok P) (i : Nat) (p p' ax : V3 ℝ) (r r' : Quat ℝ) (hp : perps[i]? = some p)
    (hax : s.ori.rotate axis = .ok (ax, r)) (hp' : s.ori.rotate p = .ok (p', r')) (h0 : p ≠ 0) (hperp : dot p axis = 0) :
    ∃ d a tip tail, ds[i]? = some d ∧ d[k]? = some a ∧ P.canardTips[i]? = some tip ∧ P.canardTails[i]? = some tail ∧
      (3 / 4 : ℝ) • tip + (1 / 4 : ℝ) • tail = s.pos + (1 / 4 : ℝ) • ax + (1 / 2 : ℝ) • p' ∧
      (tip - tail).length = axis.length / 5 ∧
      dot (tip - tail) ax = axis.length ^ 2 / 5 * Real.cos (a * (Real.pi / 180)) ∧ dot (tip - tail) p' = 0 := by
  have hk := (List.getElem?_eq_some_iff.1 hs).1
  have hg : pyGet f.states (k : Int) = .ok (.six s) := by
    rw [pyGet_nat f.states k hk]
    rw [List.getElem?_eq_getElem hk] at hs
    simp_all
  unfold rocketPoints at hP
  rw [hg] at hP
  dsimp only at hP
  rw [hax] at hP
  dsimp only at hP
  cases hm : perps.mapM (fun p => (r.rotate p).map Prod.fst) with
  | error e => rw [hm] at hP; cases hP
  | ok ps =>
    rw [hm, hd] at hP
    dsimp only at hP
    have hf : List.Forall₂ (fun p p' => ∃ r, s.ori.rotate p = .ok (p', r)) perps ps := by
      refine ((Run.Opt.mapM_ok_iff _ _ _).1 hm).imp (fun p p' hp => ?_)
      obtain ⟨w', r', h1, h2⟩ := (Quat.rotate_scale_invariant s.ori axis p ax r hax).2
      rw [h1] at hp
      cases hp
      exact ⟨r', h2⟩
    have hi : i < perps.length := (List.getElem?_eq_some_iff.1 hp).1
    have hil : i < ps.length := by rw [← hf.length_eq]; exact hi
    have hpsi : ps[i] = p' := by
      obtain ⟨r2, h2⟩ := hf.get (i := i) hi hil
      rw [List.get_eq_getElem, (List.getElem?_eq_some_iff.1 hp).2, hp', List.get_eq_getElem] at h2
      exact (congrArg Prod.fst (Except.ok.inj h2)).symm
    cases hv : (List.range ps.length).mapM (canardVec ds k ax ps) with
    | error e => rw [hv] at hP; cases hP
    | ok vs =>
      rw [hv] at hP
      cases hP
      have hf2 := (Run.Opt.mapM_ok_iff _ _ _).1 hv
      have hvl : i < vs.length := by rw [← hf2.length_eq]; simpa using hil
      have hci := hf2.get (i := i) (by simpa using hil) hvl
      simp only [List.get_eq_getElem, List.getElem_range] at hci
      unfold canardVec at hci
      rw [pyGet_nat ps i hil, hpsi] at hci
      cases hdi : pyGet ds (i : Int) with
      | error e => rw [hdi] at hci; cases hci
      | ok d =>
        rw [hdi] at hci
        dsimp only at hci
        cases hdk : pyGet d (k : Int) with
        | error e => rw [hdk] at hci; cases hci
        | ok a =>
          rw [hdk] at hci
          dsimp only at hci
          have pyGet_inv : ∀ {α : Type} (l : List α) (n : ℕ) (x : α), pyGet l (n : Int) = .ok x → l[n]? = some x := by
            intro α l n x h
            unfold pyGet at h
            simp only [show ¬ ((n : Int) < 0) by omega, if_false, Int.toNat_natCast] at h
            split at h
            · rename_i h'; rw [h']; cases h; rfl
            · cases h
          have hp0 : p' ≠ 0 := by
            intro h
            have := (Quat.rotate_isometry s.ori p p p' p' r' r' 1 hp' hp').2.1
            rw [h, (V3.length_zero_iff 0).2 rfl] at this
            exact h0 ((V3.length_zero_iff p).1 this.symm)
          obtain ⟨_, ⟨rr, hrod⟩, hself⟩ := Quat.axisAngle_rotates p' (a * (Real.pi / 180)) hp0 ax
          obtain ⟨rs, hself⟩ := hself
          rw [hrod] at hci
          have hvi : vs[i] = (p', Quat.rodrigues p'.normalize (a * (Real.pi / 180)) ax) := (Except.ok.inj hci).symm
          have hperp' : dot p' ax = 0 := by
            rw [(Quat.rotate_isometry s.ori p axis p' ax r' r 1 hp' hax).1, hperp]
          have hlen : ax.length = axis.length := (Quat.rotate_isometry s.ori axis axis ax ax r r 1 hax hax).2.1
          set v := Quat.rodrigues p'.normalize (a * (Real.pi / 180)) ax with hvdef
          have hvlen : v.length = axis.length := by
            rw [(Quat.rotate_isometry _ ax ax v v rr rr 1 hrod hrod).2.1, hlen]
          have hvp : dot v p' = 0 := by
            have := (Quat.rotate_isometry _ ax p' v p' rr rs 1 hrod hself).1
            rw [this]
            simp only [dot] at hperp' ⊢
            linarith
          have hnp : dot p'.normalize ax = 0 := by
            have h3 := (V3.normalize_spec p').2.2
            have hl0 : p'.length ≠ 0 := fun h => hp0 ((V3.length_zero_iff p').1 h)
            have : p'.length * dot p'.normalize ax = 0 := by
              rw [← hperp']
              conv_rhs => rw [← h3]
              simp [dot]; ring
            exact (mul_eq_zero.1 this).resolve_left hl0
          have hvax : dot v ax = axis.length ^ 2 * Real.cos (a * (Real.pi / 180)) := by
            have hx : dot (cross p'.normalize ax) ax = 0 := by simp [dot, cross]; ring
            have : dot v ax = Real.cos (a * (Real.pi / 180)) * dot ax ax + Real.sin (a * (Real.pi / 180)) *
                dot (cross p'.normalize ax) ax + (dot p'.normalize ax * (1 - Real.cos (a * (Real.pi / 180)))) *
                dot p'.normalize ax := by
              rw [hvdef]; simp [Quat.rodrigues, dot]; ring
            rw [this, hx, hnp, ← V3.length_sq, hlen]; ring
          have htt : ∀ m : V3 ℝ, (m + (0.25 : ℝ) • (0.2 : ℝ) • v) - (m - (0.75 : ℝ) • (0.2 : ℝ) • v) = (1 / 5 : ℝ) • v := by
            intro m; apply V3.ext' <;> simp <;> ring
          refine ⟨d, a, (s.pos - (0.5 : ℝ) • ax + ax - (0.25 : ℝ) • ax + (0.5 : ℝ) • p') + (0.25 : ℝ) • (0.2 : ℝ) • v,
            (s.pos - (0.5 : ℝ) • ax + ax - (0.25 : ℝ) • ax + (0.5 : ℝ) • p') - (0.75 : ℝ) • (0.2 : ℝ) • v,
            pyGet_inv _ _ _ hdi, pyGet_inv _ _ _ hdk, ?_, ?_, ?_, ?_, ?_, ?_⟩
          · rw [List.getElem?_map, List.getElem?_eq_getElem hvl, hvi]; rfl
          · rw [List.getElem?_map, List.getElem?_eq_getElem hvl, hvi]; rfl
          · apply V3.ext' <;> simp <;> ring
          · rw [htt, V3.length_smul, hvlen, abs_of_pos (by norm_num)]; ring
          · rw [htt]
            have : dot ((1 / 5 : ℝ) • v) ax = 1 / 5 * dot v ax := by simp [dot]; ring
            rw [this, hvax]; ring
          · rw [htt]
            have : dot ((1 / 5 : ℝ) • v) p' = 1 / 5 * dot v p' := by simp [dot]; ring
            rw [this, hvp]; ring

/-- **C82** A 3-DoF state is drawn as a parachute above the recorded position, 35 % of its full size until the main
parachute opens. -/
theorem rocketPoints_three (f : Flight) (k : Nat) (axis : V3 ℝ) (perps : List (V3 ℝ)) (s : RBState3) (x : ℝ)
    (hs : f.states[k]? = some (.three s)) (hsort : f.times.Pairwise (· ≤ ·)) (hx : f.times[k]? = some x) :
    ∃ P size, rocketPoints f k axis perps = .ok P ∧ P.cg = s.pos ∧ P.base = s.pos ∧ P.tip = s.pos - (1 / 5 : ℝ) • axis ∧
      ((∃ t, f.chute = some t ∧ t < x) ∧ size = 1 ∨ (∀ t, f.chute = some t → x ≤ t) ∧ size = 7 / 20) ∧
      P.perpTips = perps.map (fun p => s.pos + (3 / 4 : ℝ) • axis + (size : ℝ) • p) ∧ P.canardTips = P.perpTips ∧
      P.canardTails = perps.map (fun _ => s.pos + (9 / 10 : ℝ) • axis) := by
  have hk := (List.getElem?_eq_some_iff.1 hs).1
  have hg : pyGet f.states (k : Int) = .ok (.three s) := by
    rw [pyGet_nat f.states k hk]
    rw [List.getElem?_eq_getElem hk] at hs
    simp_all
  have e1 : s.pos - (0.2 : ℝ) • axis = s.pos - (1 / 5 : ℝ) • axis := by norm_num
  have e2 : ∀ size : ℝ, perps.map (fun p => (s.pos + size • p) + (0.75 : ℝ) • axis)
      = perps.map (fun p => s.pos + (3 / 4 : ℝ) • axis + size • p) := by
    intro size
    apply List.map_congr_left
    intro p _
    apply V3.ext' <;> simp <;> ring
  have e3 : perps.map (fun _ => s.pos + (1.2 : ℝ) • (0.75 : ℝ) • axis) = perps.map (fun _ => s.pos + (9 / 10 : ℝ) • axis) := by
    apply List.map_congr_left
    intro p _
    apply V3.ext' <;> simp <;> ring
  unfold rocketPoints
  rw [hg]
  dsimp only
  cases hc : f.chute with
  | none =>
    refine ⟨_, 7 / 20, rfl, rfl, rfl, e1, Or.inr ⟨by simp, rfl⟩, ?_, rfl, e3⟩
    simp only [eventFrame, Option.map_none]
    rw [e2]; norm_num
  | some t =>
    obtain ⟨c, h1, _, h3⟩ := (eventFrame_spec f.times hsort).2 t
    have h3 := h3 k x hx
    simp only [h1]
    by_cases hlt : k < c
    · refine ⟨_, 7 / 20, rfl, rfl, rfl, e1, Or.inr ⟨?_, rfl⟩, ?_, rfl, e3⟩
      · intro t' ht'; cases ht'; exact h3.2 hlt
      · rw [if_pos hlt, e2]; norm_num
    · refine ⟨_, 1, rfl, rfl, rfl, e1, Or.inl ⟨⟨t, rfl, ?_⟩, rfl⟩, ?_, rfl, e3⟩
      · by_contra h; exact hlt (h3.1 (not_lt.1 h))
      · rw [if_neg hlt, e2]

/-! ## The box -/

theorem foldl_max_spec (l : List ℝ) (a : ℝ) : a ≤ l.foldl max a ∧ (∀ x ∈ l, x ≤ l.foldl max a) ∧
    (l.foldl max a = a ∨ l.foldl max a ∈ l) := by
  induction l generalizing a with
  | nil => simp
  | cons b l ih =>
    obtain ⟨h1, h2, h3⟩ := ih (max a b)
    rw [List.foldl_cons]
    refine ⟨le_trans (le_max_left a b) h1, ?_, ?_⟩
    · intro x hx
      rcases List.mem_cons.1 hx with rfl | hx
      · exact le_trans (le_max_right a x) h1
      · exact h2 x hx
    · rcases h3 with h3 | h3
      · rw [h3]
        rcases max_choice a b with h | h <;> simp [h]
      · right; simp [h3]

theorem foldl_min_spec (l : List ℝ) (a : ℝ) : l.foldl min a ≤ a ∧ (∀ x ∈ l, l.foldl min a ≤ x) ∧
    (l.foldl min a = a ∨ l.foldl min a ∈ l) := by
  induction l generalizing a with
  | nil => simp
  | cons b l ih =>
    obtain ⟨h1, h2, h3⟩ := ih (min a b)
    rw [List.foldl_cons]
    refine ⟨le_trans h1 (min_le_left a b), ?_, ?_⟩
    · intro x hx
      rcases List.mem_cons.1 hx with rfl | hx
      · exact le_trans h1 (min_le_right a x)
      · exact h2 x hx
    · rcases h3 with h3 | h3
      · rw [h3]
        rcases min_choice a b with h | h <;> simp [h]
      · right; simp [h3]

theorem listMax_spec (l : List ℝ) (h : l ≠ []) : listMax l ∈ l ∧ ∀ x ∈ l, x ≤ listMax l := by
  cases l with
  | nil => exact absurd rfl h
  | cons a l =>
    obtain ⟨h1, h2, h3⟩ := foldl_max_spec l a
    refine ⟨?_, ?_⟩
    · rcases h3 with h3 | h3
      · simp [listMax, h3]
      · simp only [listMax]; exact List.mem_cons_of_mem _ h3
    · intro x hx
      rcases List.mem_cons.1 hx with rfl | hx
      · exact h1
      · exact h2 x hx

theorem listMin_spec (l : List ℝ) (h : l ≠ []) : listMin l ∈ l ∧ ∀ x ∈ l, listMin l ≤ x := by
  cases l with
  | nil => exact absurd rfl h
  | cons a l =>
    obtain ⟨h1, h2, h3⟩ := foldl_min_spec l a
    refine ⟨?_, ?_⟩
    · rcases h3 with h3 | h3
      · simp [listMin, h3]
      · simp only [listMin]; exact List.mem_cons_of_mem _ h3
    · intro x hx
      rcases List.mem_cons.1 hx with rfl | hx
      · exact h1
      · exact h2 x hx

/-- `r` is the range of the numbers `l`: the largest difference of two of them -/
def IsRange (l : List ℝ) (r : ℝ) : Prop := (∃ x ∈ l, ∃ y ∈ l, x - y = r) ∧ ∀ x ∈ l, ∀ y ∈ l, x - y ≤ r

theorem listRange_spec (l : List ℝ) (h : l ≠ []) : IsRange l (listMax l - listMin l) := by
  obtain ⟨h1, h2⟩ := listMax_spec l h
  obtain ⟨h3, h4⟩ := listMin_spec l h
  exact ⟨⟨_, h1, _, h3, rfl⟩, fun x hx y hy => by linarith [h2 x hx, h4 y hy]⟩

/-- **C82** The edge of the box is 1.1 times the largest of the three coordinate ranges of the path, or 1 for an object that
does not move; the centre is the mean of the positions. -/
theorem plotSize_spec (ps : List (V3 ℝ)) (hne : ps ≠ []) :
    ∃ size c rx ry rz, plotSize ps = .ok (size, c) ∧ IsRange (ps.map V3.x) rx ∧ IsRange (ps.map V3.y) ry ∧
      IsRange (ps.map V3.z) rz ∧ (rx = 0 ∧ ry = 0 ∧ rz = 0 → size = 1) ∧
      (¬ (rx = 0 ∧ ry = 0 ∧ rz = 0) → size = 1.1 * max rx (max ry rz)) ∧ 0 < size ∧
      c = ⟨(ps.map V3.x).sum / ps.length, (ps.map V3.y).sum / ps.length, (ps.map V3.z).sum / ps.length⟩ := by
  have hx := listRange_spec (ps.map V3.x) (by simpa using hne)
  have hy := listRange_spec (ps.map V3.y) (by simpa using hne)
  have hz := listRange_spec (ps.map V3.z) (by simpa using hne)
  have nn : ∀ l r, IsRange l r → 0 ≤ r := by
    rintro l r ⟨⟨x, hx, _⟩, h⟩
    have := h x hx x hx
    linarith
  have hx0 := nn _ _ hx
  have hy0 := nn _ _ hy
  have hz0 := nn _ _ hz
  unfold plotSize
  rw [if_neg (by simpa using hne)]
  dsimp only
  refine ⟨_, _, _, _, _, rfl, hx, hy, hz, ?_⟩
  generalize listMax (ps.map V3.x) - listMin (ps.map V3.x) = rx at hx0
  generalize listMax (ps.map V3.y) - listMin (ps.map V3.y) = ry at hy0
  generalize listMax (ps.map V3.z) - listMin (ps.map V3.z) = rz at hz0
  have hiff : max (max rx ry) rz = 0 ↔ (rx = 0 ∧ ry = 0 ∧ rz = 0) := by
    constructor
    · intro h
      have h1 := le_max_left (max rx ry) rz
      have h2 := le_max_right (max rx ry) rz
      have h3 := le_max_left rx ry
      have h4 := le_max_right rx ry
      refine ⟨by linarith, by linarith, by linarith⟩
    · rintro ⟨rfl, rfl, rfl⟩; simp
  refine ⟨?_, ?_, ?_, rfl⟩
  · intro h; rw [if_pos (hiff.2 h)]
  · intro h; rw [if_neg (fun h' => h (hiff.1 h')), max_assoc, mul_comm]
  · split
    · exact one_pos
    · rename_i h
      have : 0 ≤ max (max rx ry) rz := le_trans hz0 (le_max_right _ _)
      have : 0 < max (max rx ry) rz := lt_of_le_of_ne this (Ne.symm h)
      positivity

/-- **C82 violated.** The box need not contain the path: its centre is the mean position, so a flight that spends most of its
time near the ground leaves the box at the top. -/
theorem box_violated : ∃ (ps : List (V3 ℝ)) (size : ℝ) (c : V3 ℝ), plotSize ps = .ok (size, c) ∧
    ∃ p ∈ ps, c.z + size / 2 < p.z := by
  obtain ⟨size, c, rx, ry, rz, h, hx, hy, hz, _, h2, _, hc⟩ := plotSize_spec [⟨0, 0, 0⟩, ⟨0, 0, 0⟩, ⟨0, 0, 0⟩, ⟨0, 0, 100⟩] (by simp)
  refine ⟨_, size, c, h, ⟨0, 0, 100⟩, by simp, ?_⟩
  have hrx : rx = 0 := by
    obtain ⟨⟨x, hx1, y, hy1, e⟩, _⟩ := hx
    simp at hx1 hy1
    rw [← e, hx1, hy1, sub_zero]
  have hry : ry = 0 := by
    obtain ⟨⟨x, hx1, y, hy1, e⟩, _⟩ := hy
    simp at hx1 hy1
    rw [← e, hx1, hy1, sub_zero]
  have hrz : rz = 100 := by
    obtain ⟨⟨x, hx1, y, hy1, e⟩, hb⟩ := hz
    have := hb 100 (by simp) 0 (by simp)
    simp at hx1 hy1
    rcases hx1 with rfl | rfl <;> rcases hy1 with rfl | rfl <;> linarith
  subst hrx hry hrz
  have h3 := h2 (by norm_num)
  rw [h3, hc]
  norm_num

/-! ## All together -/

/-- **C82** Flights as recorded can be animated if the first flight has actuators or none recorded: 900 frames of each
flight, in the box of the first, with one fin vector per actuator or else 4. -/
theorem setUp_total (f : Flight) (fs : List Flight) (h : ∀ g ∈ f :: fs, Recorded g) (hd : f.defls ≠ some []) :
    ∃ g gs size c axis perps, setUp (f :: fs) = .ok (g :: gs, size, c, axis, perps) ∧
      keepN 900 (f :: fs) = .ok (g :: gs) ∧ plotSize (g.states.map Body.pos) = .ok (size, c) ∧
      axis = ⟨0, 0, size / 4⟩ ∧ (f.defls = none → perps.length = 4) ∧ (∀ ds, f.defls = some ds → perps.length = ds.length) := by
  obtain ⟨out, ho, hl, hlen⟩ := keepN_total 900 (f :: fs) (by simp) h
  obtain ⟨g, gs, rfl⟩ : ∃ g gs, out = g :: gs := by
    cases out with
    | nil => simp at hl
    | cons g gs => exact ⟨g, gs, rfl⟩
  obtain ⟨_, T, _, hf⟩ := (keepN_ok_iff _ _ _).1 ho
  have hg := (List.forall₂_cons.1 hf).1
  have hne : g.states.map Body.pos ≠ [] := by
    have := (hlen g (by simp)).2
    intro h0
    have h1 := congrArg List.length h0
    simp [this] at h1
  obtain ⟨size, c, _, _, _, hs, _⟩ := plotSize_spec _ hne
  unfold setUp
  rw [ho]
  dsimp only
  rw [hs]
  dsimp only
  cases hfd : f.defls with
  | none =>
    rw [hg.2.2.1 hfd]
    obtain ⟨vs, h1, h2, _⟩ := (referenceVectors_spec 4 size).2 (by norm_num)
    dsimp only
    rw [h1]
    exact ⟨g, gs, size, c, _, vs, rfl, rfl, hs, rfl, fun _ => h2, fun ds h => (nomatch h)⟩
  | some ds =>
    obtain ⟨ds', h1, h2⟩ := hg.2.2.2.1 ds hfd
    rw [h1]
    have hds : ds'.length = ds.length := h2.length_eq.symm
    have hne0 : ds'.length ≠ 0 := by
      rw [hds]
      intro h0
      exact hd (by rw [hfd, List.length_eq_zero_iff.1 h0])
    obtain ⟨vs, h3, h4, _⟩ := (referenceVectors_spec ds'.length size).2 hne0
    dsimp only
    rw [h3]
    refine ⟨g, gs, size, c, _, vs, rfl, rfl, hs, rfl, fun h => (nomatch h), ?_⟩
    intro ds0 h0
    cases h0
    rw [h4, hds]

/-- **C82 violated.** A controlled system without actuators makes the animation fail with a division by zero. -/
theorem no_actuators_violated (f : Flight) (fs : List Flight) (h : ∀ g ∈ f :: fs, Recorded g) (hd : f.defls = some []) :
    setUp (f :: fs) = .error .zeroDivision := by
  obtain ⟨out, ho, hl, hlen⟩ := keepN_total 900 (f :: fs) (by simp) h
  obtain ⟨g, gs, rfl⟩ : ∃ g gs, out = g :: gs := by
    cases out with
    | nil => simp at hl
    | cons g gs => exact ⟨g, gs, rfl⟩
  obtain ⟨_, T, _, hf⟩ := (keepN_ok_iff _ _ _).1 ho
  have hg := (List.forall₂_cons.1 hf).1
  have hne : g.states.map Body.pos ≠ [] := by
    have := (hlen g (by simp)).2
    intro h0
    have h1 := congrArg List.length h0
    simp [this] at h1
  obtain ⟨size, c, _, _, _, hs, _⟩ := plotSize_spec _ hne
  obtain ⟨ds', h1, h2⟩ := hg.2.2.2.1 [] hd
  cases h2
  unfold setUp
  rw [ho]
  dsimp only
  rw [hs, h1]
  dsimp only
  rw [(referenceVectors_spec ([] : List (List ℝ)).length size).1 rfl]

/-! ## Concrete cases meeting the hypotheses -/

/-- A 6-DoF flight with one canard that turns a quarter turn, then descends under a parachute -/
example : Recorded ⟨[0, 1, 2], [.six ⟨0, 0, ⟨1, 0, 0, 0⟩, 0⟩, .six ⟨⟨0, 0, 5⟩, 0, ⟨3 / 5, 4 / 5, 0, 0⟩, 0⟩, .three ⟨⟨0, 0, 1⟩, 0⟩],
    some [[0, 3, 4]], some [[0, 1, 1]], some 1, none⟩ where
  ne := by simp
  strict := by simp
  len := rfl
  unit := by
    intro b hb
    simp at hb
    rcases hb with rfl | rfl | rfl
    · norm_num [UnitBody, Quat.Unit, Quat.nsq]
    · norm_num [UnitBody, Quat.Unit, Quat.nsq]
    · trivial
  defl := by rintro ds h d hd; cases h; simp at hd; subst hd; rfl

/-- Two flights of different lengths: the second reports the first one's time -/
example : Latest [⟨[0, 4], [.three ⟨0, 0⟩, .three ⟨0, 0⟩], none, none, none, none⟩,
    ⟨[0, 1], [.three ⟨0, 0⟩, .three ⟨0, 0⟩], none, none, none, none⟩] 4 := by
  refine ⟨?_, by norm_num, Or.inr ⟨_, List.mem_cons_self, rfl⟩⟩
  intro f hf
  simp at hf
  rcases hf with rfl | rfl
  · exact ⟨4, rfl, le_rfl⟩
  · exact ⟨1, rfl, by norm_num⟩

/-- A controlled rocket with two actuators -/
example : HasActuators 2 ⟨0, .three ⟨0, 0⟩, some (some [(1, 2), (3, 4)])⟩ := ⟨_, rfl, rfl⟩

end Mapleaf.Replay
