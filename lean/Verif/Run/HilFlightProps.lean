import Verif.Run.HilSessionProps
import Mathlib.Tactic.FinCases
import Mathlib.Algebra.Order.Field.Basic

/-!
# C108: whole sessions with hardware in the loop
-/

namespace Mapleaf.Run.Hil

open Mapleaf.Motion

variable {K : Type} [Field K] [LinearOrder K] [IsStrictOrderedRing K] [FloorRing K]

theorem wait_iff {W : World K} {start t : K} {n k : ℕ} :
    waitUntil W start t n = .ok k ↔ n ≤ k ∧ t ≤ W.now k - start ∧ ∀ j, n ≤ j → j < k → W.now j - start < t := by
  unfold waitUntil
  constructor
  · intro h
    split at h
    · rename_i hex
      obtain rfl := Except.ok.inj h
      obtain ⟨h1, h2⟩ := Nat.find_spec hex
      refine ⟨h1, not_lt.1 h2, fun j hj hjk => ?_⟩
      have := Nat.find_min hex hjk
      push Not at this
      exact this hj
    · cases h
  · rintro ⟨h1, h2, h3⟩
    have hex : ∃ k, n ≤ k ∧ ¬ t > W.now k - start := ⟨k, h1, not_lt.2 h2⟩
    rw [dif_pos hex]
    congr 1
    refine (Nat.find_eq_iff hex).2 ⟨⟨h1, not_lt.2 h2⟩, fun j hj => ?_⟩
    rintro ⟨a, b⟩
    exact b (h3 j a hj)

/-- **C108.** One exchange with the hardware, exactly: the messages due are sent; then the clock is read until it has reached the time of the
simulation, and no longer; then the four angles are asked for and read. -/
theorem perform_spec {pack : K → Nat × Nat × Nat × Nat} {parse : Str → Except PyErr K} {W : World K} {i i' : Iface K} {p : Pose K} {t : K} {a b c d : K}
    (ha : i.angles = [a, b, c, d]) (h : perform pack parse W i p t = .ok i') :
    ∃ ms bs k, ∃ x : Fin 4 → K, List.Forall₂ Frame ms bs ∧ List.Forall₂ (Tells pack p) (dueKinds i.qp i.pp i.vp i.clock t) ms ∧
      (i.reads ≤ k ∧ t ≤ W.now k - i.clock.start ∧ ∀ j, i.reads ≤ j → j < k → W.now j - i.clock.start < t) ∧
      (∀ n : Fin 4, (W.line (i.lines + n) = [] ∧ x n = ![a, b, c, d] n) ∨ (W.line (i.lines + n) ≠ [] ∧ parse (W.line (i.lines + n)) = .ok (x n))) ∧
      i' = { i with
        angles := [x 0, x 1, x 2, x 3], lines := i.lines + 4, reads := k + 2, clock := (send i.qp i.pp i.vp i.clock t).2
        trace := i.trace ++ (bs.map .imu ++ ((List.range' i.reads (k + 1 - i.reads)).map (fun j => .now (W.now j)) ++
          [.teensy [113], .line (W.line i.lines), .line (W.line (i.lines + 1)), .line (W.line (i.lines + 2)), .line (W.line (i.lines + 3)), .now (W.now (k + 1))])) } := by
  unfold perform at h
  simp only [bind, Except.bind] at h
  split at h
  · cases h
  rename_i i1 h1
  obtain ⟨ms, bs, f1, f2, rfl⟩ := sendIMU_spec h1
  split at h
  · cases h
  rename_i k hk
  split at h
  · cases h
  rename_i i2 h2
  obtain ⟨x, hx, rfl⟩ := (request_iff (by exact ha)).1 h2
  obtain rfl := Except.ok.inj h
  refine ⟨ms, bs, k, x, f1, f2, wait_iff.1 hk, hx, ?_⟩
  simp

/-! ## Flights -/

/-- the states after each of the next `n` steps -/
def visited {S : Type} (step : S → Except PyErr S) : ℕ → S → Except PyErr (List S)
  | 0, _ => .ok []
  | n + 1, s =>
    match step s with
    | .error e => .error e
    | .ok s' =>
      match visited step n s' with
      | .error e => .error e
      | .ok l => .ok (s' :: l)

/-- the messages due in the exchanges with the poses and times `calls`: kind, pose, time -/
def dueList (qp pp vp : K) : Clock K → List (Pose K × K) → List (Kind × Pose K × K)
  | _, [] => []
  | c, (p, t) :: rest => (dueKinds qp pp vp c t).map (fun k => (k, p, t)) ++ dueList qp pp vp (send qp pp vp c t).2 rest

/-- the times of the messages of one kind are those of C52, more than a period apart (`packet_rate`) -/
theorem due_times (qp pp vp : K) (k : Kind) (calls : List (Pose K × K)) (c : Clock K) :
    ((dueList qp pp vp c calls).filter (fun e => decide (e.1 = k))).map (fun e => e.2.2) = sentTimes k qp pp vp c (calls.map Prod.snd) := by
  induction calls generalizing c with
  | nil => rfl
  | cons q rest ih =>
    obtain ⟨p, t⟩ := q
    simp only [dueList, List.filter_append, List.map_append, ih, List.map_cons, sentTimes]
    have : sent k (send qp pp vp c t).1 = decide (period k qp pp vp < t + c.start - c.last k) := by cases k <;> rfl
    rw [this]
    unfold dueKinds
    by_cases h1 : qp < t + c.start - c.lastQuat <;> by_cases h2 : pp < t + c.start - c.lastPos <;>
      by_cases h3 : vp < t + c.start - c.lastVel <;> cases k <;> simp [period, Clock.last, h1, h2, h3]

/-- what was written to the sensor line -/
def imuBytes : List (Ev K) → List Nat
  | [] => []
  | .imu b :: rest => b ++ imuBytes rest
  | _ :: rest => imuBytes rest

theorem imuBytes_append (a b : List (Ev K)) : imuBytes (a ++ b) = imuBytes a ++ imuBytes b := by
  induction a with
  | nil => rfl
  | cons e a ih => cases e <;> simp [imuBytes, ih]

theorem imuBytes_imu (bs : List (List Nat)) : imuBytes (bs.map (Ev.imu (K := K))) = bs.flatten := by
  induction bs with
  | nil => rfl
  | cons b bs ih => simp [imuBytes, ih]

theorem imuBytes_now (W : World K) (l : List ℕ) : imuBytes (l.map (fun j => Ev.now (W.now j))) = [] := by
  induction l with
  | nil => rfl
  | cons b bs ih => simp [imuBytes, ih]

theorem fly_spec {S : Type} {pack : K → Nat × Nat × Nat × Nat} {parse : Str → Except PyErr K} {W : World K} {step : S → Except PyErr S}
    {pose : S → Pose K} {time : S → K} (n : ℕ) (s s' : S) (i i' : Iface K) (hl : i.angles.length = 4)
    (h : flyLoop pack parse W step pose time n s i = .ok (s', i')) :
    ∃ ss, visited step n s = .ok ss ∧ s' = ss.getLastD s ∧ i'.angles.length = 4 ∧ i'.lines = i.lines + 4 * n ∧ i'.clock.start = i.clock.start ∧
      (∀ m, n = m + 1 → i.reads ≤ i'.reads - 2 ∧ time s' ≤ W.now (i'.reads - 2) - i.clock.start ∧
        ∀ k < 4, W.line (i.lines + 4 * m + k) ≠ [] → ∃ y, parse (W.line (i.lines + 4 * m + k)) = .ok y ∧ i'.angles[k]? = some y) ∧
      ∃ ms bs, List.Forall₂ Frame ms bs ∧
        List.Forall₂ (fun e m => Tells pack e.2.1 e.1 m) (dueList i.qp i.pp i.vp i.clock (ss.map fun s => (pose s, time s))) ms ∧
        imuBytes i'.trace = imuBytes i.trace ++ bs.flatten := by
  induction n generalizing s i with
  | zero =>
    obtain ⟨rfl, rfl⟩ := Prod.mk.inj (Except.ok.inj h)
    exact ⟨[], rfl, rfl, hl, rfl, rfl, fun m hm => by omega, [], [], .nil, .nil, by simp⟩
  | succ n ih =>
    unfold flyLoop at h
    simp only [bind, Except.bind] at h
    split at h
    · cases h
    rename_i s1 hs1
    split at h
    · cases h
    rename_i i1 hi1
    obtain ⟨a, b, c, d, ha⟩ : ∃ a b c d, i.angles = [a, b, c, d] := by
      match i.angles, hl with
      | [a, b, c, d], _ => exact ⟨a, b, c, d, rfl⟩
    obtain ⟨ms, bs, k, x, f1, f2, ⟨k1, k2, -⟩, hx, rfl⟩ := perform_spec ha hi1
    obtain ⟨ss, v1, v2, v3, v4, v5, v6, ms', bs', g1, g2, g3⟩ := ih s1 _ rfl h
    refine ⟨s1 :: ss, ?_, ?_, v3, ?_, v5, ?_, ms ++ ms', bs ++ bs', List.rel_append f1 g1, ?_, ?_⟩
    · unfold visited; rw [hs1]; dsimp only; rw [v1]
    · rw [v2, List.getLastD_cons]
    · rw [v4]; dsimp only; omega
    · rintro m rfl'
      obtain rfl : n = m := by omega
      cases n with
      | succ n =>
        obtain ⟨w1, w2, w3⟩ := v6 n rfl
        dsimp only at w1 w2 w3
        refine ⟨by omega, w2, fun j hj hne => ?_⟩
        rw [show i.lines + 4 * (n + 1) + j = i.lines + 4 + 4 * n + j by omega] at hne ⊢
        exact w3 j hj hne
      | zero =>
        obtain ⟨rfl, rfl⟩ := Prod.mk.inj (Except.ok.inj h)
        refine ⟨by simpa using k1, by simpa using k2, fun j hj hne => ?_⟩
        rcases hx ⟨j, hj⟩ with ⟨h1, -⟩ | ⟨-, h1⟩
        · exact absurd h1 (by simpa using hne)
        · refine ⟨x ⟨j, hj⟩, by simpa using h1, ?_⟩
          have : j = 0 ∨ j = 1 ∨ j = 2 ∨ j = 3 := by omega
          rcases this with rfl | rfl | rfl | rfl <;> rfl
    · simp only [List.map_cons, dueList]
      refine List.rel_append ?_ g2
      rw [List.forall₂_map_left_iff]
      exact f2
    · rw [g3]
      simp only [imuBytes_append, imuBytes_imu, imuBytes_now, imuBytes, List.flatten_append, List.append_assoc, List.append_nil, List.nil_append]

/-- a new interface with positive rates -/
theorem new_spec {W : World K} {r l : ℕ} {q p v : ℤ} (hq : 0 < q) (hp : 0 < p) (hv : 0 < v) :
    Iface.new W r l q p v = .ok ⟨1 / (q : K), 1 / (p : K), 1 / (v : K), ⟨W.now r, W.now r, W.now r, W.now r⟩, [0, 0, 0, 0], r + 1, l, [.now (W.now r)]⟩ := by
  unfold Iface.new
  rw [if_neg (by omega)]

/-- **C108.** An interface cannot be made exactly if one of the rates is zero. -/
theorem new_zero {W : World K} {r l : ℕ} {q p v : ℤ} (e : PyErr) :
    Iface.new W r l q p v = .error e ↔ (q = 0 ∨ p = 0 ∨ v = 0) ∧ e = .zeroDivision := by
  unfold Iface.new
  split_ifs with h
  · simp [h, eq_comm]
  · simp [h]

theorem period_small {q : ℤ} (hq : 0 < q) : 1 / (q : K) < 10000 := by
  have h1 : (1 : K) ≤ (q : K) := by exact_mod_cast hq
  have : 1 / (q : K) ≤ 1 := by rw [div_le_one (by linarith)]; exact h1
  linarith

/-- **C108.** Setting up: the controller is reset, told orientation, position and velocity on the pad, and told to launch; then the clock starts. -/
theorem setup_spec {pack : K → Nat × Nat × Nat × Nat} {W : World K} {r l : ℕ} {q p v : ℤ} (hq : 0 < q) (hp : 0 < p) (hv : 0 < v) {i i' : Iface K}
    (hi : Iface.new W r l q p v = .ok i) {o : Pose K} (h : setup pack W i o = .ok i') :
    ∃ ms bs, List.Forall₂ Frame ms bs ∧ List.Forall₂ (Tells pack o) [.quat, .pos, .vel] ms ∧
      i' = ⟨1 / (q : K), 1 / (p : K), 1 / (v : K), ⟨W.now (r + 1), W.now (r + 1), W.now (r + 1), W.now (r + 1)⟩, [0, 0, 0, 0], r + 2, l,
        .now (W.now r) :: .teensy [82] :: (bs.map .imu ++ [.teensy [76], .now (W.now (r + 1))])⟩ := by
  rw [new_spec hq hp hv] at hi
  obtain rfl := Except.ok.inj hi
  unfold setup at h
  simp only [bind, Except.bind] at h
  split at h
  · cases h
  rename_i i1 h1
  obtain ⟨ms, bs, f1, f2, rfl⟩ := sendIMU_spec h1
  obtain rfl := Except.ok.inj h
  refine ⟨ms, bs, f1, ?_, by simp⟩
  have : dueKinds (1 / (q : K)) (1 / (p : K)) (1 / (v : K)) ⟨W.now r, W.now r, W.now r, W.now r⟩ 10000 = [.quat, .pos, .vel] := by
    unfold dueKinds
    have e : ∀ x : K, 10000 + x - x = 10000 := fun x => by ring
    have h1 := period_small (K := K) hq
    have h2 := period_small (K := K) hp
    have h3 := period_small (K := K) hv
    rw [one_div] at h1 h2 h3
    simp [period, Clock.last, e, h1, h2, h3]
  rw [← this]
  exact f2

/-- **C108.** In every session that completes, whatever the clock shows and the hardware answers:
* a receiver of the sensor line gets orientation, position and velocity on the pad, and then exactly the messages due after each time step,
  with the state after that step;
* the messages of one kind are those sent at the times of C52, more than one update period apart;
* the last request for angles is made when the clock has reached the time of the simulation, counted from the end of the set-up. -/
theorem session_stream {S : Type} {pack : K → Nat × Nat × Nat × Nat} {parse : Str → Except PyErr K} {W : World K} {step : S → Except PyErr S}
    {pose : S → Pose K} {time : S → K} {n r l : ℕ} {s s' : S} {q p v : ℤ} (hq : 0 < q) (hp : 0 < p) (hv : 0 < v) {i i' : Iface K}
    (hi : Iface.new W r l q p v = .ok i) (h : session pack parse W step pose time n s i = .ok (s', i')) :
    ∃ ss pad ms, visited step n s = .ok ss ∧ s' = ss.getLastD s ∧
      receive (imuBytes i'.trace) = some (pad ++ ms) ∧ List.Forall₂ (Tells pack (pose s)) [.quat, .pos, .vel] pad ∧
      List.Forall₂ (fun e m => Tells pack e.2.1 e.1 m) (dueList (1 / (q : K)) (1 / (p : K)) (1 / (v : K))
        ⟨W.now (r + 1), W.now (r + 1), W.now (r + 1), W.now (r + 1)⟩ (ss.map fun s => (pose s, time s))) ms ∧
      (0 < n → ∃ k, r + 2 ≤ k ∧ i'.reads = k + 2 ∧ time s' ≤ W.now k - W.now (r + 1)) := by
  unfold session at h
  simp only [bind, Except.bind] at h
  split at h
  · cases h
  rename_i i1 h1
  obtain ⟨pad, bs, f1, f2, rfl⟩ := setup_spec hq hp hv hi h1
  obtain ⟨ss, v1, v2, -, -, -, v6, ms, bs', g1, g2, g3⟩ := fly_spec n s s' _ i' rfl h
  refine ⟨ss, pad, ms, v1, v2, ?_, f2, g2, fun hn => ?_⟩
  · rw [g3]
    have := receive_frames (List.rel_append f1 g1)
    simpa [imuBytes, imuBytes_append, imuBytes_imu] using this
  · obtain ⟨m, rfl⟩ : ∃ m, n = m + 1 := ⟨n - 1, by omega⟩
    obtain ⟨w1, w2, -⟩ := v6 m rfl
    exact ⟨i'.reads - 2, w1, by dsimp only at w1; omega, w2⟩

theorem sendIMU_runs {pack : K → Nat × Nat × Nat × Nat} (hpack : ∀ x, (pack x).1 < 256 ∧ (pack x).2.1 < 256 ∧ (pack x).2.2.1 < 256 ∧ (pack x).2.2.2 < 256)
    {i : Iface K} {p : Pose K} {t : K} (q : Quat K) (ho : p.ori = some q)
    (hw : |q.q0| ≤ 1) (hx : |q.q1| ≤ 1) (hy : |q.q2| ≤ 1) (hz : |q.q3| ≤ 1) : ∃ i1, sendIMU pack i p t = .ok i1 := by
  obtain ⟨-, -, -, -, pk, hpk, -, -, -, -, -, u, l, hb, -⟩ := quatPacket_wellFormed hw hx hy hz
  obtain ⟨⟨u1, l1, hb1, -⟩, -⟩ := vecPacket_wellFormed hpack p.pos (posPacket pack p.pos) (.inl rfl)
  obtain ⟨⟨u2, l2, hb2, -⟩, -⟩ := vecPacket_wellFormed hpack p.vel (velPacket pack p.vel) (.inr rfl)
  have e1 : ∃ i1, sendQuat i p t = .ok i1 := by
    unfold sendQuat
    split
    · rw [ho]; simp only [bind, Except.bind, hpk, hb]; exact ⟨_, rfl⟩
    · exact ⟨_, rfl⟩
  obtain ⟨i1, e1⟩ := e1
  have e2 : ∃ i2, sendPos pack i1 p t = .ok i2 := by
    unfold sendPos
    split
    · simp only [bind, Except.bind, hb1]; exact ⟨_, rfl⟩
    · exact ⟨_, rfl⟩
  obtain ⟨i2, e2⟩ := e2
  have e3 : ∃ i3, sendVel pack i2 p t = .ok i3 := by
    unfold sendVel
    split
    · simp only [bind, Except.bind, hb2]; exact ⟨_, rfl⟩
    · exact ⟨_, rfl⟩
  obtain ⟨i3, e3⟩ := e3
  exact ⟨i3, by unfold sendIMU; simp only [bind, Except.bind, e1, e2, e3]⟩

/-- **C108.** An exchange goes through if there is an orientation when one is due (a unit quaternion, say), the encoding of numbers gives bytes,
the lines read are numbers, and the clock reaches the time of the simulation. -/
theorem perform_runs {pack : K → Nat × Nat × Nat × Nat} (hpack : ∀ x, (pack x).1 < 256 ∧ (pack x).2.1 < 256 ∧ (pack x).2.2.1 < 256 ∧ (pack x).2.2.2 < 256)
    {parse : Str → Except PyErr K} {W : World K} {i : Iface K} {p : Pose K} {t : K} (hl : i.angles.length = 4) (q : Quat K) (ho : p.ori = some q)
    (hw : |q.q0| ≤ 1) (hx : |q.q1| ≤ 1) (hy : |q.q2| ≤ 1) (hz : |q.q3| ≤ 1)
    (hline : ∀ k < 4, W.line (i.lines + k) = [] ∨ ∃ y, parse (W.line (i.lines + k)) = .ok y)
    (hclock : ∃ k, i.reads ≤ k ∧ t ≤ W.now k - i.clock.start) : ∃ i', perform pack parse W i p t = .ok i' := by
  obtain ⟨a, b, c, d, ha⟩ : ∃ a b c d, i.angles = [a, b, c, d] := by
    match i.angles, hl with
    | [a, b, c, d], _ => exact ⟨a, b, c, d, rfl⟩
  have e := sendIMU_runs hpack (i := i) (t := t) q ho hw hx hy hz
  obtain ⟨i1, e1⟩ := e
  obtain ⟨ms, bs, -, -, rfl⟩ := sendIMU_spec e1
  have hk : ∃ k, waitUntil W i.clock.start t i.reads = .ok k := by
    unfold waitUntil
    obtain ⟨k, h1, h2⟩ := hclock
    rw [dif_pos ⟨k, h1, not_lt.2 h2⟩]
    exact ⟨_, rfl⟩
  obtain ⟨k, hk⟩ := hk
  have hx : ∀ m : Fin 4, ∃ y, (W.line (i.lines + m) = [] ∧ y = ![a, b, c, d] m) ∨ (W.line (i.lines + m) ≠ [] ∧ parse (W.line (i.lines + m)) = .ok y) := by
    intro m
    by_cases hm : W.line (i.lines + m) = []
    · exact ⟨_, .inl ⟨hm, rfl⟩⟩
    · rcases hline m m.2 with h | ⟨y, hy⟩
      · exact absurd h hm
      · exact ⟨y, .inr ⟨hm, hy⟩⟩
  choose x hx using hx
  unfold perform
  simp only [bind, Except.bind, e1]
  rw [show waitUntil W (send i.qp i.pp i.vp i.clock t).2.start t i.reads = .ok k from hk]
  dsimp only
  generalize hg : ({ i with
    clock := (send i.qp i.pp i.vp i.clock t).2, reads := k + 1
    trace := i.trace ++ bs.map .imu ++ (List.range' i.reads (k + 1 - i.reads)).map (fun j => Ev.now (W.now j)) } : Iface K) = g
  have hga : g.angles = [a, b, c, d] := by rw [← hg]; exact ha
  have hgl : g.lines = i.lines := by rw [← hg]
  rw [(request_iff hga).2 ⟨x, by rw [hgl]; exact hx, rfl⟩]
  exact ⟨_, rfl⟩

/-- sessions with hardware that answers and a clock that goes on complete -/
theorem fly_runs {S : Type} {pack : K → Nat × Nat × Nat × Nat}
    (hpack : ∀ x, (pack x).1 < 256 ∧ (pack x).2.1 < 256 ∧ (pack x).2.2.1 < 256 ∧ (pack x).2.2.2 < 256) {parse : Str → Except PyErr K} {W : World K}
    {step : S → Except PyErr S} {pose : S → Pose K} {time : S → K} (hline : ∀ k, W.line k = [] ∨ ∃ y, parse (W.line k) = .ok y)
    (hclock : ∀ (x : K) n, ∃ k, n ≤ k ∧ x ≤ W.now k)
    (hpose : ∀ s, ∃ q, (pose s).ori = some q ∧ |q.q0| ≤ 1 ∧ |q.q1| ≤ 1 ∧ |q.q2| ≤ 1 ∧ |q.q3| ≤ 1) (n : ℕ) (s : S) (ss : List S)
    (hv : visited step n s = .ok ss) (i : Iface K) (hl : i.angles.length = 4) :
    ∃ i', flyLoop pack parse W step pose time n s i = .ok (ss.getLastD s, i') := by
  induction n generalizing s ss i with
  | zero => obtain rfl := Except.ok.inj hv; exact ⟨i, rfl⟩
  | succ n ih =>
    unfold visited at hv
    split at hv
    · cases hv
    rename_i s1 h1
    split at hv
    · cases hv
    rename_i l hl1
    obtain rfl := Except.ok.inj hv
    obtain ⟨q, q0, q1, q2, q3, q4⟩ := hpose s1
    obtain ⟨k, k1, k2⟩ := hclock (time s1 + i.clock.start) i.reads
    obtain ⟨i1, e1⟩ := perform_runs hpack (W := W) (parse := parse) (t := time s1) hl q q0 q1 q2 q3 q4 (fun k _ => hline _) ⟨k, k1, by linarith⟩
    obtain ⟨a, b, c, d, ha⟩ : ∃ a b c d, i.angles = [a, b, c, d] := by
      match i.angles, hl with
      | [a, b, c, d], _ => exact ⟨a, b, c, d, rfl⟩
    have hl2 : i1.angles.length = 4 := by
      obtain ⟨-, -, -, -, -, -, -, -, rfl⟩ := perform_spec ha e1
      rfl
    obtain ⟨i', hi'⟩ := ih s1 l hl1 i1 hl2
    refine ⟨i', ?_⟩
    unfold flyLoop
    simp only [bind, Except.bind, h1, e1, hi', List.getLastD_cons]

/-- **C108.** Sessions with hardware that answers and a clock that goes on complete. -/
theorem session_runs {S : Type} {pack : K → Nat × Nat × Nat × Nat}
    (hpack : ∀ x, (pack x).1 < 256 ∧ (pack x).2.1 < 256 ∧ (pack x).2.2.1 < 256 ∧ (pack x).2.2.2 < 256) {parse : Str → Except PyErr K} {W : World K}
    {step : S → Except PyErr S} {pose : S → Pose K} {time : S → K} (hline : ∀ k, W.line k = [] ∨ ∃ y, parse (W.line k) = .ok y)
    (hclock : ∀ (x : K) n, ∃ k, n ≤ k ∧ x ≤ W.now k)
    (hpose : ∀ s, ∃ q, (pose s).ori = some q ∧ |q.q0| ≤ 1 ∧ |q.q1| ≤ 1 ∧ |q.q2| ≤ 1 ∧ |q.q3| ≤ 1) (n r l : ℕ) (s : S) (ss : List S)
    (hv : visited step n s = .ok ss) {q p v : ℤ} (hq : 0 < q) (hp : 0 < p) (hvel : 0 < v) :
    ∃ i i', Iface.new W r l q p v = .ok i ∧ session pack parse W step pose time n s i = .ok (ss.getLastD s, i') := by
  obtain ⟨o, o0, o1, o2, o3, o4⟩ := hpose s
  have hn := new_spec (W := W) (r := r) (l := l) hq hp hvel
  have hs : ∃ i1, setup pack W ⟨1 / (q : K), 1 / (p : K), 1 / (v : K), ⟨W.now r, W.now r, W.now r, W.now r⟩, [0, 0, 0, 0], r + 1, l, [.now (W.now r)]⟩ (pose s) = .ok i1 := by
    unfold setup
    simp only [bind, Except.bind]
    obtain ⟨i1, e1⟩ := sendIMU_runs hpack (i := ⟨1 / (q : K), 1 / (p : K), 1 / (v : K), ⟨W.now r, W.now r, W.now r, W.now r⟩, [0, 0, 0, 0], r + 1, l, [.now (W.now r)] ++ [.teensy [82]]⟩)
      (t := 10000) o o0 o1 o2 o3 o4
    rw [e1]
    exact ⟨_, rfl⟩
  obtain ⟨i1, hs⟩ := hs
  have hl : i1.angles.length = 4 := by
    obtain ⟨-, -, -, -, rfl⟩ := setup_spec hq hp hvel hn hs
    rfl
  obtain ⟨i', hi'⟩ := fly_runs (time := time) hpack hline hclock hpose n s ss hv i1 hl
  refine ⟨_, i', hn, ?_⟩
  unfold session
  simp only [bind, Except.bind, hs, hi']

/-! ## Failures -/

theorem four_angles {l : List K} {a b c d : K} (hl : l.length = 4) (h0 : l[0]? = some a) (h1 : l[1]? = some b) (h2 : l[2]? = some c)
    (h3 : l[3]? = some d) : l = [a, b, c, d] := by
  match l, hl with
  | [w, x, y, z], _ =>
    simp only [List.getElem?_cons_zero, List.getElem?_cons_succ, Option.some.injEq] at h0 h1 h2 h3
    rw [h0, h1, h2, h3]

/-- **C108** violated: the hardware has no influence on the flight. The states are those of the simulation without hardware, whatever angles
the hardware answers. -/
theorem hardware_ignored_violated {S : Type} {pack : K → Nat × Nat × Nat × Nat} {parse : Str → Except PyErr K} {W W' : World K}
    {step : S → Except PyErr S} {pose : S → Pose K} {time : S → K} {n : ℕ} {s s₁ s₂ : S} {i i₁ j j₂ : Iface K}
    (hi : i.angles.length = 4) (hj : j.angles.length = 4) (h₁ : flyLoop pack parse W step pose time n s i = .ok (s₁, i₁))
    (h₂ : flyLoop pack parse W' step pose time n s j = .ok (s₂, j₂)) : s₁ = s₂ ∧ ∃ ss, visited step n s = .ok ss ∧ s₁ = ss.getLastD s := by
  obtain ⟨ss, a1, a2, -⟩ := fly_spec n s s₁ i i₁ hi h₁
  obtain ⟨ss', b1, b2, -⟩ := fly_spec n s s₂ j j₂ hj h₂
  rw [a1] at b1
  obtain rfl := Except.ok.inj b1
  exact ⟨a2.trans b2.symm, ss, a1, a2⟩

/-- **C108.** A controller whose four answers to every request come in time: after every step each canard has the angle answered last. -/
theorem answers_in_time {S : Type} {pack : K → Nat × Nat × Nat × Nat} {parse : Str → Except PyErr K} {W : World K} {step : S → Except PyErr S}
    {pose : S → Pose K} {time : S → K} {n : ℕ} {s s' : S} {i i' : Iface K} (hl : i.angles.length = 4) (text : ℕ → ℕ → Str) (angle : ℕ → ℕ → K)
    (ht : ∀ j k, k < 4 → text j k ≠ [] ∧ parse (text j k) = .ok (angle j k))
    (hW : ∀ j k, k < 4 → W.line (i.lines + 4 * j + k) = text j k)
    (h : flyLoop pack parse W step pose time (n + 1) s i = .ok (s', i')) : i'.angles = [angle n 0, angle n 1, angle n 2, angle n 3] := by
  obtain ⟨-, -, -, hlen, -, -, hm, -⟩ := fly_spec (n + 1) s s' i i' hl h
  obtain ⟨-, -, hk⟩ := hm n rfl
  have key : ∀ k < 4, i'.angles[k]? = some (angle n k) := by
    intro k hk4
    have := hk k hk4
    rw [hW n k hk4] at this
    obtain ⟨y, h1, h2⟩ := this (ht n k hk4).1
    rw [(ht n k hk4).2] at h1
    rw [h2, Except.ok.inj h1]
  have k0 := key 0 (by omega)
  have k1 := key 1 (by omega)
  have k2 := key 2 (by omega)
  have k3 := key 3 (by omega)
  exact four_angles hlen k0 k1 k2 k3

/-- **C108** violated: if one answer comes late, once, every later angle is given to the wrong canard: from the second request on, canard 1
has the angle of canard 4 one request earlier, canards 2, 3 and 4 have those of canards 1, 2 and 3. -/
theorem late_answer_violated {S : Type} {pack : K → Nat × Nat × Nat × Nat} {parse : Str → Except PyErr K} {W : World K} {step : S → Except PyErr S}
    {pose : S → Pose K} {time : S → K} {n : ℕ} {s s' : S} {i i' : Iface K} (hl : i.angles.length = 4) (text : ℕ → ℕ → Str) (angle : ℕ → ℕ → K)
    (ht : ∀ j k, k < 4 → text j k ≠ [] ∧ parse (text j k) = .ok (angle j k))
    (hW : ∀ j k, k < 4 → W.line (i.lines + 1 + 4 * j + k) = text j k)
    (h : flyLoop pack parse W step pose time (n + 2) s i = .ok (s', i')) :
    i'.angles = [angle n 3, angle (n + 1) 0, angle (n + 1) 1, angle (n + 1) 2] := by
  obtain ⟨-, -, -, hlen, -, -, hm, -⟩ := fly_spec (n + 2) s s' i i' hl h
  obtain ⟨-, -, hk⟩ := hm (n + 1) rfl
  have key : ∀ m k k', k < 4 → k' < 4 → 4 * (n + 1) + k = 1 + 4 * m + k' → i'.angles[k]? = some (angle m k') := by
    intro m k k' hk4 hk4' e
    have := hk k hk4
    rw [show i.lines + 4 * (n + 1) + k = i.lines + 1 + 4 * m + k' by omega, hW m k' hk4'] at this
    obtain ⟨y, h1, h2⟩ := this (ht m k' hk4').1
    rw [(ht m k' hk4').2] at h1
    rw [h2, Except.ok.inj h1]
  have k0 := key n 0 3 (by omega) (by omega) (by omega)
  have k1 := key (n + 1) 1 0 (by omega) (by omega) (by omega)
  have k2 := key (n + 1) 2 1 (by omega) (by omega) (by omega)
  have k3 := key (n + 1) 3 2 (by omega) (by omega) (by omega)
  exact four_angles hlen k0 k1 k2 k3

/-- **C108** violated: the first orientation due after the parachute is out ends the simulation with an error; so does a line that is not a
number. -/
theorem session_dies_violated {pack : K → Nat × Nat × Nat × Nat} {parse : Str → Except PyErr K} {W : World K} {i : Iface K} {p : Pose K} {t : K} :
    (p.ori = none → i.qp < t + i.clock.start - i.clock.lastQuat → perform pack parse W i p t = .error .attributeError) ∧
    (∀ e, i.angles.length = 4 → W.line i.lines ≠ [] → parse (W.line i.lines) = .error e → requestAngles W parse i = .error e) := by
  constructor
  · intro h1 h2
    unfold perform sendIMU sendQuat
    rw [if_pos h2, h1]
    rfl
  · intro e _ h1 h2
    unfold requestAngles readAngle
    simp only [bind, Except.bind, if_neg h1, h2]

/-- **C108** violated: the messages about a step are sent before the clock has reached its time: when the program is ahead of the clock they
are already out while it waits. -/
theorem sent_early_violated {pack : K → Nat × Nat × Nat × Nat} {parse : Str → Except PyErr K} {W : World K} {i i' : Iface K} {p : Pose K} {t : K}
    (hl : i.angles.length = 4) (h : perform pack parse W i p t = .ok i') (hd : i.pp < t + i.clock.start - i.clock.lastPos)
    (hw : W.now i.reads - i.clock.start < t) :
    ∃ a b rest, i'.trace = i.trace ++ a ++ [.imu b] ++ rest ∧ (∀ e ∈ a, ∃ x, e = .imu x) ∧
      Ev.now (W.now i.reads) ∈ rest := by
  obtain ⟨a, b, c, d, ha⟩ : ∃ a b c d, i.angles = [a, b, c, d] := by
    match i.angles, hl with
    | [a, b, c, d], _ => exact ⟨a, b, c, d, rfl⟩
  obtain ⟨ms, bs, k, x, f1, f2, ⟨k1, k2, -⟩, -, rfl⟩ := perform_spec ha h
  have hmem : Kind.pos ∈ dueKinds i.qp i.pp i.vp i.clock t := by
    unfold dueKinds
    simp [period, Clock.last, hd]
  have hne : bs ≠ [] := by
    rintro rfl
    cases f1
    cases hdk : dueKinds i.qp i.pp i.vp i.clock t with
    | nil => rw [hdk] at hmem; cases hmem
    | cons _ _ => rw [hdk] at f2; cases f2
  obtain ⟨b0, bl, rfl⟩ : ∃ b0 bl, bs = b0 ++ [bl] := ⟨bs.dropLast, bs.getLast hne, (List.dropLast_append_getLast hne).symm⟩
  refine ⟨b0.map .imu, bl, _, by simp only [List.map_append, List.map_cons, List.map_nil, List.append_assoc, List.cons_append, List.nil_append]; rfl, ?_, ?_⟩
  · intro e he
    obtain ⟨x, -, rfl⟩ := List.mem_map.1 he
    exact ⟨x, rfl⟩
  · refine List.mem_append_left _ (List.mem_map.2 ⟨i.reads, ?_, rfl⟩)
    rw [List.mem_range'_1]
    omega

/-! ## The hypotheses can be met -/

/-- a rocket that stands still, two steps of a tenth of a second; every reading of the clock is one second later: the session completes, the
sensor line carries the state on the pad and twice the three messages -/
example (pack : ℚ → Nat × Nat × Nat × Nat) (hpack : ∀ x, (pack x).1 < 256 ∧ (pack x).2.1 < 256 ∧ (pack x).2.2.1 < 256 ∧ (pack x).2.2.2 < 256) :
    ∃ i i', Iface.new (⟨fun n => n, fun _ => ['5']⟩ : World ℚ) 0 0 100 20 20 = .ok i ∧
      session pack (fun _ => .ok 5) ⟨fun n => n, fun _ => ['5']⟩ (fun s : ℚ => .ok (s + 1 / 10)) (fun _ => ⟨⟨0, 0, 0⟩, ⟨0, 0, 0⟩, some ⟨1, 0, 0, 0⟩⟩) id 2 0 i =
        .ok (2 / 10, i') ∧ ∃ ms, receive (imuBytes i'.trace) = some ms ∧ ms.length = 9 := by
  have hclock : ∀ (x : ℚ) (n : ℕ), ∃ k, n ≤ k ∧ x ≤ ((k : ℕ) : ℚ) := fun x n => by
    obtain ⟨m, hm⟩ := exists_nat_ge x
    exact ⟨max n m, le_max_left _ _, hm.trans (by exact_mod_cast le_max_right n m)⟩
  have hv : visited (fun s : ℚ => .ok (s + 1 / 10)) 2 0 = .ok [1 / 10, 2 / 10] := by
    simp only [visited]
    norm_num
  obtain ⟨i, i', h1, h2⟩ := session_runs (W := (⟨fun n => n, fun _ => ['5']⟩ : World ℚ)) (parse := fun _ => .ok 5) (time := id)
    (pose := fun _ => ⟨⟨0, 0, 0⟩, ⟨0, 0, 0⟩, some ⟨1, 0, 0, 0⟩⟩) hpack (fun _ => .inr ⟨5, rfl⟩) hclock
    (fun _ => ⟨_, rfl, by norm_num, by norm_num, by norm_num, by norm_num⟩) 2 0 0 0 _ hv (q := 100) (p := 20) (v := 20) (by norm_num) (by norm_num) (by norm_num)
  refine ⟨i, i', h1, h2, ?_⟩
  obtain ⟨ss, pad, ms, e1, -, e2, e3, e4, -⟩ := session_stream (by norm_num) (by norm_num) (by norm_num) h1 h2
  rw [hv] at e1
  obtain rfl := Except.ok.inj e1
  refine ⟨_, e2, ?_⟩
  rw [List.length_append, ← e3.length_eq, ← e4.length_eq]
  have d1 : (1 : ℚ) / ((100 : ℤ) : ℚ) = 1 / 100 := by norm_num
  have d2 : (1 : ℚ) / ((20 : ℤ) : ℚ) = 1 / 20 := by norm_num
  rw [d1, d2]
  simp only [List.map_cons, List.map_nil, dueList, List.length_append, List.length_map, List.length_nil]
  norm_num [dueKinds, send, period, Clock.last]

/-- a controller that answers 1, 2, 3, 4 to the first request and 5, 6, 7, 8 to the second, the first answer late -/
example (pack : ℚ → Nat × Nat × Nat × Nat) (hpack : ∀ x, (pack x).1 < 256 ∧ (pack x).2.1 < 256 ∧ (pack x).2.2.1 < 256 ∧ (pack x).2.2.2 < 256) :
    ∃ i', flyLoop pack (fun l => .ok (l.length : ℚ)) ⟨fun n => n, fun m => List.replicate m 'x'⟩ (fun s : ℚ => .ok (s + 1 / 10))
        (fun _ => ⟨⟨0, 0, 0⟩, ⟨0, 0, 0⟩, some ⟨1, 0, 0, 0⟩⟩) id 2 0 ⟨1, 1, 1, ⟨0, 0, 0, 0⟩, [0, 0, 0, 0], 0, 0, []⟩ = .ok (2 / 10, i') ∧
      i'.angles = [4, 5, 6, 7] := by
  have hclock : ∀ (x : ℚ) (n : ℕ), ∃ k, n ≤ k ∧ x ≤ ((k : ℕ) : ℚ) := fun x n => by
    obtain ⟨m, hm⟩ := exists_nat_ge x
    exact ⟨max n m, le_max_left _ _, hm.trans (by exact_mod_cast le_max_right n m)⟩
  have hv : visited (fun s : ℚ => .ok (s + 1 / 10)) 2 0 = .ok [1 / 10, 2 / 10] := by
    simp only [visited]
    norm_num
  obtain ⟨i', h⟩ := fly_runs (W := (⟨fun n => n, fun m => List.replicate m 'x'⟩ : World ℚ)) (parse := fun l => .ok (l.length : ℚ)) (time := id)
    (pose := fun _ => ⟨⟨0, 0, 0⟩, ⟨0, 0, 0⟩, some ⟨1, 0, 0, 0⟩⟩) hpack (fun _ => .inr ⟨_, rfl⟩) hclock
    (fun _ => ⟨_, rfl, by norm_num, by norm_num, by norm_num, by norm_num⟩) 2 0 _ hv ⟨1, 1, 1, ⟨0, 0, 0, 0⟩, [0, 0, 0, 0], 0, 0, []⟩ rfl
  refine ⟨i', h, ?_⟩
  have := late_answer_violated (n := 0) rfl (fun j k => List.replicate (1 + 4 * j + k) 'x') (fun j k => ((1 + 4 * j + k : ℕ) : ℚ))
    (fun j k _ => ⟨by simp, by simp⟩) (fun j k _ => by simp) h
  rw [this]
  norm_num

end Mapleaf.Run.Hil
