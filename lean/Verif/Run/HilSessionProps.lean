import Verif.Run.HilSessionModel
import Verif.Run.HilProps

/-!
# C108: simulations with hardware in the loop
-/

namespace Mapleaf.Run.Hil

open Mapleaf.Motion

variable {K : Type} [Field K] [LinearOrder K] [IsStrictOrderedRing K] [FloorRing K]

deriving instance DecidableEq for Kind

/-! ## What the sensor line carries -/

/-- a receiver of the sensor line: reads messages (address and data) one after the other, the number of data bytes from the type byte, and
compares the check sums -/
def receiveAux : ℕ → List Nat → Option (List (Nat × List Nat))
  | _, [] => some []
  | f + 1, 115 :: 110 :: 112 :: pt :: a :: rest =>
    match rest.drop (4 * (pt / 4 % 16)) with
    | u :: l :: more =>
      if 256 * u + l = 115 + 110 + 112 + pt + a + (rest.take (4 * (pt / 4 % 16))).sum then
        (receiveAux f more).map ((a, rest.take (4 * (pt / 4 % 16))) :: ·)
      else none
    | _ => none
  | _, _ => none

def receive (bytes : List Nat) : Option (List (Nat × List Nat)) := receiveAux bytes.length bytes

/-- `b` is a message with address and data `m`, as the receiver wants it -/
def Frame (m : Nat × List Nat) (b : List Nat) : Prop :=
  ∃ pt u l, b = [115, 110, 112, pt, m.1] ++ m.2 ++ [u, l] ∧ m.2.length = 4 * (pt / 4 % 16) ∧ 256 * u + l = 115 + 110 + 112 + pt + m.1 + m.2.sum

theorem receiveAux_cons (f pt a : ℕ) (rest : List Nat) : receiveAux (f + 1) (115 :: 110 :: 112 :: pt :: a :: rest) =
    match rest.drop (4 * (pt / 4 % 16)) with
    | u :: l :: more =>
      if 256 * u + l = 115 + 110 + 112 + pt + a + (rest.take (4 * (pt / 4 % 16))).sum then
        (receiveAux f more).map ((a, rest.take (4 * (pt / 4 % 16))) :: ·)
      else none
    | _ => none := by rw [receiveAux]

theorem receive_frames {ms : List (Nat × List Nat)} {bs : List (List Nat)} (h : List.Forall₂ Frame ms bs) : receive bs.flatten = some ms := by
  have key : ∀ f, ms.length ≤ f → receiveAux f bs.flatten = some ms := by
    induction h with
    | nil => intro f _; cases f <;> rfl
    | @cons m b ms bs hmb _ ih =>
      intro f hf
      cases f with
      | zero => simp at hf
      | succ f =>
        obtain ⟨pt, u, l, rfl, hl, hs⟩ := hmb
        have e : (([115, 110, 112, pt, m.1] ++ m.2 ++ [u, l]) :: bs).flatten = 115 :: 110 :: 112 :: pt :: m.1 :: (m.2 ++ (u :: l :: bs.flatten)) := by simp
        rw [e]
        rw [receiveAux_cons, List.drop_left' hl, List.take_left' hl]
        dsimp only
        rw [if_pos hs, ih f (by simpa using hf)]
        rfl
  refine key _ ?_
  clear key
  induction h with
  | nil => simp
  | cons hmb _ ih =>
    obtain ⟨pt, u, l, rfl, -, -⟩ := hmb
    rw [List.flatten_cons, List.length_append, List.length_cons]
    simp only [List.length_append, List.length_cons, List.length_nil]
    omega

theorem pyBytes_inv {l r : List Nat} (h : pyBytes l = .ok r) : r = l := by
  unfold pyBytes at h
  split at h
  · exact (Except.ok.inj h).symm
  · cases h

theorem writePacket_inv {p : Packet} {b : List Nat} (h : writePacket p = .ok b) (hl : p.data.length = 4 * (p.pt / 4 % 16)) :
    Frame (p.address, p.data) b := by
  unfold writePacket at h
  simp only [bind, Except.bind] at h
  split at h
  · cases h
  rename_i v hv
  obtain ⟨u, l⟩ := v
  dsimp only at h
  split at h
  · cases h
  rename_i h1
  split at h
  · cases h
  rename_i h2
  split at h
  · cases h
  rename_i h3
  split at h
  · cases h
  rename_i h4
  split at h
  · cases h
  rename_i h5
  obtain rfl := Except.ok.inj h
  rw [pyBytes_inv h1, pyBytes_inv h2, pyBytes_inv h3, pyBytes_inv h4, pyBytes_inv h5]
  unfold checkSum toBytes2 at hv
  split at hv
  · obtain ⟨rfl, rfl⟩ := Prod.mk.inj (Except.ok.inj hv)
    refine ⟨p.pt, total p / 256, total p % 256, by simp, hl, ?_⟩
    rw [Nat.div_add_mod]
    rfl
  · cases hv

/-- `m` is the message that tells orientation, position or velocity of `p` -/
def Tells (pack : K → Nat × Nat × Nat × Nat) (p : Pose K) : Kind → Nat × List Nat → Prop
  | .quat, m => m.1 = 109 ∧ ∃ q, p.ori = some q ∧ quatBytes q = .ok m.2
  | .pos, m => m = (117, vecBytes pack p.pos)
  | .vel, m => m = (121, vecBytes pack p.vel)

/-- the kinds of messages due at time `t`: those whose last message is more than their period ago -/
def dueKinds (qp pp vp : K) (c : Clock K) (t : K) : List Kind :=
  [Kind.quat, Kind.pos, Kind.vel].filter (fun k => decide (period k qp pp vp < t + c.start - c.last k))

theorem quatBytes_length {q : Quat K} {d : List Nat} (h : quatBytes q = .ok d) : d.length = 12 := by
  unfold quatBytes at h
  simp only [bind, Except.bind] at h
  repeat' split at h
  all_goals first
    | cases h; done
    | (obtain rfl := Except.ok.inj h; rfl)

theorem sendIMU_spec {pack : K → Nat × Nat × Nat × Nat} {i i' : Iface K} {p : Pose K} {t : K} (h : sendIMU pack i p t = .ok i') :
    ∃ ms bs, List.Forall₂ Frame ms bs ∧ List.Forall₂ (Tells pack p) (dueKinds i.qp i.pp i.vp i.clock t) ms ∧
      i' = { i with trace := i.trace ++ bs.map .imu, clock := (send i.qp i.pp i.vp i.clock t).2 } := by
  unfold sendIMU at h
  simp only [bind, Except.bind] at h
  split at h
  · cases h
  rename_i i1 h1
  split at h
  · cases h
  rename_i i2 h2
  have q : ∃ ms bs, List.Forall₂ Frame ms bs ∧
      List.Forall₂ (Tells pack p) (if i.qp < t + i.clock.start - i.clock.lastQuat then [Kind.quat] else []) ms ∧
      i1 = { i with trace := i.trace ++ bs.map .imu, clock := { i.clock with lastQuat := if i.qp < t + i.clock.start - i.clock.lastQuat then t + i.clock.start else i.clock.lastQuat } } := by
    unfold sendQuat at h1
    split at h1
    · rename_i hd
      split at h1
      · cases h1
      rename_i q hq
      simp only [bind, Except.bind] at h1
      split at h1
      · cases h1
      rename_i pk hpk
      split at h1
      · cases h1
      rename_i b hb
      unfold quatPacket at hpk
      simp only [bind, Except.bind] at hpk
      split at hpk
      · cases hpk
      rename_i d hdd
      obtain rfl := Except.ok.inj hpk
      obtain rfl := Except.ok.inj h1
      refine ⟨[(109, d)], [b], .cons (writePacket_inv hb ?_) .nil, ?_, ?_⟩
      · simp [quatBytes_length hdd, ptByte]
      · rw [if_pos hd]; exact .cons ⟨rfl, q, hq, hdd⟩ .nil
      · simp [hd]
    · rename_i hd
      obtain rfl := Except.ok.inj h1
      exact ⟨[], [], .nil, by rw [if_neg hd]; exact .nil, by simp [hd]⟩
  obtain ⟨m1, b1, f1, t1, rfl⟩ := q
  have q : ∃ ms bs, List.Forall₂ Frame ms bs ∧
      List.Forall₂ (Tells pack p) (if i.pp < t + i.clock.start - i.clock.lastPos then [Kind.pos] else []) ms ∧
      i2 = { i with trace := i.trace ++ b1.map .imu ++ bs.map .imu, clock := { i.clock with
        lastQuat := if i.qp < t + i.clock.start - i.clock.lastQuat then t + i.clock.start else i.clock.lastQuat
        lastPos := if i.pp < t + i.clock.start - i.clock.lastPos then t + i.clock.start else i.clock.lastPos } } := by
    unfold sendPos at h2
    dsimp only at h2
    split at h2
    · rename_i hd
      simp only [bind, Except.bind] at h2
      split at h2
      · cases h2
      rename_i b hb
      obtain rfl := Except.ok.inj h2
      refine ⟨[(117, vecBytes pack p.pos)], [b], .cons (writePacket_inv hb (by simp [posPacket, ptByte, vecBytes, convertFloat, timeSpoof])) .nil, ?_, ?_⟩
      · rw [if_pos hd]; exact .cons rfl .nil
      · simp [hd]
    · rename_i hd
      obtain rfl := Except.ok.inj h2
      exact ⟨[], [], .nil, by rw [if_neg hd]; exact .nil, by simp [hd]⟩
  obtain ⟨m2, b2, f2, t2, rfl⟩ := q
  have q : ∃ ms bs, List.Forall₂ Frame ms bs ∧
      List.Forall₂ (Tells pack p) (if i.vp < t + i.clock.start - i.clock.lastVel then [Kind.vel] else []) ms ∧
      i' = { i with trace := i.trace ++ b1.map .imu ++ b2.map .imu ++ bs.map .imu, clock := { i.clock with
        lastQuat := if i.qp < t + i.clock.start - i.clock.lastQuat then t + i.clock.start else i.clock.lastQuat
        lastPos := if i.pp < t + i.clock.start - i.clock.lastPos then t + i.clock.start else i.clock.lastPos
        lastVel := if i.vp < t + i.clock.start - i.clock.lastVel then t + i.clock.start else i.clock.lastVel } } := by
    unfold sendVel at h
    dsimp only at h
    split at h
    · rename_i hd
      simp only [bind, Except.bind] at h
      split at h
      · cases h
      rename_i b hb
      obtain rfl := Except.ok.inj h
      refine ⟨[(121, vecBytes pack p.vel)], [b], .cons (writePacket_inv hb (by simp [velPacket, ptByte, vecBytes, convertFloat, timeSpoof])) .nil, ?_, ?_⟩
      · rw [if_pos hd]; exact .cons rfl .nil
      · simp [hd]
    · rename_i hd
      obtain rfl := Except.ok.inj h
      exact ⟨[], [], .nil, by rw [if_neg hd]; exact .nil, by simp [hd]⟩
  obtain ⟨m3, b3, f3, t3, rfl⟩ := q
  refine ⟨m1 ++ (m2 ++ m3), b1 ++ (b2 ++ b3), List.rel_append f1 (List.rel_append f2 f3), ?_, ?_⟩
  · have : dueKinds i.qp i.pp i.vp i.clock t = (if i.qp < t + i.clock.start - i.clock.lastQuat then [Kind.quat] else []) ++
        ((if i.pp < t + i.clock.start - i.clock.lastPos then [Kind.pos] else []) ++ (if i.vp < t + i.clock.start - i.clock.lastVel then [Kind.vel] else [])) := by
      unfold dueKinds
      by_cases h1 : i.qp < t + i.clock.start - i.clock.lastQuat <;> by_cases h2 : i.pp < t + i.clock.start - i.clock.lastPos <;>
        by_cases h3 : i.vp < t + i.clock.start - i.clock.lastVel <;> simp [period, Clock.last, h1, h2, h3]
    rw [this]
    exact List.rel_append t1 (List.rel_append t2 t3)
  · simp [send]

/-! ## What the controller answers -/

/-- **C108.** After a request every canard has the angle of its line, or the one it had if its line did not come in time; a line that is not a
number is an error. -/
theorem request_iff {W : World K} {parse : Str → Except PyErr K} {i i' : Iface K} {a b c d : K} (ha : i.angles = [a, b, c, d]) :
    requestAngles W parse i = .ok i' ↔ ∃ x : Fin 4 → K,
      (∀ k : Fin 4, (W.line (i.lines + k) = [] ∧ x k = ![a, b, c, d] k) ∨ (W.line (i.lines + k) ≠ [] ∧ parse (W.line (i.lines + k)) = .ok (x k))) ∧
      i' = { i with angles := [x 0, x 1, x 2, x 3], lines := i.lines + 4,
                    trace := i.trace ++ [.teensy [113], .line (W.line i.lines), .line (W.line (i.lines + 1)), .line (W.line (i.lines + 2)), .line (W.line (i.lines + 3))] } := by
  have one : ∀ (j : Iface K) (k : ℕ) (old : K) (j' : Iface K), j.angles[k]? = some old →
      (readAngle W parse j k = .ok j' ↔ ∃ y, ((W.line j.lines = [] ∧ y = old) ∨ (W.line j.lines ≠ [] ∧ parse (W.line j.lines) = .ok y)) ∧
        j' = { j with angles := j.angles.set k y, lines := j.lines + 1, trace := j.trace ++ [.line (W.line j.lines)] }) := by
    intro j k old j' hk
    have hset : j.angles.set k old = j.angles := by
      apply List.ext_getElem?
      intro n
      rw [List.getElem?_set]
      split_ifs with h1 h2
      · subst h1; exact hk.symm
      · subst h1; rw [List.getElem?_eq_none (by omega)]
      · rfl
    unfold readAngle
    dsimp only
    by_cases hl : W.line j.lines = []
    · rw [if_pos hl]
      constructor
      · intro h
        refine ⟨old, .inl ⟨hl, rfl⟩, ?_⟩
        rw [hset]
        exact (Except.ok.inj h).symm
      · rintro ⟨y, ⟨-, rfl⟩ | ⟨h, -⟩, rfl⟩
        · rw [hset]
        · exact absurd hl h
    · rw [if_neg hl]
      simp only [bind, Except.bind]
      constructor
      · intro h
        split at h
        · cases h
        rename_i y hy
        exact ⟨y, .inr ⟨hl, hy⟩, (Except.ok.inj h).symm⟩
      · rintro ⟨y, ⟨h, -⟩ | ⟨-, h⟩, rfl⟩
        · exact absurd h hl
        · rw [h]
  unfold requestAngles
  simp only [bind, Except.bind]
  constructor
  · intro h
    split at h
    · cases h
    rename_i i1 h1
    obtain ⟨x0, c0, rfl⟩ := (one _ 0 a _ (by simp [ha])).1 h1
    split at h
    · cases h
    rename_i i2 h2
    obtain ⟨x1, c1, rfl⟩ := (one _ 1 b _ (by simp [ha])).1 h2
    split at h
    · cases h
    rename_i i3 h3
    obtain ⟨x2, c2, rfl⟩ := (one _ 2 c _ (by simp [ha])).1 h3
    obtain ⟨x3, c3, rfl⟩ := (one _ 3 d _ (by simp [ha])).1 h
    refine ⟨![x0, x1, x2, x3], ?_, by simp [ha]⟩
    intro k
    fin_cases k
    · exact c0
    · exact c1
    · exact c2
    · exact c3
  · rintro ⟨x, hx, rfl⟩
    let j0 : Iface K := { i with trace := i.trace ++ [.teensy [113]] }
    let nx : Iface K → ℕ → K → Iface K := fun j k y => { j with angles := j.angles.set k y, lines := j.lines + 1, trace := j.trace ++ [.line (W.line j.lines)] }
    have e0 : readAngle W parse j0 0 = .ok (nx j0 0 (x 0)) := (one j0 0 a _ (by simp [j0, ha])).2 ⟨x 0, hx 0, rfl⟩
    have e1 : readAngle W parse (nx j0 0 (x 0)) 1 = .ok (nx (nx j0 0 (x 0)) 1 (x 1)) := (one _ 1 b _ (by simp [nx, j0, ha])).2 ⟨x 1, hx 1, rfl⟩
    have e2 : readAngle W parse (nx (nx j0 0 (x 0)) 1 (x 1)) 2 = .ok (nx (nx (nx j0 0 (x 0)) 1 (x 1)) 2 (x 2)) :=
      (one _ 2 c _ (by simp [nx, j0, ha])).2 ⟨x 2, hx 2, rfl⟩
    have e3 : readAngle W parse (nx (nx (nx j0 0 (x 0)) 1 (x 1)) 2 (x 2)) 3 = .ok (nx (nx (nx (nx j0 0 (x 0)) 1 (x 1)) 2 (x 2)) 3 (x 3)) :=
      (one _ 3 d _ (by simp [nx, j0, ha])).2 ⟨x 3, hx 3, rfl⟩
    rw [show readAngle W parse { i with trace := i.trace ++ [.teensy [113]] } 0 = .ok (nx j0 0 (x 0)) from e0]
    dsimp only
    rw [e1]
    dsimp only
    rw [e2]
    dsimp only
    rw [e3]
    simp [nx, j0, ha]

end Mapleaf.Run.Hil
