import Verif.Run.HilModel
import Verif.Motion.QuatProps
import Mathlib.Tactic.Linarith
import Mathlib.Tactic.FieldSimp
import Mathlib.Tactic.NormNum
import Mathlib.Algebra.Order.BigOperators.Group.List

/-!
# Hardware-in-the-loop packets are well formed (C52)
-/

namespace Mapleaf.Run.Hil

open Mapleaf.Motion V3

/-! ## framing -/

/-- **Type byte.**  For up to 15 registers the type byte fits a byte, and its fields can be read back: bit 7
says that there is data, bit 6 that it is a batch, bits 2–5 hold the register count, bits 0–1 are clear. -/
theorem ptByte_fields (h b : Bool) {n : Nat} (hn : n ≤ 15) :
    ptByte h b n < 256 ∧ (ptByte h b n / 128 = if h then 1 else 0) ∧
      (ptByte h b n / 64 % 2 = if b then 1 else 0) ∧ ptByte h b n / 4 % 16 = n ∧ ptByte h b n % 4 = 0 := by
  cases h <;> cases b <;> simp [ptByte] <;> omega

theorem total_lt {p : Packet} (hpt : p.pt < 256) (ha : p.address < 256) (hd : ∀ b ∈ p.data, b < 256)
    (hl : p.data.length ≤ 253) : total p < 65536 := by
  have : p.data.sum ≤ p.data.length * 255 := by
    have := List.sum_le_card_nsmul p.data 255 (fun b hb => by have := hd b hb; omega)
    simpa using this
  unfold total
  omega

/-- **Framing.**  Every packet with byte-sized fields and at most 253 data bytes is written without an
error: the three start characters, the type byte, the address, the data, and a checksum which is exactly
the sum of all the bytes before it (nothing is lost in 16 bits). -/
theorem writePacket_spec {p : Packet} (hpt : p.pt < 256) (ha : p.address < 256) (hd : ∀ b ∈ p.data, b < 256)
    (hl : p.data.length ≤ 253) :
    ∃ u l, u < 256 ∧ l < 256 ∧
      writePacket p = .ok ([115, 110, 112, p.pt, p.address] ++ p.data ++ [u, l]) ∧
      256 * u + l = ([115, 110, 112, p.pt, p.address] ++ p.data).sum := by
  have ht := total_lt hpt ha hd hl
  refine ⟨total p / 256, total p % 256, by omega, by omega, ?_, ?_⟩
  · have h1 : total p / 256 < 256 := by omega
    have h2 : total p % 256 < 256 := by omega
    simp only [writePacket, checkSum, toBytes2, ht, if_true, bind, Except.bind, pyBytes, List.mem_singleton,
      forall_eq, hpt, ha, h1, h2]
    rw [if_pos hd]
    simp
  · have := Nat.div_add_mod (total p) 256
    rw [this]
    simp [total]
    omega

/-- A packet whose data does not consist of bytes is not sent -/
theorem writePacket_bad_data {p : Packet} (hd : ¬ ∀ b ∈ p.data, b < 256) : ∃ e, writePacket p = .error e := by
  unfold writePacket
  simp only [bind, Except.bind]
  cases checkSum p with
  | error e => exact ⟨e, rfl⟩
  | ok x =>
    simp only
    cases pyBytes [p.pt] with
    | error e => exact ⟨e, rfl⟩
    | ok y =>
      simp only
      cases pyBytes [p.address] with
      | error e => exact ⟨e, rfl⟩
      | ok z =>
        simp only [pyBytes, if_neg hd]
        exact ⟨_, rfl⟩

/-! ## orientation components -/

variable {K : Type} [Field K] [LinearOrder K] [IsStrictOrderedRing K] [FloorRing K]

/-- what the receiver makes of two bytes: a big-endian two's-complement number -/
def decode (b : Nat × Nat) : ℤ := if b.1 < 128 then 256 * b.1 + b.2 else 256 * b.1 + b.2 - 65536

theorem toBytesSigned2_spec {n : ℤ} (h1 : -32768 ≤ n) (h2 : n ≤ 32767) :
    ∃ b, toBytesSigned2 n = .ok b ∧ b.1 < 256 ∧ b.2 < 256 ∧ decode b = n := by
  unfold toBytesSigned2
  rw [if_pos ⟨h1, h2⟩]
  refine ⟨_, rfl, ?_, ?_, ?_⟩
  · show (n % 65536).toNat / 256 < 256; omega
  · show (n % 65536).toNat % 256 < 256; omega
  · simp only [decode]
    split_ifs <;> omega

theorem trunc_spec (x : K) : |(trunc x : K)| ≤ |x| ∧ |x - trunc x| < 1 ∧ 0 ≤ x * trunc x := by
  unfold trunc
  by_cases h : 0 ≤ x
  · rw [if_pos h]
    have h1 := Int.floor_le x
    have h2 := Int.lt_floor_add_one x
    have h3 : (0 : K) ≤ (⌊x⌋ : ℤ) := by exact_mod_cast Int.floor_nonneg.2 h
    refine ⟨?_, ?_, mul_nonneg h h3⟩
    · rw [abs_of_nonneg h3, abs_of_nonneg h]; exact h1
    · rw [abs_of_nonneg (by linarith)]; linarith
  · rw [if_neg h]
    have h' : x < 0 := not_le.1 h
    have h1 := Int.le_ceil x
    have h2 := Int.ceil_lt_add_one x
    have h3 : ((⌈x⌉ : ℤ) : K) ≤ 0 := by
      have : ⌈x⌉ ≤ 0 := Int.ceil_le.2 (by simpa using h'.le)
      exact_mod_cast this
    refine ⟨?_, ?_, mul_nonneg_of_nonpos_of_nonpos h'.le h3⟩
    · rw [abs_of_nonpos h3, abs_of_neg h']; linarith
    · rw [abs_of_nonpos (by linarith)]; linarith

theorem scale_pos : (0 : K) < scale := by unfold scale; norm_num

/-- **Orientation components.**  A component between −1 and 1 is always encoded in two bytes.  The receiver's
value, divided by the scale, is within one quantisation step of the component, is never larger in size and
never has the wrong sign. -/
theorem component_decodes {q : K} (hq : |q| ≤ 1) :
    ∃ b, convertComponent q = .ok b ∧ b.1 < 256 ∧ b.2 < 256 ∧
      |q - decode b / (2978909091 / 100000)| < 100000 / 2978909091 ∧
      |(decode b : K) / (2978909091 / 100000)| ≤ |q| ∧ 0 ≤ q * ((decode b : K) / (2978909091 / 100000)) := by
  have e1 : (2978909091 / 100000 : K) = scale := rfl
  have e2 : (100000 / 2978909091 : K) = 1 / scale := by unfold scale; norm_num
  rw [e1, e2]
  have hs := scale_pos (K := K)
  obtain ⟨t1, t2, t3⟩ := trunc_spec (q * scale)
  have hb : |(trunc (q * scale) : K)| ≤ 32767 := by
    refine le_trans t1 ?_
    rw [abs_mul, abs_of_pos hs]
    have : |q| * scale ≤ 1 * scale := mul_le_mul_of_nonneg_right hq hs.le
    have h2 : (scale : K) ≤ 32767 := by unfold scale; norm_num
    linarith
  rw [abs_le] at hb
  have hb1 : -32768 ≤ trunc (q * scale) := by
    have : ((-32768 : ℤ) : K) ≤ (trunc (q * scale) : ℤ) := by push_cast; linarith [hb.1]
    exact_mod_cast this
  have hb2 : trunc (q * scale) ≤ 32767 := by
    have : ((trunc (q * scale) : ℤ) : K) ≤ ((32767 : ℤ) : K) := by push_cast; linarith [hb.2]
    exact_mod_cast this
  obtain ⟨b, h1, h2, h3, h4⟩ := toBytesSigned2_spec hb1 hb2
  refine ⟨b, h1, h2, h3, ?_, ?_, ?_⟩
  · rw [h4]
    have : q - (trunc (q * scale) : K) / scale = (q * scale - trunc (q * scale)) / scale := by field_simp
    rw [this, abs_div, abs_of_pos hs]
    exact div_lt_div_of_pos_right t2 hs
  · rw [h4, abs_div, abs_of_pos hs, div_le_iff₀ hs]
    rwa [abs_mul, abs_of_pos hs] at t1
  · rw [h4]
    have : q * ((trunc (q * scale) : K) / scale) = (q * scale * trunc (q * scale)) / (scale * scale) := by
      field_simp
    rw [this]
    exact div_nonneg t3 (by positivity)

/-- Which components can be sent at all: the truncated value must fit 16 bits (|q| up to about 1.0999) -/
theorem component_range (q : K) :
    (∃ b, convertComponent q = .ok b) ↔
      -32769 < q * (2978909091 / 100000) ∧ q * (2978909091 / 100000) < 32768 := by
  have key : (-32768 ≤ trunc (q * scale) ∧ trunc (q * scale) ≤ 32767) ↔
      -32769 < q * (2978909091 / 100000) ∧ q * (2978909091 / 100000) < 32768 := by
    show _ ↔ -32769 < q * scale ∧ q * scale < 32768
    unfold trunc
    generalize q * scale = x
    split_ifs with h
    · have h1 : (⌊x⌋ ≤ 32767) ↔ x < 32768 := by
        rw [← Int.lt_add_one_iff, Int.floor_lt]; norm_num
      have h2 : 0 ≤ ⌊x⌋ := Int.floor_nonneg.2 h
      rw [h1]
      constructor
      · rintro ⟨-, b⟩; exact ⟨by linarith, b⟩
      · rintro ⟨-, b⟩; exact ⟨by linarith, b⟩
    · have h' := not_le.1 h
      have h1 : (-32768 ≤ ⌈x⌉) ↔ -32769 < x := by
        rw [← Int.sub_one_lt_iff, Int.lt_ceil]; norm_num
      have h2 : ⌈x⌉ ≤ 0 := Int.ceil_le.2 (by simpa using h'.le)
      rw [h1]
      constructor
      · rintro ⟨a, -⟩; exact ⟨a, by linarith⟩
      · rintro ⟨a, -⟩; exact ⟨a, by linarith⟩
  rw [← key]
  unfold convertComponent toBytesSigned2
  split_ifs with h
  · simp [h]
  · simp [h]

/-! ## whole packets -/

/-- the byte order: most significant byte first -/
theorem convertFloat_bytes {pack : K → Nat × Nat × Nat × Nat}
    (hp : ∀ x, (pack x).1 < 256 ∧ (pack x).2.1 < 256 ∧ (pack x).2.2.1 < 256 ∧ (pack x).2.2.2 < 256) (x : K) :
    (∀ b ∈ convertFloat pack x, b < 256) ∧ (convertFloat pack x).length = 4 := by
  obtain ⟨h1, h2, h3, h4⟩ := hp x
  constructor
  · simp [convertFloat, h1, h2, h3, h4]
  · rfl

/-- **Position and velocity packets** are written without an error for every vector; the register count in
the type byte times four is the number of data bytes. -/
theorem vecPacket_wellFormed {pack : K → Nat × Nat × Nat × Nat}
    (hp : ∀ x, (pack x).1 < 256 ∧ (pack x).2.1 < 256 ∧ (pack x).2.2.1 < 256 ∧ (pack x).2.2.2 < 256) (v : V3 K)
    (p : Packet) (hv : p = posPacket pack v ∨ p = velPacket pack v) :
    (∃ u l, writePacket p = .ok ([115, 110, 112, p.pt, p.address] ++ p.data ++ [u, l]) ∧
      256 * u + l = ([115, 110, 112, p.pt, p.address] ++ p.data).sum) ∧
    p.data.length = 4 * (p.pt / 4 % 16) ∧ p.pt / 64 = 3 := by
  have hb : ∀ b ∈ vecBytes pack v, b < 256 := by
    intro b hb
    simp only [vecBytes, List.mem_append] at hb
    rcases hb with ((hb | hb) | hb) | hb
    · exact (convertFloat_bytes hp _).1 b hb
    · exact (convertFloat_bytes hp _).1 b hb
    · exact (convertFloat_bytes hp _).1 b hb
    · simp [timeSpoof] at hb; omega
  have hl : (vecBytes pack v).length = 16 := rfl
  rcases hv with rfl | rfl
  · obtain ⟨u, l, -, -, h1, h2⟩ := writePacket_spec (p := posPacket pack v) (by simp [posPacket, ptByte])
      (by simp [posPacket]) hb (by rw [show (posPacket pack v).data = vecBytes pack v from rfl, hl]; omega)
    exact ⟨⟨u, l, h1, h2⟩, by simp [posPacket, velPacket, hl, ptByte], by simp [posPacket, velPacket, ptByte]⟩
  · obtain ⟨u, l, -, -, h1, h2⟩ := writePacket_spec (p := velPacket pack v) (by simp [velPacket, ptByte])
      (by simp [velPacket]) hb (by rw [show (velPacket pack v).data = vecBytes pack v from rfl, hl]; omega)
    exact ⟨⟨u, l, h1, h2⟩, by simp [posPacket, velPacket, hl, ptByte], by simp [posPacket, velPacket, ptByte]⟩

/-- **Content of position and velocity packets.**  A receiver that reads the data as big-endian words with the
inverse of the float encoding gets X, Y and minus Z, in this order; positions go to register 117, velocities
to register 121. -/
theorem vecPacket_content (pack : K → Nat × Nat × Nat × Nat) (unpack : Nat × Nat × Nat × Nat → K)
    (h : ∀ x, unpack (pack x) = x) (v : V3 K) :
    (posPacket pack v).address = 117 ∧ (velPacket pack v).address = 121 ∧
    (velPacket pack v).data = (posPacket pack v).data ∧
    ∃ a b c d e f g i j k l m : Nat,
      (posPacket pack v).data = [a, b, c, d, e, f, g, i, j, k, l, m, 0, 0, 0, 1] ∧
      unpack (d, c, b, a) = v.x ∧ unpack (i, g, f, e) = v.y ∧ unpack (m, l, k, j) = -v.z := by
  refine ⟨rfl, rfl, rfl, _, _, _, _, _, _, _, _, _, _, _, _, rfl, ?_, ?_, ?_⟩ <;> exact h _

/-- **Orientation packet.**  For every orientation with components between −1 and 1 (every unit quaternion)
the packet is built and written without an error, with the right register count, and the four 16-bit values
in it decode to the four components within one quantisation step. -/
theorem quatPacket_wellFormed {q : Quat K} (hw : |q.q0| ≤ 1) (hx : |q.q1| ≤ 1) (hy : |q.q2| ≤ 1) (hz : |q.q3| ≤ 1) :
    ∃ a b c d : Nat × Nat, ∃ p, quatPacket q = .ok p ∧
      p.address = 109 ∧ p.data = [a.1, a.2, b.1, b.2, c.1, c.2, d.1, d.2, 0, 0, 0, 1] ∧
      (|q.q0 - decode a / (2978909091 / 100000)| < 100000 / 2978909091 ∧ |q.q1 - decode b / (2978909091 / 100000)| < 100000 / 2978909091 ∧
       |q.q2 - decode c / (2978909091 / 100000)| < 100000 / 2978909091 ∧ |q.q3 - decode d / (2978909091 / 100000)| < 100000 / 2978909091) ∧
      p.data.length = 4 * (p.pt / 4 % 16) ∧ p.pt / 64 = 3 ∧
      ∃ u l, writePacket p = .ok ([115, 110, 112, p.pt, p.address] ++ p.data ++ [u, l]) ∧
        256 * u + l = ([115, 110, 112, p.pt, p.address] ++ p.data).sum := by
  obtain ⟨a, a1, a2, a3, a4, -, -⟩ := component_decodes hw
  obtain ⟨b, b1, b2, b3, b4, -, -⟩ := component_decodes hx
  obtain ⟨c, c1, c2, c3, c4, -, -⟩ := component_decodes hy
  obtain ⟨d, d1, d2, d3, d4, -, -⟩ := component_decodes hz
  refine ⟨a, b, c, d, (⟨ptByte true true 3, 109, [a.1, a.2, b.1, b.2, c.1, c.2, d.1, d.2, 0, 0, 0, 1]⟩ : Packet), ?_, rfl, rfl, ⟨a4, b4, c4, d4⟩, by simp [ptByte], by simp [ptByte], ?_⟩
  · simp [quatPacket, quatBytes, convertedQuat, a1, b1, c1, d1, bind, Except.bind, timeSpoof]
  · obtain ⟨u, l, -, -, h1, h2⟩ := writePacket_spec (p := ⟨ptByte true true 3, 109, [a.1, a.2, b.1, b.2, c.1, c.2, d.1, d.2, 0, 0, 0, 1]⟩) (by simp [ptByte]) (by simp)
      (by simp [a2, a3, b2, b3, c2, c3, d2, d3]) (by simp)
    exact ⟨u, l, h1, h2⟩

/-- **Violation.**  The orientation sent is not converted to the axes used for position and velocity, and no
rotation could be: flipping only Z is a mirror image (it reverses the sense of every cross product). -/
theorem mirror_violated (a b c : V3 K) (q : Quat K) :
    dot (cross (convertedVec a) (convertedVec b)) (convertedVec c) = -dot (cross a b) c ∧ convertedQuat q = q := by
  constructor
  · simp only [dot, cross, convertedVec]; ring
  · rfl

example : (quatPacket (⟨1, 0, -1 / 2, 0⟩ : Quat ℚ)).bind writePacket =
    .ok [115, 110, 112, 204, 109, 116, 93, 0, 0, 197, 210, 0, 0, 0, 0, 0, 1, 4, 243] := by
  have h1 : trunc (scale : ℚ) = 29789 := by norm_num [trunc, scale]
  have h2 : trunc (-1 / 2 * scale : ℚ) = -14894 := by norm_num [trunc, scale]
  have h3 : trunc (0 : ℚ) = 0 := by norm_num [trunc]
  simp only [quatPacket, quatBytes, convertedQuat, convertComponent, one_mul, zero_mul, h1, h2, h3]
  decide +kernel

/-! ## rate of sending -/

/-- the three kinds of packet -/
inductive Kind
  | quat | pos | vel

/-- which update period belongs to which kind -/
def period (k : Kind) (qp pp vp : K) : K :=
  match k with
  | .quat => qp
  | .pos => pp
  | .vel => vp

/-- time stamp of the last packet of a kind -/
def Clock.last (c : Clock K) : Kind → K
  | .quat => c.lastQuat
  | .pos => c.lastPos
  | .vel => c.lastVel

/-- was a packet of this kind sent -/
def sent : Kind → Bool × Bool × Bool → Bool
  | .quat, r => r.1
  | .pos, r => r.2.1
  | .vel, r => r.2.2

/-- the simulation times at which a packet of the kind is sent, for the calls at times `ts` -/
def sentTimes (kind : Kind) (qp pp vp : K) : Clock K → List K → List K
  | _, [] => []
  | c, t :: ts =>
    let r := send qp pp vp c t
    if sent kind r.1 then t :: sentTimes kind qp pp vp r.2 ts else sentTimes kind qp pp vp r.2 ts

theorem sentTimes_aux {qp pp vp : K} {kind : Kind} (ts : List K) :
    ∀ c : Clock K, ∀ t u rest, sentTimes kind qp pp vp c ts = t :: rest → (u = c.last kind - c.start) →
      period kind qp pp vp < t - u := by
  induction ts with
  | nil => intro c t u rest h; simp [sentTimes] at h
  | cons a ts ih =>
    intro c t u rest h hu
    simp only [sentTimes] at h
    by_cases hs : sent kind (send qp pp vp c a).1 = true
    · rw [if_pos hs] at h
      obtain ⟨rfl, -⟩ := List.cons.inj h
      rw [hu]
      cases kind <;> simp [send, sent, period, Clock.last] at hs ⊢ <;> linarith
    · rw [if_neg hs] at h
      refine ih _ t u rest h ?_
      rw [hu]
      cases kind <;> simp only [send, sent, Clock.last, decide_eq_true_eq] at hs ⊢ <;> simp [hs]

/-- **Rate limit.**  Successive packets of one kind are more than one update period of that kind apart in
simulation time, for every sequence of calls and whatever the other two rates are. -/
theorem packet_rate {qp pp vp : K} (kind : Kind) (ts : List K) :
    ∀ c : Clock K, List.IsChain (fun t u => period kind qp pp vp < u - t) (sentTimes kind qp pp vp c ts) := by
  induction ts with
  | nil => intro c; simp [sentTimes]
  | cons a ts ih =>
    intro c
    simp only [sentTimes]
    by_cases hs : sent kind (send qp pp vp c a).1 = true
    · rw [if_pos hs]
      rw [List.isChain_cons]
      refine ⟨?_, ih _⟩
      intro u hu
      cases hq : sentTimes kind qp pp vp (send qp pp vp c a).2 ts with
      | nil => rw [hq] at hu; simp at hu
      | cons x rest =>
        rw [hq] at hu
        simp at hu
        subst hu
        refine sentTimes_aux ts _ x a rest hq ?_
        cases kind <;> simp only [send, sent, Clock.last, decide_eq_true_eq] at hs ⊢ <;> simp [hs]
    · rw [if_neg hs]
      exact ih _

/-- **No starvation.**  A call sends a packet of a kind exactly if it comes more than one period after
the last packet of that kind. -/
theorem packet_due {qp pp vp : K} (kind : Kind) (c : Clock K) (t : K) :
    sent kind (send qp pp vp c t).1 = true ↔ period kind qp pp vp < t + c.start - c.last kind := by
  cases kind <;> simp [send, sent, period, Clock.last]

example : sentTimes (K := ℚ) .quat (1 / 10) 1 1 ⟨100, 100, 100, 100⟩ [5 / 100, 11 / 100, 15 / 100, 21 / 100, 22 / 100]
    = [11 / 100, 22 / 100] := by decide +kernel

end Mapleaf.Run.Hil
