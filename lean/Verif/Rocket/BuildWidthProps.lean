import Verif.Rocket.BuildProps
import Verif.Rocket.BuildExample
import Verif.Rocket.MissionSample

/-!
# What a definition says of the widths of body components and of parachutes
-/

namespace Mapleaf.Rocket
open Mapleaf.Motion V3 ENV

/-- the largest diameter of the body component described by `r` -/
def SaysWidth (r : Reader ℝ) (w : ℝ) : Prop :=
  (SaysClass r "Nosecone" ∧ HasFloat r "baseDiameter" w) ∨ (SaysClass r "Bodytube" ∧ HasFloat r "outerDiameter" w) ∨
    ((SaysClass r "Transition" ∨ SaysClass r "BoatTail") ∧
      ∃ a b, HasFloat r "startDiameter" a ∧ HasFloat r "endDiameter" b ∧ a ≤ w ∧ b ≤ w ∧ (w = a ∨ w = b))

theorem trans_width {r : Reader ℝ} {t : Trans} (h : SaysCone r t) (c : Bool) :
    ∃ a b, HasFloat r "startDiameter" a ∧ HasFloat r "endDiameter" b ∧ a ≤ (t.body c).maxDiameter ∧ b ≤ (t.body c).maxDiameter ∧
      ((t.body c).maxDiameter = a ∨ (t.body c).maxDiameter = b) :=
  ⟨_, _, h.1, h.2.1, le_max_left _ _, le_max_right _ _, max_choice _ _⟩

/-- the width that counts for the fineness of the rocket is the one of the definition; of all body components boat tails alone are not connected to
what is below them -/
theorem part_width {src : Source} {site : Site} {path : Str} {d : Draft} (h : readPart src site path = .ok d) {b : BodyPart ℝ}
    (hb : d.body = some b) : SaysWidth (src.dict path) b.maxDiameter ∧ (b.connectsBelow = false ↔ SaysClass (src.dict path) "BoatTail") := by
  have key : ∀ {n m : String}, (src.dict path).text "class".toList = .ok n.toList → n ≠ m → ¬ SaysClass (src.dict path) m := by
    intro n m h1 h2 h3
    unfold SaysClass at h3
    rw [h1] at h3
    exact h2 (String.toList_injective (Except.ok.inj h3))
  unfold readPart at h
  dsimp only at h
  split at h
  · cases h
  rename_i name hname
  split at h
  · cases h
  all_goals rename_i hcls
  all_goals have hn := className_of hcls
  all_goals dsimp only at hn
  all_goals subst hn
  · obtain ⟨c, h1, rfl⟩ := map_ok h
    cases hb
  · obtain ⟨pos, i, n, ro, h1, h2, h3, rfl⟩ := readNose_ok h
    obtain rfl := Option.some.inj hb
    exact ⟨Or.inl ⟨hname, h2.2.1⟩, by simp, fun hx => absurd hx (key hname (by decide))⟩
  · obtain ⟨pos, i, len, dm, ro, h1, h2, h3, h4, rfl⟩ := readTube_ok h
    obtain rfl := Option.some.inj hb
    exact ⟨Or.inr (Or.inl ⟨hname, h3⟩), by simp, fun hx => absurd hx (key hname (by decide))⟩
  · unfold readTransition at h
    obtain ⟨⟨i, t, ro⟩, h1, h⟩ := bind_ok h
    obtain rfl := Except.ok.inj h
    obtain rfl := Option.some.inj hb
    exact ⟨Or.inr (Or.inr ⟨Or.inl hname, trans_width (readCone_ok h1).2.1 _⟩), by simp [Trans.body],
      fun hx => absurd hx (key hname (by decide))⟩
  · unfold readTail at h
    obtain ⟨⟨i, t, ro⟩, h1, h⟩ := bind_ok h
    obtain rfl := Except.ok.inj h
    obtain rfl := Option.some.inj hb
    exact ⟨Or.inr (Or.inr ⟨Or.inr hname, trans_width (readCone_ok h1).2.1 _⟩), fun _ => hname, fun _ => rfl⟩
  all_goals exfalso
  · obtain ⟨_, _, _, _, _, _, _, rfl⟩ := readFins_ok h
    cases hb
  · obtain ⟨_, _, _, _, rfl⟩ := readMotor_ok hname h
    cases hb
  · obtain ⟨c, h1, rfl⟩ := map_ok h
    cases hb
  · unfold readAero at h
    obtain ⟨_, _, h⟩ := bind_ok h
    obtain rfl := Except.ok.inj h
    cases hb
  · unfold readDamping at h
    obtain ⟨_, _, h⟩ := bind_ok h
    obtain ⟨_, _, h⟩ := bind_ok h
    obtain ⟨_, _, h⟩ := bind_ok h
    obtain ⟨_, _, h⟩ := bind_ok h
    obtain ⟨_, _, h⟩ := bind_ok h
    obtain rfl := Except.ok.inj h
    cases hb
  · obtain ⟨c, h1, rfl⟩ := map_ok h
    cases hb
  · unfold readTable at h
    obtain ⟨_, _, h⟩ := bind_ok h
    obtain ⟨_, _, h⟩ := bind_ok h
    obtain ⟨_, _, h⟩ := bind_ok h
    obtain ⟨_, _, h⟩ := bind_ok h
    obtain rfl := Except.ok.inj h
    cases hb
  · unfold readRecovery at h
    obtain ⟨_, _, h⟩ := bind_ok h
    obtain ⟨_, _, h⟩ := bind_ok h
    obtain ⟨_, _, h⟩ := bind_ok h
    obtain ⟨_, _, h⟩ := bind_ok h
    obtain rfl := Except.ok.inj h
    cases hb
  · cases h
  · cases h

/-- the parachute with number `k`: every value is read under the keys with its own number -/
def SaysChute (r : Reader ℝ) (k : Nat) (c : Chute ℝ) : Prop :=
  r.text ("stage" ++ toString k ++ "Trigger").toList = .ok c.trigger.toList ∧
    ((∃ v, c.value = some v ∧ HasFloat r ("stage" ++ toString k ++ "TriggerValue") v) ∨
      (c.value = none ∧ r.text ("stage" ++ toString k ++ "TriggerValue").toList = .error .keyError)) ∧
    HasFloat r ("stage" ++ toString k ++ "ChuteArea") c.area ∧ HasFloat r ("stage" ++ toString k ++ "Cd") c.cd ∧
    HasFloat r ("stage" ++ toString k ++ "DelayTime") c.delay

theorem tryGet_says {r : Reader ℝ} {key : String} {o : Option ℝ} (h : r.tryGetFloat key.toList = .ok o) :
    (∃ v, o = some v ∧ HasFloat r key v) ∨ (o = none ∧ r.text key.toList = .error .keyError) := by
  unfold Reader.tryGetFloat at h
  split at h
  · rename_i v hv
    exact Or.inl ⟨v, (Except.ok.inj h).symm, hasFloat_of hv⟩
  · rename_i hv
    refine Or.inr ⟨(Except.ok.inj h).symm, ?_⟩
    unfold Reader.getFloat at hv
    split at hv
    · rename_i e he
      rw [he, Except.error.inj hv]
    · split at hv <;> cases hv
  · cases h

/-- a recovery system has as many parachutes as it says, and each has the values given under its number, counted from `i` -/
theorem chutes_say {r : Reader ℝ} {n : Nat} : ∀ {i : Nat} {cs : List (Chute ℝ)}, readChutes r i n = .ok cs →
    cs.length = n ∧ ∀ (k : Nat) (c : Chute ℝ), cs[k]? = some c → SaysChute r (i + k) c := by
  induction n with
  | zero =>
    intro i cs h
    obtain rfl := Except.ok.inj h
    exact ⟨rfl, by simp⟩
  | succ n ih =>
    intro i cs h
    unfold readChutes at h
    obtain ⟨tr, h1, h⟩ := bind_ok h
    obtain ⟨v, h2, h⟩ := bind_ok h
    obtain ⟨a, h3, h⟩ := bind_ok h
    obtain ⟨cd, h4, h⟩ := bind_ok h
    obtain ⟨dl, h5, h⟩ := bind_ok h
    obtain ⟨rest, h6, h⟩ := bind_ok h
    obtain rfl := Except.ok.inj h
    obtain ⟨l1, l2⟩ := ih h6
    refine ⟨by rw [List.length_cons, l1], ?_⟩
    intro k c hk
    cases k with
    | zero =>
      obtain rfl := Option.some.inj hk
      refine ⟨?_, tryGet_says h2, hasFloat_of h3, hasFloat_of h4, hasFloat_of h5⟩
      rw [String.toList_ofList]
      exact h1
    | succ k =>
      have := l2 k c hk
      rw [show i + (k + 1) = i + 1 + k by omega]
      exact this

/-- the recovery system of a definition: numbers count from 1 to `numStages` -/
theorem system_says {src : Source} {r : Reader ℝ} {cs : List (Chute ℝ)} (h : readSystem src r = .ok cs) :
    ∃ n, HasInt src r "numStages" n ∧ cs.length = n.toNat ∧ ∀ (k : Nat) (c : Chute ℝ), cs[k]? = some c → SaysChute r (1 + k) c := by
  unfold readSystem at h
  obtain ⟨n, h1, h⟩ := bind_ok h
  exact ⟨n, hasInt_of h1, chutes_say h⟩

/-- hypotheses of `part_width`: the tube of the toy rocket -/
example : ∃ d b, readPart Toy.source ⟨0, ⟨0, 0, -2⟩⟩ "Rocket.S.T".toList = .ok d ∧ d.body = some b ∧ SaysWidth (Toy.source.dict "Rocket.S.T".toList) b.maxDiameter :=
  ⟨_, _, Toy.part_tube, rfl, (part_width Toy.part_tube rfl).1⟩

/-- hypotheses of `chutes_say`: the parachute of the sample -/
example : SaysChute (Trip.readR "Rocket.P.R".toList) 1 Trip.chute := (chutes_say Trip.chutes_trip).2 0 _ rfl

end Mapleaf.Rocket
