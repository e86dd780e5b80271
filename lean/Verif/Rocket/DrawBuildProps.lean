import Verif.Rocket.DrawClaims
import Verif.Rocket.BuildExample

/-! # C104: what is drawn is what the stages are asked -/

namespace Mapleaf.Rocket.Draw
open Mapleaf.Motion

theorem bind_got {X Y : Type} {x : Except PyErr X} {g : X → Except PyErr Y} {y : Y} (h : (x >>= g) = .ok y) : ∃ v, x = .ok v ∧ g v = .ok y := by
  cases x with
  | error e => cases h
  | ok v => exact ⟨v, rfl, h⟩

/-- **C104.** The position, length, diameters, radius and connection that a stage asks of a component read from a definition (for its own length,
its diameters and the radius where fins are mounted) are those of the shape that is drawn. A boat tail differs only in that nothing connects to its
lower end. -/
theorem drawn_component (r : Reader ℝ) (site : Site) (d : Draft) :
    (readNose r site = .ok d → ∃ n i rough, d.kind = .ready (.nose i n rough) ∧ d.body = (Shape.nose n d.z).body) ∧
    (readTube r site = .ok d → ∃ t : Tube, ∃ i rough, d.kind = .ready (.tube i t.position t.length t.outerDiameter rough) ∧ d.z = t.position.z ∧
      d.body = (Shape.tube t).body) ∧
    (readTransition r site = .ok d → ∃ t i rough, d.kind = .ready (.trans i t rough) ∧ d.body = (Shape.trans t).body) ∧
    (readTail r site = .ok d → ∃ t i rough, d.kind = .tail i t rough ∧
      d.body = ((Shape.trans t).body).map fun b => { b with connectsBelow := false }) := by
  refine ⟨fun h => ?_, fun h => ?_, fun h => ?_, fun h => ?_⟩
  · unfold readNose at h
    obtain ⟨c, -, h⟩ := bind_got h
    obtain ⟨ar, -, h⟩ := bind_got h
    obtain ⟨dia, -, h⟩ := bind_got h
    obtain ⟨shape, -, h⟩ := bind_got h
    obtain ⟨rough, -, h⟩ := bind_got h
    obtain ⟨-, -, h⟩ := bind_got h
    obtain ⟨-, -, h⟩ := bind_got h
    obtain ⟨-, -, h⟩ := bind_got h
    obtain rfl := Except.ok.inj h
    exact ⟨_, _, _, rfl, rfl⟩
  · unfold readTube at h
    obtain ⟨c, -, h⟩ := bind_got h
    obtain ⟨len, -, h⟩ := bind_got h
    obtain ⟨dia, -, h⟩ := bind_got h
    obtain ⟨rough, -, h⟩ := bind_got h
    obtain rfl := Except.ok.inj h
    exact ⟨⟨dia, len, c.position⟩, _, _, rfl, rfl, rfl⟩
  · unfold readTransition at h
    obtain ⟨x, -, h⟩ := bind_got h
    obtain rfl := Except.ok.inj h
    exact ⟨_, _, _, rfl, rfl⟩
  · unfold readTail at h
    obtain ⟨x, -, h⟩ := bind_got h
    obtain rfl := Except.ok.inj h
    exact ⟨_, _, _, rfl, rfl⟩

/-- a body tube that is read -/
example : ∃ d, readTube (Toy.readR "Rocket.S.T".toList) ⟨0, ⟨0, 0, -2⟩⟩ = .ok d ∧ d.body = (Shape.tube ⟨1, 3, ⟨0, 0, -2⟩⟩).body := by
  have h := Toy.part_tube
  have h2 : readPart Toy.source ⟨0, ⟨0, 0, -2⟩⟩ "Rocket.S.T".toList = readTube (Toy.readR "Rocket.S.T".toList) ⟨0, ⟨0, 0, -2⟩⟩ := by
    unfold readPart
    dsimp only
    rw [Toy.dict_source, Toy.text_R, Toy.text_tube]
    dsimp only
    rw [show classOf "Bodytube".toList = .ok .bodyTube by decide +kernel]
  exact ⟨_, h2.symm.trans h, rfl⟩

end Mapleaf.Rocket.Draw
