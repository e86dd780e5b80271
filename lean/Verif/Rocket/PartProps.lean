import Verif.Rocket.PartModel
import Verif.Motion.ForceProps
import Verif.Motion.InterpProps

/-!
# C64: components sit where the definition file says; C65: tables give the tabulated numbers
-/

namespace Mapleaf.Rocket
open Mapleaf.Motion

/-! ## Reading -/

section
variable {K : Type}

theorem Reader.getFloat_ok (r : Reader K) (key : Str) (x : K) :
    r.getFloat key = .ok x ↔ ∃ s, r.text key = .ok s ∧ r.float s = some x := by
  unfold Reader.getFloat
  cases h : r.text key with
  | error e => simp
  | ok s => cases h2 : r.float s <;> simp [h2]

theorem Reader.getVector_ok (r : Reader K) (key : Str) (v : V3 K) :
    r.getVector key = .ok v ↔ ∃ s, r.text key = .ok s ∧ parseVector r.float s = .ok v := by
  unfold Reader.getVector
  cases h : r.text key with
  | error e => simp
  | ok s => simp

end

/-! ## Placement -/

section
variable {K : Type} [Field K]

/-- A vector value under a key: the text is there and reads as the vector -/
def HasVector (r : Reader K) (key : String) (v : V3 K) : Prop :=
  ∃ s, r.text key.toList = .ok s ∧ parseVector r.float s = .ok v

/-- A number under a key -/
def HasFloat (r : Reader K) (key : String) (x : K) : Prop := ∃ s, r.text key.toList = .ok s ∧ r.float s = some x

theorem HasVector.unique {r : Reader K} {key : String} {v w : V3 K} (h : HasVector r key v) (h' : HasVector r key w) : v = w := by
  obtain ⟨s, h1, h2⟩ := h
  obtain ⟨s', h1', h2'⟩ := h'
  rw [h1] at h1'
  cases h1'
  rw [h2] at h2'
  cases h2'
  rfl

/-- **C64.** A fixed mass is built exactly when mass, position and centre of gravity are given and readable. It then sits at the stage's
position plus its own, its centre of gravity is relative to that, and its moments of inertia are those given, or else a hundredth of its
mass about each axis. -/
theorem fixedMass_spec (r : Reader K) (stage : V3 K) (c : MassPart K) :
    fixedMass r stage = .ok c ↔
      ∃ m p g, HasFloat r "mass" m ∧ HasVector r "position" p ∧ HasVector r "cg" g ∧ c.position = stage + p ∧
        c.inertia.mass = m ∧ c.inertia.cg = stage + p + g ∧ c.inertia.about = stage + p + g ∧
        ((HasVector r "MOI" c.inertia.moi) ∨ ((∀ v, ¬ HasVector r "MOI" v) ∧ c.inertia.moi = ⟨m / 100, m / 100, m / 100⟩)) := by
  have hf : ∀ k x, HasFloat r k x ↔ r.getFloat k.toList = .ok x := fun k x => (r.getFloat_ok _ _).symm
  have hv : ∀ k x, HasVector r k x ↔ r.getVector k.toList = .ok x := fun k x => (r.getVector_ok _ _).symm
  simp only [hf, hv]
  unfold fixedMass
  cases h1 : r.getFloat "mass".toList with
  | error e => simp
  | ok m =>
    cases h2 : r.getVector "position".toList with
    | error e => simp
    | ok p =>
      cases h3 : r.getVector "cg".toList with
      | error e => simp
      | ok g =>
        have e1 : stage + p = p + stage := add_comm _ _
        have e2 : stage + p + g = g + (p + stage) := by rw [e1, add_comm]
        cases h4 : r.getVector "MOI".toList with
        | error e =>
          simp only [Except.ok.injEq]
          constructor
          · rintro rfl
            refine ⟨m, p, g, rfl, rfl, rfl, e1.symm, rfl, e2.symm, e2.symm, Or.inr ⟨by simp, ?_⟩⟩
            simp [Inertia.make, div_eq_mul_inv]
          · rintro ⟨m', p', g', a, b, c', d1, d2, d3, d4, d5⟩
            cases a; cases b; cases c'
            rcases d5 with d5 | ⟨-, d5⟩
            · cases d5
            · obtain ⟨pos, ⟨moi, cg, mass, about⟩⟩ := c
              simp only at d1 d2 d3 d4 d5
              subst d1 d2 d3 d4 d5
              simp [Inertia.make, div_eq_mul_inv, e1, ← e2]
        | ok v =>
          simp only [Except.ok.injEq]
          constructor
          · rintro rfl
            exact ⟨m, p, g, rfl, rfl, rfl, e1.symm, rfl, e2.symm, e2.symm, Or.inl rfl⟩
          · rintro ⟨m', p', g', a, b, c', d1, d2, d3, d4, d5⟩
            cases a; cases b; cases c'
            rcases d5 with d5 | ⟨d5, -⟩
            · obtain ⟨pos, ⟨moi, cg, mass, about⟩⟩ := c
              simp only at d1 d2 d3 d4 d5
              subst d1 d2 d3 d4 d5
              simp [Inertia.make, e1, ← e2]
            · exact absurd rfl (d5 v)

/-- Toy dictionary for the examples: `float` reads one-digit numbers -/
def toyReader (entries : List (String × String)) : Reader ℚ where
  text k := match entries.find? (fun p => p.1.toList == k) with
    | some p => .ok p.2.toList
    | none => .error .keyError
  float s := match s with
    | [c] => if c.isDigit then some ((c.toNat : ℚ) - 48) else none
    | ['-', c] => if c.isDigit then some (48 - (c.toNat : ℚ)) else none
    | _ => none

example : HasFloat (toyReader [("mass", "5"), ("position", "(0 0 -2)"), ("cg", "(0 0 -1)")]) "mass" 5 := ⟨['5'], by decide +kernel, by decide +kernel⟩
example : HasVector (toyReader [("mass", "5"), ("position", "(0 0 -2)"), ("cg", "(0 0 -1)")]) "position" ⟨0, 0, -2⟩ :=
  ⟨"(0 0 -2)".toList, by decide +kernel, by decide +kernel⟩
example : ∃ c, fixedMass (toyReader [("mass", "5"), ("position", "(0 0 -2)"), ("cg", "(0 0 -1)")]) ⟨0, 0, -3⟩ = .ok c ∧
    c.inertia.cg = ⟨0, 0, -6⟩ ∧ c.inertia.moi = ⟨1 / 20, 1 / 20, 1 / 20⟩ := ⟨_, rfl, by decide +kernel, by decide +kernel⟩

/-- **C64.** Moving the stage moves a fixed mass and its centre of gravity by the same amount, and changes nothing else. -/
theorem fixedMass_moves (r : Reader K) (stage d : V3 K) (c : MassPart K) (h : fixedMass r stage = .ok c) :
    fixedMass r (stage + d) = .ok ⟨c.position + d, ⟨c.inertia.moi, c.inertia.cg + d, c.inertia.mass, c.inertia.about + d⟩⟩ := by
  obtain ⟨m, p, g, h1, h2, h3, h4, h5, h6, h7, h8⟩ := (fixedMass_spec r stage c).1 h
  refine (fixedMass_spec r _ _).2 ⟨m, p, g, h1, h2, h3, ?_, h5, ?_, ?_, h8⟩
  · simp only [h4]; abel
  · simp only [h6]; abel
  · simp only [h7]; abel

/-- **C64, violated part.** A value that is present but unreadable is reported for every other key. For `MOI` it is not: any text that
does not read as a vector is silently replaced by a hundredth of the mass. -/
theorem moi_malformed_violated (r : Reader K) (stage : V3 K) (m : K) (p g : V3 K) (t : Str) (h1 : HasFloat r "mass" m)
    (h2 : HasVector r "position" p) (h3 : HasVector r "cg" g) (h4 : r.text "MOI".toList = .ok t)
    (h5 : ∀ v, parseVector r.float t ≠ .ok v) :
    ∃ c, fixedMass r stage = .ok c ∧ c.inertia.moi = ⟨m / 100, m / 100, m / 100⟩ := by
  refine ⟨⟨stage + p, ⟨⟨m / 100, m / 100, m / 100⟩, stage + p + g, m, stage + p + g⟩⟩, ?_, rfl⟩
  refine (fixedMass_spec r stage _).2 ⟨m, p, g, h1, h2, h3, rfl, rfl, rfl, rfl, Or.inr ⟨?_, rfl⟩⟩
  rintro v ⟨s, e1, e2⟩
  rw [h4] at e1
  cases e1
  exact h5 v e2

example : ∃ c, fixedMass (toyReader [("mass", "5"), ("position", "(0 0 0)"), ("cg", "(0 0 0)"), ("MOI", "(7 7)")]) ⟨0, 0, 0⟩ = .ok c ∧
    c.inertia.moi = ⟨1 / 20, 1 / 20, 1 / 20⟩ := ⟨_, rfl, by decide +kernel⟩

/-- **C64.** A malformed mass, position or centre of gravity is an error. -/
theorem fixedMass_reports (r : Reader K) (stage : V3 K)
    (h : (∀ m, ¬ HasFloat r "mass" m) ∨ (∀ v, ¬ HasVector r "position" v) ∨ (∀ v, ¬ HasVector r "cg" v)) :
    ∃ e, fixedMass r stage = .error e := by
  cases hc : fixedMass r stage with
  | error e => exact ⟨e, rfl⟩
  | ok c =>
    obtain ⟨m, p, g, h1, h2, h3, -⟩ := (fixedMass_spec r stage c).1 hc
    rcases h with h | h | h
    · exact absurd h1 (h m)
    · exact absurd h2 (h p)
    · exact absurd h3 (h g)

/-- **C64.** A constant force is built exactly when force, position and moment are readable; it applies them at the position given. -/
theorem fixedForce_spec (r : Reader K) (stage : V3 K) (f : FMS K) :
    fixedForce r stage = .ok f ↔ HasVector r "force" f.force ∧ HasVector r "position" f.loc ∧ HasVector r "moment" f.moment := by
  have hv : ∀ k x, HasVector r k x ↔ r.getVector k.toList = .ok x := fun k x => (r.getVector_ok _ _).symm
  simp only [hv]
  unfold fixedForce
  obtain ⟨f1, f2, f3⟩ := f
  cases h1 : r.getVector "force".toList with
  | error e => simp
  | ok a =>
    cases h2 : r.getVector "position".toList with
    | error e => simp
    | ok b =>
      cases h3 : r.getVector "moment".toList with
      | error e => simp
      | ok c => simp [FMS.make]

/-- **C64, violated part.** The definition file's positions are relative to the stage tip. The point where a constant force acts is not:
on any stage whose tip is not the rocket's, it differs from the stage position plus the component position. -/
theorem fixedForce_stage_violated (r : Reader K) (stage : V3 K) (f : FMS K) (p : V3 K) (h : fixedForce r stage = .ok f)
    (hp : HasVector r "position" p) (hs : stage ≠ 0) : f.loc ≠ stage + p := by
  have := HasVector.unique ((fixedForce_spec r stage f).1 h).2.1 hp
  rw [this]
  intro e
  exact hs (by simpa using e.symm)

/-- **C64, part that holds.** It does on a stage placed at the tip of the rocket. -/
theorem fixedForce_stage_partial (r : Reader K) (f : FMS K) (p : V3 K) (h : fixedForce r 0 = .ok f)
    (hp : HasVector r "position" p) : f.loc = 0 + p := by
  rw [HasVector.unique ((fixedForce_spec r 0 f).1 h).2.1 hp, zero_add]

example : ∃ f, fixedForce (toyReader [("force", "(1 0 0)"), ("position", "(0 0 -2)"), ("moment", "(0 0 0)")]) ⟨0, 0, -3⟩ = .ok f ∧
    f.loc = ⟨0, 0, -2⟩ := ⟨_, rfl, by decide +kernel⟩

/-- **C64.** A component with constant aerodynamic coefficients is built exactly when all its values are readable, and passes them on in
the order drag, lift, and moments about x, y, z. -/
theorem aeroForce_spec (r : Reader K) (stage : V3 K) (a : AeroPart K) :
    aeroForce r stage = .ok a ↔ HasVector r "position" a.position ∧ HasFloat r "Aref" a.aref ∧ HasFloat r "Lref" a.lref ∧
      ∃ cd cl m, HasFloat r "Cd" cd ∧ HasFloat r "Cl" cl ∧ HasVector r "momentCoeffs" m ∧ a.coeffs = [cd, cl, m.x, m.y, m.z] := by
  have hf : ∀ k x, HasFloat r k x ↔ r.getFloat k.toList = .ok x := fun k x => (r.getFloat_ok _ _).symm
  have hv : ∀ k x, HasVector r k x ↔ r.getVector k.toList = .ok x := fun k x => (r.getVector_ok _ _).symm
  simp only [hf, hv]
  unfold aeroForce
  obtain ⟨a1, a2, a3, a4⟩ := a
  cases h1 : r.getVector "position".toList with
  | error e => simp [bind, Except.bind]
  | ok x1 =>
    cases h2 : r.getFloat "Aref".toList with
    | error e => simp [bind, Except.bind]
    | ok x2 =>
      cases h3 : r.getFloat "Lref".toList with
      | error e => simp [bind, Except.bind]
      | ok x3 =>
        cases h4 : r.getFloat "Cd".toList with
        | error e => simp [bind, Except.bind]
        | ok x4 =>
          cases h5 : r.getFloat "Cl".toList with
          | error e => simp [bind, Except.bind]
          | ok x5 =>
            cases h6 : r.getVector "momentCoeffs".toList with
            | error e => simp [bind, Except.bind]
            | ok x6 =>
              simp only [bind, Except.bind, Except.ok.injEq, AeroPart.mk.injEq]
              constructor
              · rintro ⟨rfl, rfl, rfl, rfl⟩
                exact ⟨rfl, rfl, rfl, x4, x5, x6, rfl, rfl, rfl, rfl⟩
              · rintro ⟨rfl, rfl, rfl, _, _, _, rfl, rfl, rfl, rfl⟩
                exact ⟨rfl, rfl, rfl, rfl⟩

/-- **C64, violated part.** As for constant forces, the stage position is not added. -/
theorem aeroForce_stage_violated (r : Reader K) (stage : V3 K) (a : AeroPart K) (p : V3 K) (h : aeroForce r stage = .ok a)
    (hp : HasVector r "position" p) (hs : stage ≠ 0) : a.position ≠ stage + p := by
  have := HasVector.unique ((aeroForce_spec r stage a).1 h).1 hp
  rw [this]
  intro e
  exact hs (by simpa using e.symm)

/-- **C64, part that holds.** -/
theorem aeroForce_stage_partial (r : Reader K) (a : AeroPart K) (p : V3 K) (h : aeroForce r 0 = .ok a)
    (hp : HasVector r "position" p) : a.position = 0 + p := by
  rw [HasVector.unique ((aeroForce_spec r 0 a).1 h).1 hp, zero_add]

example : ∃ a, aeroForce (toyReader [("position", "(0 0 -2)"), ("Aref", "1"), ("Lref", "2"), ("Cd", "3"), ("Cl", "4"),
    ("momentCoeffs", "(5 6 7)")]) ⟨0, 0, -3⟩ = .ok a ∧ a.coeffs = [3, 4, 5, 6, 7] ∧ a.position = ⟨0, 0, -2⟩ :=
  ⟨_, rfl, by decide +kernel, by decide +kernel⟩

/-- An optional value: given and readable, or not given at all -/
def OptVector (r : Reader K) (key : String) (o : Option (V3 K)) : Prop :=
  o.elim (r.text key.toList = .error .keyError) (fun v => HasVector r key v)

/-- An optional number -/
def OptFloat (r : Reader K) (key : String) (o : Option K) : Prop :=
  o.elim (r.text key.toList = .error .keyError) (fun x => HasFloat r key x)

theorem splitS_no_key {r : Reader K} {s : Str} : parseVector r.float s ≠ .error .keyError := by
  unfold parseVector dropBrackets
  cases Str.strip s with
  | nil => simp
  | cons c cs =>
    by_cases h : c = '[' ∨ c = '(' ∨ c = '{'
    · simp only [h, if_true]
      split
      · split <;> simp
      · simp
    · simp only [h, if_false]
      split
      · split <;> simp
      · simp

theorem tryGetVector_ok (r : Reader K) (key : String) (o : Option (V3 K)) :
    r.tryGetVector key.toList = .ok o ↔ OptVector r key o := by
  have hv : ∀ k x, HasVector r k x ↔ r.getVector k.toList = .ok x := fun k x => (r.getVector_ok _ _).symm
  unfold Reader.tryGetVector OptVector
  cases o with
  | some v =>
    simp only [Option.elim, hv]
    split
    · rename_i w hw; simp [hw]
    · rename_i hw; simp [hw]
    · rename_i e _ hw; simp [hw]
  | none =>
    simp only [Option.elim]
    constructor
    · intro h
      split at h
      · simp at h
      · rename_i hw
        unfold Reader.getVector at hw
        split at hw
        · rename_i e he; rw [he]; cases hw; rfl
        · exact absurd hw splitS_no_key
      · simp at h
    · intro h
      have : r.getVector key.toList = .error .keyError := by unfold Reader.getVector; rw [h]
      rw [this]

theorem tryGetFloat_ok (r : Reader K) (key : String) (o : Option K) :
    r.tryGetFloat key.toList = .ok o ↔ OptFloat r key o := by
  have hv : ∀ k x, HasFloat r k x ↔ r.getFloat k.toList = .ok x := fun k x => (r.getFloat_ok _ _).symm
  unfold Reader.tryGetFloat OptFloat
  cases o with
  | some v =>
    simp only [Option.elim, hv]
    split
    · rename_i w hw; simp [hw]
    · rename_i hw; simp [hw]
    · rename_i e _ hw; simp [hw]
  | none =>
    simp only [Option.elim]
    constructor
    · intro h
      split at h
      · simp at h
      · rename_i hw
        unfold Reader.getFloat at hw
        split at hw
        · rename_i e he; rw [he]; cases hw; rfl
        · split at hw <;> simp at hw
      · simp at h
    · intro h
      have : r.getFloat key.toList = .error .keyError := by unfold Reader.getFloat; rw [h]
      rw [this]

/-- **C64.** Stage-level overrides: the constant centre of gravity is relative to the stage tip, the mass and the moments of inertia are
taken as given, and anything left out is not overridden. -/
theorem stageOverrides_spec (r : Reader K) (stage : V3 K) (cg moi : Option (V3 K)) (mass : Option K) :
    stageOverrides r stage = .ok (cg, moi, mass) ↔
      ∃ c, OptVector r "constCG" c ∧ OptVector r "constMOI" moi ∧ OptFloat r "constMass" mass ∧ cg = c.map (fun x => stage + x) := by
  simp only [← tryGetVector_ok, ← tryGetFloat_ok]
  unfold stageOverrides
  have hc : ∀ c : Option (V3 K), c.map (fun x => stage + x) = c.map (fun x => x + stage) := by
    intro c; congr 1; funext x; exact add_comm _ _
  simp only [hc]
  cases h1 : r.tryGetVector "constCG".toList with
  | error e => simp
  | ok a =>
    cases h2 : r.tryGetFloat "constMass".toList with
    | error e => simp
    | ok b =>
      cases h3 : r.tryGetVector "constMOI".toList with
      | error e => simp
      | ok c =>
        simp only [Except.ok.injEq, Prod.mk.injEq, exists_eq_left']
        tauto

example : stageOverrides (toyReader [("constCG", "(0 0 -2)"), ("constMass", "4")]) ⟨0, 0, -3⟩ =
    .ok (some ⟨0, 0, -5⟩, none, some 4) := by decide +kernel

end

/-! ## Components without mass -/

section
variable {K : Type} [Field K] [LinearOrder K]

/-- **C64.** A component without mass changes no total: wherever it stands in the list, the combined inertia is the same. -/
theorem zeroInertia_neutral (self : Inertia K) (a b : List (Inertia K)) (h : self ≠ Inertia.make ⟨0, 0, 0⟩ ⟨0, 0, 0⟩ 0) :
    self.combine (a ++ zeroInertia :: b) = self.combine (a ++ b) := by
  set z : Inertia K := zeroInertia with hz
  have hzm : ∀ acc : K × V3 K, Inertia.addMass acc z = acc := by
    rintro ⟨m, v⟩
    simp only [hz, zeroInertia, Inertia.addMass, Inertia.make, add_zero, Prod.mk.injEq, true_and]
    apply V3.ext' <;> simp
  have hzi : ∀ p acc : V3 K, Inertia.addMOI p acc z = acc := by
    intro p acc
    simp only [hz, zeroInertia, Inertia.addMOI, Inertia.make]
    apply V3.ext' <;> simp
  have hw : ∃ c, Inertia.withSelf self (a ++ z :: b) = a ++ z :: c ∧ Inertia.withSelf self (a ++ b) = a ++ c := by
    have hne : self ≠ z := h
    unfold Inertia.withSelf
    by_cases hm : self ∈ a ++ b
    · have hm' : self ∈ a ++ z :: b := by simp at hm ⊢; tauto
      rw [if_pos hm, if_pos hm']
      exact ⟨b, rfl, rfl⟩
    · have hm' : self ∉ a ++ z :: b := by simp at hm ⊢; tauto
      rw [if_neg hm, if_neg hm']
      exact ⟨b ++ [self], by simp, by simp⟩
  obtain ⟨c, e1, e2⟩ := hw
  unfold Inertia.combine
  rw [e1, e2]
  have hd : Inertia.definedAboutCG (a ++ z :: c) = Inertia.definedAboutCG (a ++ c) := by
    simp [Inertia.definedAboutCG, hz, zeroInertia, Inertia.make]
  have hf : ∀ s, (a ++ z :: c).foldl Inertia.addMass s = (a ++ c).foldl Inertia.addMass s := by
    intro s; simp only [List.foldl_append, List.foldl_cons, hzm]
  have hg : ∀ p s, (a ++ z :: c).foldl (Inertia.addMOI p) s = (a ++ c).foldl (Inertia.addMOI p) s := by
    intro p s; simp only [List.foldl_append, List.foldl_cons, hzi]
  simp only [hd, hf, hg]

example : (⟨⟨1, 1, 1⟩, ⟨0, 0, -1⟩, 2, ⟨0, 0, -1⟩⟩ : Inertia ℚ) ≠ Inertia.make ⟨0, 0, 0⟩ ⟨0, 0, 0⟩ 0 := by decide +kernel

/-- **C64.** Nor does a component without force change the total force and moment. -/
theorem zeroForce_neutral (f : FMS K) : f.add zeroForce = f := by
  obtain ⟨a, b, c⟩ := f
  simp only [FMS.add, FMS.getAt, zeroForce, FMS.make, Option.getD, V3.cross, FMS.mk.injEq, true_and]
  refine ⟨?_, ?_⟩ <;> apply V3.ext' <;> simp

end

/-! ## Order of components -/

section
variable {K : Type} [LinearOrder K] {α : Type}

/-- **C64.** Components are sorted from top to bottom: the same components, none above an earlier one, and two at the same height keep
their order. -/
theorem orderByZ_spec (z : α → K) (l : List α) :
    (orderByZ z l).Perm l ∧ (orderByZ z l).Pairwise (fun a b => z b ≤ z a) ∧
    (∀ a b, [a, b].Sublist l → z a = z b → [a, b].Sublist (orderByZ z l)) := by
  haveI : IsTrans α (fun a b => z b ≤ z a) := ⟨fun a b c h1 h2 => le_trans h2 h1⟩
  haveI : Std.Total (fun a b : α => z b ≤ z a) := ⟨fun a b => le_total _ _⟩
  refine ⟨List.perm_insertionSort _ _, List.pairwise_insertionSort _ _, ?_⟩
  intro a b hs hz
  exact List.pair_sublist_insertionSort (le_of_eq hz.symm) hs

/-- **C64.** Height of a component: its own position's, or for one without a position that of its initial centre of gravity. -/
theorem zOf_spec (position : α → Option (V3 K)) (cg : α → V3 K) (a : α) :
    (∀ p, position a = some p → zOf position cg a = p.z) ∧ (position a = none → zOf position cg a = (cg a).z) := by
  unfold zOf
  constructor
  · intro p hp; rw [hp]
  · intro hp; rw [hp]

example : orderByZ (fun p : ℤ × ℕ => p.1) [(-2, 0), (0, 1), (-2, 2), (-1, 3)] = [(0, 1), (-1, 3), (-2, 0), (-2, 2)] := by decide +kernel

theorem find_assoc {γ : Type} (t : List (Str × γ)) (hn : (t.map Prod.fst).Nodup) (name : Str) (c : γ) :
    (∃ p, t.find? (fun p => p.1 == name) = some p ∧ p.2 = c) ↔ (name, c) ∈ t := by
  induction t with
  | nil => simp
  | cons q t ih =>
    obtain ⟨k, v⟩ := q
    rw [List.map_cons, List.nodup_cons] at hn
    rw [List.find?_cons]
    by_cases hk : k = name
    · subst hk
      simp only [beq_self_eq_true, List.mem_cons, Prod.mk.injEq, true_and]
      constructor
      · rintro ⟨p, hp, rfl⟩
        cases hp
        exact Or.inl rfl
      · rintro (rfl | h)
        · exact ⟨_, rfl, rfl⟩
        · exact absurd (List.mem_map_of_mem (f := Prod.fst) h) hn.1
    · have : ((k, v).1 == name) = false := by simpa using hk
      rw [this]
      simp only [List.mem_cons, Prod.mk.injEq, ih hn.2, Ne.symm hk, false_and, false_or]

/-- **C64.** Exactly fifteen class names are accepted; any other is a KeyError. -/
theorem classOf_spec (name : Str) :
    (∀ c, classOf name = .ok c ↔ (name, c) ∈ ([("AeroDamping".toList, .aeroDamping), ("AeroForce".toList, .aeroForce),
      ("BoatTail".toList, .boatTail), ("Bodytube".toList, .bodyTube), ("FinSet".toList, .finSet), ("Force".toList, .force),
      ("FractionalJetDamping".toList, .jetDamping), ("Mass".toList, .mass), ("Motor".toList, .motor), ("Nosecone".toList, .noseCone),
      ("RecoverySystem".toList, .recovery), ("StatefulSample".toList, .stateful), ("TabulatedAeroForce".toList, .tabulatedAero),
      ("TabulatedInertia".toList, .tabulatedInertia), ("Transition".toList, .transition)] : List (Str × PartClass))) ∧
    (∀ e, classOf name = .error e → e = .keyError) := by
  constructor
  · intro c
    rw [← find_assoc _ (by decide +kernel)]
    unfold classOf
    split
    · rename_i p hp
      simp only [hp, Option.some.injEq, Except.ok.injEq, exists_eq_left']
    · rename_i hp
      simp only [hp, reduceCtorEq, false_and, exists_false]
  · intro e h
    unfold classOf at h
    split at h
    · cases h
    · cases h; rfl

theorem mapM_forall2 {α β : Type} (f : α → Except PyErr β) :
    ∀ (l : List α) (out : List β), l.mapM f = .ok out ↔ List.Forall₂ (fun a b => f a = .ok b) l out := by
  intro l
  induction l with
  | nil => intro out; simp [pure, Except.pure, eq_comm]
  | cons a l ih =>
    intro out
    rw [List.mapM_cons, List.forall₂_cons_left_iff]
    cases ha : f a with
    | error e => simp [bind, Except.bind]
    | ok b =>
      cases hl : l.mapM f with
      | error e =>
        simp only [bind, Except.bind, hl, reduceCtorEq, false_iff]
        rintro ⟨b', u, -, h2, -⟩
        rw [← ih] at h2
        rw [hl] at h2
        cases h2
      | ok bs =>
        simp only [bind, Except.bind, hl, pure, Except.pure, Except.ok.injEq]
        constructor
        · rintro rfl; exact ⟨b, bs, rfl, (ih bs).1 hl, rfl⟩
        · rintro ⟨b', u, h1, h2, rfl⟩
          rw [← ih, hl] at h2
          cases h1; cases h2; rfl

theorem orderKey_ok (cls : Str → Except PyErr Str) (p : Str) (k : Bool × Str) :
    orderKey cls p = .ok k ↔ ∃ name c, cls p = .ok name ∧ classOf name = .ok c ∧ k = (!c.isBody, p) := by
  unfold orderKey
  cases h1 : cls p with
  | error e => simp
  | ok name =>
    cases h2 : classOf name with
    | error e => simp [h2]
    | ok c => simp [h2, eq_comm]

/-- **C64.** The components of a stage are built exactly once each, provided every class name is known; body components come before all
others (which may ask for the radius of the body they are mounted on), and within each group the order is that of the names. -/
theorem buildOrder_spec (cls : Str → Except PyErr Str) (paths out : List Str) (h : buildOrder cls paths = .ok out) :
    out.Perm paths ∧
    (∀ p ∈ paths, ∃ name c, cls p = .ok name ∧ classOf name = .ok c) ∧
    out.Pairwise (fun a b => ∀ na nb ca cb, cls a = .ok na → cls b = .ok nb → classOf na = .ok ca → classOf nb = .ok cb →
      (ca.isBody = false → cb.isBody = false) ∧ (ca.isBody = cb.isBody → a ≤ b)) := by
  unfold buildOrder at h
  split at h
  · cases h
  rename_i keys hk
  rw [Except.ok.injEq] at h
  have hf := (mapM_forall2 (orderKey cls) paths keys).1 hk
  have hsnd : keys.map Prod.snd = paths := by
    clear h hk
    induction hf with
    | nil => rfl
    | cons h1 _ ih =>
      obtain ⟨_, _, _, _, rfl⟩ := (orderKey_ok cls _ _).1 h1
      simp [ih]
  have hmem : ∀ k ∈ keys, orderKey cls k.2 = .ok k := by
    clear h hk hsnd
    induction hf with
    | nil => simp
    | cons h1 _ ih =>
      intro k hk
      rcases List.mem_cons.1 hk with rfl | hk
      · obtain ⟨name, c, e1, e2, rfl⟩ := (orderKey_ok cls _ _).1 h1
        exact h1
      · exact ih k hk
  refine ⟨?_, ?_, ?_⟩
  · rw [← h, ← hsnd]
    exact (List.perm_insertionSort _ _).map _
  · intro p hp
    rw [← hsnd] at hp
    obtain ⟨k, hk', rfl⟩ := List.mem_map.1 hp
    obtain ⟨name, c, e1, e2, -⟩ := (orderKey_ok cls _ _).1 (hmem k hk')
    exact ⟨name, c, e1, e2⟩
  · rw [← h, List.pairwise_map]
    haveI : IsTrans (Bool × Str) (fun a b => toLex a ≤ toLex b) := ⟨fun a b c h1 h2 => le_trans h1 h2⟩
    haveI : Std.Total (fun a b : Bool × Str => toLex a ≤ toLex b) := ⟨fun a b => le_total _ _⟩
    refine (List.pairwise_insertionSort (fun a b : Bool × Str => toLex a ≤ toLex b) keys).imp_of_mem ?_
    intro a b ha hb hab na nb ca cb h1 h2 h3 h4
    have ha' := hmem a ((List.perm_insertionSort _ _).mem_iff.1 ha)
    have hb' := hmem b ((List.perm_insertionSort _ _).mem_iff.1 hb)
    obtain ⟨na', ca', f1, f2, f3⟩ := (orderKey_ok cls _ _).1 ha'
    obtain ⟨nb', cb', g1, g2, g3⟩ := (orderKey_ok cls _ _).1 hb'
    rw [h1] at f1; cases f1
    rw [h2] at g1; cases g1
    rw [h3] at f2; cases f2
    rw [h4] at g2; cases g2
    rw [Prod.Lex.toLex_le_toLex] at hab
    have fa : a.1 = !ca.isBody := congrArg Prod.fst f3
    have gb : b.1 = !cb.isBody := congrArg Prod.fst g3
    rw [fa, gb] at hab
    constructor
    · intro hca
      rw [hca] at hab
      cases hcb : cb.isBody with
      | false => rfl
      | true => rw [hcb] at hab; simp at hab; exact absurd hab (by decide)
    · intro hc
      rw [hc] at hab
      simpa using hab

/-- The body components are nose cones, body tubes, transitions and boat tails. -/
theorem isBody_iff (c : PartClass) : c.isBody = true ↔ c = .noseCone ∨ c = .bodyTube ∨ c = .transition ∨ c = .boatTail := by
  cases c <;> simp [PartClass.isBody]

/-- **C64.** And if some class is missing or unknown, the stage is not built. -/
theorem buildOrder_fails (cls : Str → Except PyErr Str) (paths : List Str) (p : Str) (hp : p ∈ paths)
    (h : ∀ name, cls p = .ok name → ∃ e, classOf name = .error e) : ∃ e, buildOrder cls paths = .error e := by
  cases hb : buildOrder cls paths with
  | error e => exact ⟨e, rfl⟩
  | ok out =>
    obtain ⟨name, c, h1, h2⟩ := (buildOrder_spec cls paths out hb).2.1 p hp
    obtain ⟨e, he⟩ := h name h1
    rw [he] at h2
    cases h2

/-- **C64.** Otherwise it is. -/
theorem buildOrder_succeeds (cls : Str → Except PyErr Str) (paths : List Str)
    (h : ∀ p ∈ paths, ∃ name c, cls p = .ok name ∧ classOf name = .ok c) : ∃ out, buildOrder cls paths = .ok out := by
  have : ∃ keys, paths.mapM (orderKey cls) = .ok keys := by
    clear * - h
    induction paths with
    | nil => exact ⟨[], rfl⟩
    | cons p ps ih =>
      obtain ⟨keys, hk⟩ := ih (fun q hq => h q (List.mem_cons_of_mem _ hq))
      obtain ⟨name, c, h1, h2⟩ := h p List.mem_cons_self
      exact ⟨(!c.isBody, p) :: keys, (mapM_forall2 _ _ _).2 (List.Forall₂.cons ((orderKey_ok cls p _).2 ⟨name, c, h1, h2, rfl⟩)
        ((mapM_forall2 _ _ _).1 hk))⟩
  obtain ⟨keys, hk⟩ := this
  unfold buildOrder
  rw [hk]
  exact ⟨_, rfl⟩

example : buildOrder (fun p => if p = "S.Fins".toList then .ok "FinSet".toList else if p = "S.Tube".toList then .ok "Bodytube".toList
    else .ok "Nosecone".toList) ["S.Fins".toList, "S.Tube".toList, "S.Nose".toList] =
    .ok ["S.Nose".toList, "S.Tube".toList, "S.Fins".toList] := by decide +kernel

end

/-! ## C65: tables -/

/-- The five coefficient names, in the order the force routine takes them -/
def fiveNames : List String := ["CD", "CL", "CMx", "CMy", "CMz"]

/-- The names of key columns -/
def keyNames : List (Str × AeroKey) :=
  [("Mach".toList, .mach), ("Altitude".toList, .altitude), ("UnitReynolds".toList, .unitReynolds), ("TotalAOA".toList, .totalAOA),
    ("RollAngle".toList, .rollAngle), ("AOA".toList, .aoa), ("AOSS".toList, .aoss)]

theorem aeroKeyOf_spec (name : Str) (k : AeroKey) : aeroKeyOf name = some k ↔ (name, k) ∈ keyNames := by
  rw [← find_assoc keyNames (by decide +kernel)]
  unfold aeroKeyOf
  rw [Option.map_eq_some_iff]
  rfl

theorem leadingKeys_spec (names : List Str) :
    ∃ ks : List Str, names = ks ++ (leadingKeys names).2 ∧
      List.Forall₂ (fun n k => (n, k) ∈ keyNames) ks (leadingKeys names).1 ∧
      (∀ n, (leadingKeys names).2.head? = some n → ∀ k, (n, k) ∉ keyNames) := by
  induction names with
  | nil => exact ⟨[], rfl, List.Forall₂.nil, by simp [leadingKeys]⟩
  | cons c cs ih =>
    unfold leadingKeys
    cases h : aeroKeyOf c with
    | none =>
      refine ⟨[], rfl, List.Forall₂.nil, ?_⟩
      intro n hn k hk
      simp only [List.head?_cons, Option.some.injEq] at hn
      subst hn
      rw [← aeroKeyOf_spec, h] at hk
      cases hk
    | some k =>
      obtain ⟨ks, h1, h2, h3⟩ := ih
      exact ⟨c :: ks, by simp only [List.cons_append]; rw [← h1], List.Forall₂.cons ((aeroKeyOf_spec c k).1 h) h2, h3⟩

theorem coeffIndices_spec (names : List Str) :
    ((∀ n ∈ names, n ∈ fiveNames.map String.toList) →
      ∃ idx, coeffIndices names = .ok idx ∧ List.Forall₂ (fun n i => (fiveNames.map String.toList)[i]? = some n) names idx) ∧
    ((∃ n ∈ names, n ∉ fiveNames.map String.toList) → coeffIndices names = .error .valueError) := by
  have hn : coeffNames = fiveNames.map String.toList := rfl
  rw [← hn]
  induction names with
  | nil => exact ⟨fun _ => ⟨[], rfl, List.Forall₂.nil⟩, by simp⟩
  | cons c cs ih =>
    unfold coeffIndices
    constructor
    · intro h
      obtain ⟨idx, e, hf⟩ := ih.1 (fun n hn => h n (List.mem_cons_of_mem _ hn))
      rw [if_pos (h c List.mem_cons_self), e]
      exact ⟨_, rfl, List.Forall₂.cons (List.getElem?_idxOf (h c List.mem_cons_self)) hf⟩
    · rintro ⟨n, hn', hbad⟩
      by_cases hc : c ∈ coeffNames
      · rw [if_pos hc]
        rcases List.mem_cons.1 hn' with rfl | hn'
        · exact absurd hc hbad
        · rw [ih.2 ⟨n, hn', hbad⟩]
      · rw [if_neg hc]

section
variable {K : Type} [Field K] [LinearOrder K]

theorem load2D_ok (rows : List (List K)) (n : Nat) :
    load2D rows = .ok n ↔ 2 ≤ rows.length ∧ 2 ≤ n ∧ ∀ r ∈ rows, r.length = n := by
  unfold load2D
  cases rows with
  | nil => simp
  | cons r rs =>
    by_cases h : rs.all (fun s => decide (s.length = r.length)) = true
    · simp only [h, if_true]
      rw [List.all_eq_true] at h
      simp only [decide_eq_true_eq] at h
      by_cases h2 : rs = [] ∨ r.length ≤ 1
      · rw [if_pos h2]
        simp only [reduceCtorEq, List.length_cons, false_iff, not_and]
        intro a b c
        rcases h2 with rfl | h2
        · simp at a
        · have := c r List.mem_cons_self; omega
      · rw [if_neg h2]
        push Not at h2
        simp only [Except.ok.injEq, List.length_cons]
        have hl : 0 < rs.length := List.length_pos_of_ne_nil h2.1
        constructor
        · rintro rfl
          refine ⟨by omega, h2.2, ?_⟩
          intro s hs
          rcases List.mem_cons.1 hs with rfl | hs
          · rfl
          · exact h s hs
        · rintro ⟨-, -, h3⟩
          exact h3 r List.mem_cons_self
    · simp only [h]
      simp only [Bool.false_eq_true, if_false, reduceCtorEq, false_iff, not_and]
      intro _ _ hall
      apply h
      rw [List.all_eq_true]
      intro s hs
      rw [decide_eq_true_eq, hall s (List.mem_cons_of_mem _ hs), hall r List.mem_cons_self]

theorem fillCoeffs_spec (idx : List Nat) (es : List (Nat × K)) (acc : List K)
    (h : ∀ e ∈ es, ∃ k, idx[e.1]? = some k ∧ k < acc.length) :
    ∃ L, fillCoeffs idx es acc = .ok L ∧ L.length = acc.length ∧
      (∀ k, (∀ e ∈ es, idx[e.1]? ≠ some k) → L[k]? = acc[k]?) ∧
      (∀ e ∈ es, (∀ e' ∈ es, idx[e'.1]? = idx[e.1]? → e' = e) → ∀ k, idx[e.1]? = some k → L[k]? = some e.2) := by
  induction es generalizing acc with
  | nil => exact ⟨acc, rfl, rfl, fun _ _ => rfl, by simp⟩
  | cons e es ih =>
    obtain ⟨i, v⟩ := e
    obtain ⟨k0, hk0, hlt⟩ := h (i, v) List.mem_cons_self
    obtain ⟨L, h1, h2, h3, h4⟩ := ih (acc.set k0 v) (by
      intro e he
      obtain ⟨k, a, b⟩ := h e (List.mem_cons_of_mem _ he)
      exact ⟨k, a, by rw [List.length_set]; exact b⟩)
    refine ⟨L, ?_, by rw [h2, List.length_set], ?_, ?_⟩
    · unfold fillCoeffs
      rw [hk0]
      simp only [hlt, if_true]
      exact h1
    · intro k hk
      rw [h3 k (fun e he => hk e (List.mem_cons_of_mem _ he))]
      have : k0 ≠ k := fun e => hk (i, v) List.mem_cons_self (by rw [← e]; exact hk0)
      rw [List.getElem?_set_ne this]
    · intro e he huniq k hk
      by_cases hin : e ∈ es
      · exact h4 e hin (fun e' he' => huniq e' (List.mem_cons_of_mem _ he')) k hk
      · rcases List.mem_cons.1 he with rfl | he
        · rw [hk0] at hk
          cases hk
          rw [h3 k0, List.getElem?_set_self hlt]
          intro e' he' heq
          exact hin (huniq e' (List.mem_cons_of_mem _ he') (by rw [heq, hk0]) ▸ he')
        · exact absurd he hin

/-- Interpolating rows of a table is interpolating each of its columns. -/
theorem linInterp_map {V W : Type} [AddCommGroup V] [Module K V] [AddCommGroup W] [Module K W] (g : V →ₗ[K] W)
    (X : List K) (Y : List V) (x : K) : linInterp X (Y.map g) x = (linInterp X Y x).map g := by
  have hget : ∀ i : Int, pyGet (Y.map g) i = (pyGet Y i).map g := by
    intro i
    unfold pyGet
    simp only [List.length_map, List.getElem?_map]
    generalize (if i < 0 then i + (Y.length : Int) else i) = j
    by_cases hj : j < 0
    · simp only [hj, if_true]; rfl
    · simp only [hj, if_false]
      cases Y[j.toNat]? <;> rfl
  unfold linInterp
  simp only [hget]
  split
  · rfl
  · split
    · rfl
    · cases pyGet X (bisect X x : Int) with
      | error e => rfl
      | ok a =>
        cases pyGet X ((bisect X x : Int) - 1) with
        | error e => rfl
        | ok b =>
          cases pyGet Y (bisect X x : Int) with
          | error e => rfl
          | ok c =>
            cases pyGet Y ((bisect X x : Int) - 1) with
            | error e => rfl
            | ok d =>
              simp only [Except.map]
              split
              · rfl
              · simp

/-- **C65.** A table keyed by one aerodynamic parameter. The header names the key column, then the coefficients in any order; each
coefficient is the interpolated value of its own column, and those without a column are zero. -/
theorem aeroTable_spec [IsStrictOrderedRing K] (header : Str) (rows : List (List K)) (kname : Str) (key : AeroKey) (vs : List Str)
    (hh : Str.splitC ',' (Str.strip header) = kname :: vs) (hk : (kname, key) ∈ keyNames)
    (hvs : ∀ v ∈ vs, v ∈ fiveNames.map String.toList) (hnd : vs.Nodup) (hne : vs ≠ []) (hrows : 2 ≤ rows.length)
    (hw : ∀ r ∈ rows, r.length = 1 + vs.length) (hs : (rows.map (fun r => r.getD 0 0)).Pairwise (· < ·)) (value : AeroKey → K) :
    ∃ t, loadCoefficients header rows = .ok t ∧ ∀ nd, ∃ L, aeroCoefficients t value nd = .ok L ∧ L.length = 5 ∧
      ∀ (i : Nat) (name : String), fiveNames[i]? = some name →
        (name.toList ∉ vs → L[i]? = some 0) ∧
        (∀ j : Nat, vs[j]? = some name.toList → ∃ y, L[i]? = some y ∧
          linInterp (rows.map (fun r => r.getD 0 0)) (rows.map (fun r => r.getD (1 + j) 0)) (value key) = .ok y) := by
  have hkey : aeroKeyOf kname = some key := (aeroKeyOf_spec _ _).2 hk
  have hvk : leadingKeys vs = ([], vs) := by
    cases vs with
    | nil => rfl
    | cons v vs =>
      have hv := hvs v List.mem_cons_self
      have : aeroKeyOf v = none := by
        simp only [fiveNames, List.map_cons, List.map_nil, List.mem_cons, List.not_mem_nil, or_false] at hv
        rcases hv with rfl | rfl | rfl | rfl | rfl <;> decide +kernel
      unfold leadingKeys
      rw [this]
  have hlk : leadingKeys (kname :: vs) = ([key], vs) := by
    unfold leadingKeys
    rw [hkey]
    simp [hvk]
  obtain ⟨idx, hidx, hf⟩ := (coeffIndices_spec vs).1 hvs
  have hvl : 0 < vs.length := List.length_pos_of_ne_nil hne
  have h2d : load2D rows = .ok (1 + vs.length) := (load2D_ok rows _).2 ⟨hrows, by omega, hw⟩
  have hload : loadCoefficients header rows = .ok ⟨[key], idx, vs.length, rows.map (fun r => r.getD 0 0),
      rows.map (fun r => r.take 1), rows.map (fun r => slice r 1 vs.length)⟩ := by
    have e : leadingKeys (Str.splitC ',' (Str.strip header)) = ([key], vs) := by rw [hh, hlk]
    have e' : 1 + vs.length - ([key] : List AeroKey).length = vs.length := by simp
    unfold loadCoefficients
    dsimp only
    rw [e]
    dsimp only
    rw [hidx, h2d]
    dsimp only
    rw [e']
    rfl
  refine ⟨_, hload, ?_⟩
  intro nd
  unfold aeroCoefficients
  simp only [List.map_cons, List.map_nil, List.length_cons, List.length_nil, Nat.lt_irrefl, gt_iff_lt, zero_add, if_false]
  set X := rows.map (fun r => r.getD 0 0) with hX
  have hXne : X ≠ [] := by
    intro h; have := congrArg List.length h; rw [hX] at this; simp at this; rw [this] at hrows; simp at hrows
  obtain ⟨row, hrow⟩ : ∃ row, linInterp X (rows.map (fun r => slice r 1 vs.length)) (value key) = .ok row := by
    exact linInterp_total X _ (strict_le hs) hXne (by simp [hX]) (value key)
  rw [hrow]
  dsimp only
  have hil : idx.length = vs.length := hf.length_eq.symm
  have hget : ∀ j (hj : j < vs.length), ∃ k, idx[j]? = some k ∧ (fiveNames.map String.toList)[k]? = some vs[j] := by
    intro j hj
    refine ⟨idx[j]'(by omega), List.getElem?_eq_getElem _, ?_⟩
    exact hf.get hj (by omega)
  obtain ⟨L, h1, h2, h3, h4⟩ := fillCoeffs_spec idx ((List.finRange vs.length).map (fun j => (j.val, row j))) [0, 0, 0, 0, 0] (by
    intro e he
    obtain ⟨j, -, rfl⟩ := List.mem_map.1 he
    obtain ⟨k, hk1, hk2⟩ := hget j.val (by have := j.isLt; omega)
    refine ⟨k, hk1, ?_⟩
    have := (List.getElem?_eq_some_iff.1 hk2).1
    simpa [fiveNames] using this)
  refine ⟨L, h1, h2, ?_⟩
  intro i name hname
  have hname' : (fiveNames.map String.toList)[i]? = some name.toList := by rw [List.getElem?_map, hname]; rfl
  have hinj : ∀ k, (fiveNames.map String.toList)[k]? = some name.toList → k = i := by
    intro k hk'
    obtain ⟨a1, a2⟩ := List.getElem?_eq_some_iff.1 hk'
    obtain ⟨b1, b2⟩ := List.getElem?_eq_some_iff.1 hname'
    have hnd5 : (fiveNames.map String.toList).Nodup := by decide +kernel
    exact (hnd5.getElem_inj_iff).1 (a2.trans b2.symm)
  have hi5 : i < 5 := by have := (List.getElem?_eq_some_iff.1 hname).1; simpa [fiveNames] using this
  constructor
  · intro hnot
    rw [h3 i]
    · rcases i with _ | _ | _ | _ | _ | i <;> first | rfl | omega
    · intro e he heq
      obtain ⟨j, -, rfl⟩ := List.mem_map.1 he
      obtain ⟨k, hk1, hk2⟩ := hget j.val (by have := j.isLt; omega)
      dsimp only at heq
      rw [hk1] at heq
      cases heq
      rw [hk2, Option.some.injEq] at hname'
      exact hnot (hname' ▸ List.getElem_mem _)
  · intro j hj
    obtain ⟨hj1, hj2⟩ := List.getElem?_eq_some_iff.1 hj
    obtain ⟨k, hk1, hk2⟩ := hget j hj1
    have hki : k = i := hinj k (by rw [hk2, hj2])
    subst hki
    have hjw : j < vs.length := by omega
    refine ⟨row ⟨j, hjw⟩, ?_, ?_⟩
    · refine h4 (j, row ⟨j, hjw⟩) (List.mem_map.2 ⟨⟨j, hjw⟩, List.mem_finRange _, rfl⟩) ?_ k hk1
      intro e' he' heq
      obtain ⟨j', -, rfl⟩ := List.mem_map.1 he'
      obtain ⟨k', hk1', hk2'⟩ := hget j'.val (by have := j'.isLt; omega)
      dsimp only at heq
      rw [hk1, hk1'] at heq
      cases heq
      rw [hk2] at hk2'
      simp only [Option.some.injEq] at hk2'
      have : j = j'.val := (hnd.getElem_inj_iff).1 hk2'
      subst this
      rfl
    · have := linInterp_map (LinearMap.proj (R := K) (φ := fun _ : Fin vs.length => K) ⟨j, hjw⟩) X (rows.map (fun r => slice r 1 vs.length)) (value key)
      rw [hrow] at this
      rw [List.map_map] at this
      exact this

/-- **C65.** At a tabulated key every coefficient is the tabulated number. -/
theorem aeroTable_exact [IsStrictOrderedRing K] (header : Str) (rows : List (List K)) (kname : Str) (key : AeroKey) (vs : List Str)
    (hh : Str.splitC ',' (Str.strip header) = kname :: vs) (hk : (kname, key) ∈ keyNames)
    (hvs : ∀ v ∈ vs, v ∈ fiveNames.map String.toList) (hnd : vs.Nodup) (hne : vs ≠ []) (hrows : 2 ≤ rows.length)
    (hw : ∀ r ∈ rows, r.length = 1 + vs.length) (hs : (rows.map (fun r => r.getD 0 0)).Pairwise (· < ·)) (value : AeroKey → K)
    (n : Nat) (hn : n < rows.length) (hv : value key = rows[n].getD 0 0) :
    ∃ t, loadCoefficients header rows = .ok t ∧ ∀ nd, ∃ L, aeroCoefficients t value nd = .ok L ∧
      ∀ (i : Nat) (name : String), fiveNames[i]? = some name → ∀ j : Nat, vs[j]? = some name.toList →
        L[i]? = some (rows[n].getD (1 + j) 0) := by
  obtain ⟨t, h1, h2⟩ := aeroTable_spec header rows kname key vs hh hk hvs hnd hne hrows hw hs value
  refine ⟨t, h1, fun nd => ?_⟩
  obtain ⟨L, h3, -, h4⟩ := h2 nd
  refine ⟨L, h3, ?_⟩
  intro i name hname j hj
  obtain ⟨y, hy, hi⟩ := (h4 i name hname).2 j hj
  rw [hy]
  have hX : rows.map (fun r => r.getD 0 0) ≠ [] := by
    intro h; have := congrArg List.length h; simp at this; subst this; simp at hn
  have := (linInterp_spec (rows.map (fun r => r.getD 0 0)) (rows.map (fun r => r.getD (1 + j) 0)) hs hX (by simp)).1 n (by simpa using hn)
  simp only [List.getElem_map] at this
  rw [← hv, hi] at this
  cases this
  rfl

/-- Tables with one key column do not use the multi-dimensional interpolator. -/
theorem aeroCoefficients_nd (t : AeroTable K) (value : AeroKey → K) (h : t.params.length ≤ 1)
    (nd nd' : List (List K) → List (Fin t.width → K) → List K → Except PyErr (Fin t.width → K)) :
    aeroCoefficients t value nd = aeroCoefficients t value nd' := by
  unfold aeroCoefficients
  have : ¬ (t.params.map value).length > 1 := by simp; omega
  simp only [this, if_false]

/-- **C65.** A column that is neither a leading key nor one of the five coefficients - misspelt, or a key after a coefficient - is
reported when the table is loaded. -/
theorem aeroTable_reports (header : Str) (rows : List (List K)) (ks vs : List Str)
    (hh : Str.splitC ',' (Str.strip header) = ks ++ vs) (v : Str) (hv : v ∈ vs) (hbad : v ∉ fiveNames.map String.toList)
    (hkey : (∀ k, (v, k) ∉ keyNames) ∨ ∃ u us, vs = u :: us ∧ ∀ k, (u, k) ∉ keyNames) :
    loadCoefficients header rows = .error .valueError := by
  have key : ∃ w ∈ (leadingKeys (Str.splitC ',' (Str.strip header))).2, w ∉ fiveNames.map String.toList := by
    rw [hh]
    rcases hkey with hkey | ⟨u, us, rfl, hu⟩
    · refine ⟨v, ?_, hbad⟩
      obtain ⟨ks', e1, e2, -⟩ := leadingKeys_spec (ks ++ vs)
      have hmem : v ∈ ks' ++ (leadingKeys (ks ++ vs)).2 := by rw [← e1]; exact List.mem_append_right _ hv
      rcases List.mem_append.1 hmem with hm | hm
      · exfalso
        obtain ⟨i, hi, rfl⟩ := List.getElem_of_mem hm
        exact hkey _ (e2.get hi (by rw [← e2.length_eq]; exact hi))
      · exact hm
    · refine ⟨v, ?_, hbad⟩
      have : ∃ pre, (leadingKeys (ks ++ u :: us)).2 = pre ++ u :: us := by
        clear hh hv
        induction ks with
        | nil =>
          have : aeroKeyOf u = none := by
            cases h : aeroKeyOf u with
            | none => rfl
            | some k => exact absurd ((aeroKeyOf_spec u k).1 h) (hu k)
          exact ⟨[], by simp [leadingKeys, this]⟩
        | cons c cs ih =>
          obtain ⟨pre, hp⟩ := ih
          simp only [List.cons_append]
          unfold leadingKeys
          cases aeroKeyOf c with
          | none => exact ⟨c :: cs, rfl⟩
          | some k => exact ⟨pre, hp⟩
      obtain ⟨pre, hp⟩ := this
      rw [hp]
      exact List.mem_append_right _ hv
  unfold loadCoefficients
  simp only [(coeffIndices_spec _).2 key]

/-- The documentation's own example header is refused: the drag column has to be spelt `CD`. -/
example (rows : List (List ℚ)) : loadCoefficients "Mach,Cd".toList rows = .error .valueError :=
  aeroTable_reports _ rows ["Mach".toList] ["Cd".toList] (by decide +kernel) "Cd".toList (by simp) (by decide +kernel)
    (Or.inl (by intro k; cases k <;> decide +kernel))

/-- A key column after a coefficient column -/
example (rows : List (List ℚ)) : loadCoefficients "Mach,CD,AOA".toList rows = .error .valueError :=
  aeroTable_reports _ rows ["Mach".toList] ["CD".toList, "AOA".toList] (by decide +kernel) "AOA".toList (by simp) (by decide +kernel)
    (Or.inr ⟨"CD".toList, ["AOA".toList], rfl, by intro k; cases k <;> decide +kernel⟩)

example : ∃ t, loadCoefficients "Mach,CL,CD\n".toList [[0, 1, 5], [2, 3, 7]] = .ok t ∧
    ∀ nd, aeroCoefficients t (fun _ => (1 : ℚ)) nd = .ok [6, 2, 0, 0, 0] := 
  ⟨_, rfl, fun nd => (aeroCoefficients_nd _ _ (by decide +kernel) nd (fun _ _ _ => .error .indexError)).trans (by decide +kernel)⟩

/-- **C65, violated part.** The data rows are not checked against the header. With fewer columns than named, the table is accepted and
the missing coefficients are silently zero. -/
theorem aeroTable_short_violated : ∃ t, loadCoefficients "Mach,CD,CL".toList [[0, 1], [2, 3]] = .ok t ∧
    ∀ nd, aeroCoefficients t (fun _ => (2 : ℚ)) nd = .ok [3, 0, 0, 0, 0] := 
  ⟨_, rfl, fun nd => (aeroCoefficients_nd _ _ (by decide +kernel) nd (fun _ _ _ => .error .indexError)).trans (by decide +kernel)⟩

/-- **C65, violated part.** With more columns than named it is accepted too, and only the first evaluation in flight fails. -/
theorem aeroTable_long_violated : ∃ t, loadCoefficients "Mach,CD".toList [[0, 1, 4], [2, 3, 4]] = .ok t ∧
    ∀ nd, aeroCoefficients t (fun _ => (2 : ℚ)) nd = .error .indexError := 
  ⟨_, rfl, fun nd => (aeroCoefficients_nd _ _ (by decide +kernel) nd (fun _ _ _ => .error .indexError)).trans (by decide +kernel)⟩

/-- **C65, violated part.** A table with a single row of data, or without a key column, is an IndexError rather than a constant. -/
theorem aeroTable_single_violated (header : Str) (r : List K) :
    ∃ e, loadCoefficients header [r] = .error e := by
  unfold loadCoefficients
  dsimp only
  cases coeffIndices (leadingKeys (Str.splitC ',' (Str.strip header))).2 with
  | error e => exact ⟨e, rfl⟩
  | ok idx => exact ⟨.indexError, rfl⟩

/-! ## Tabulated inertia -/

/-- **C65.** Tabulated inertia: exactly eight columns are accepted. -/
theorem loadInertia_ok (rows : List (List K)) :
    (∃ t, loadInertia rows = .ok t) ↔ 2 ≤ rows.length ∧ ∀ r ∈ rows, r.length = 8 := by
  unfold loadInertia
  cases h : load2D rows with
  | error e =>
    simp only [reduceCtorEq, exists_false, false_iff, not_and]
    intro h2 h8
    rw [(load2D_ok rows 8).2 ⟨h2, by omega, h8⟩] at h
    cases h
  | ok cols =>
    obtain ⟨h1, h2, h3⟩ := (load2D_ok rows cols).1 h
    by_cases h8 : cols = 8
    · subst h8
      simp only [ne_eq, not_true_eq_false, if_false, Except.ok.injEq, exists_eq', true_iff]
      exact ⟨h1, h3⟩
    · simp only [ne_eq, h8, not_false_eq_true, if_true, reduceCtorEq, exists_false, false_iff, not_and]
      intro _ hall
      cases rows with
      | nil => simp at h1
      | cons r rs => exact h8 ((h3 r List.mem_cons_self).symm.trans (hall r List.mem_cons_self))

/-- One column of the table as a function of time, by linear interpolation between neighbouring rows -/
def ColumnAt (rows : List (List K)) (time : K) (j : Nat) (y : K) : Prop :=
  linInterp (rows.map (fun r => r.getD 0 0)) (rows.map (fun r => r.getD j 0)) time = .ok y

/-- **C65.** The inertia at any time: mass from the second column, centre of gravity from the next three, moments of inertia from the last
three, about that centre of gravity. -/
theorem tableInertia_spec [IsStrictOrderedRing K] (rows : List (List K)) (time : K) (h2 : 2 ≤ rows.length)
    (h8 : ∀ r ∈ rows, r.length = 8) (hs : (rows.map (fun r => r.getD 0 0)).Pairwise (· < ·)) :
    ∃ t i, loadInertia rows = .ok t ∧ tableInertia t time = .ok i ∧ ColumnAt rows time 1 i.mass ∧
      ColumnAt rows time 2 i.cg.x ∧ ColumnAt rows time 3 i.cg.y ∧ ColumnAt rows time 4 i.cg.z ∧
      ColumnAt rows time 5 i.moi.x ∧ ColumnAt rows time 6 i.moi.y ∧ ColumnAt rows time 7 i.moi.z ∧ i.about = i.cg := by
  have hl : loadInertia rows = .ok (rows.map (fun r => r.getD 0 0), rows.map (fun r => slice r 1 7)) := by
    unfold loadInertia
    rw [(load2D_ok rows 8).2 ⟨h2, by omega, h8⟩]
    simp
  have hX : rows.map (fun r => r.getD 0 0) ≠ [] := by
    intro h; have := congrArg List.length h; simp at this; subst this; simp at h2
  obtain ⟨v, hv⟩ := linInterp_total (rows.map (fun r => r.getD 0 0)) (rows.map (fun r => slice r 1 7)) (strict_le hs) hX (by simp) time
  have hcol : ∀ j : Fin 7, ColumnAt rows time (1 + j.val) (v j) := by
    intro j
    have := linInterp_map (LinearMap.proj (R := K) (φ := fun _ : Fin 7 => K) j) (rows.map (fun r => r.getD 0 0))
      (rows.map (fun r => slice r 1 7)) time
    rw [hv, List.map_map] at this
    exact this
  refine ⟨_, Inertia.make ⟨v 4, v 5, v 6⟩ ⟨v 1, v 2, v 3⟩ (v 0), hl, ?_, hcol 0, hcol 1, hcol 2, hcol 3, hcol 4, hcol 5, hcol 6, rfl⟩
  unfold tableInertia
  simp only [hv]

/-- **C65.** What interpolation means for a column: the tabulated number at tabulated times, the first before the table, the last after
it, and on the straight line in between. -/
theorem columnAt_spec [IsStrictOrderedRing K] (rows : List (List K)) (j : Nat) (hn : rows ≠ [])
    (hs : (rows.map (fun r => r.getD 0 0)).Pairwise (· < ·)) :
    (∀ i (h : i < rows.length), ColumnAt rows (rows[i].getD 0 0) j (rows[i].getD j 0)) ∧
    (∀ time, time ≤ (rows.head hn).getD 0 0 → ColumnAt rows time j ((rows.head hn).getD j 0)) ∧
    (∀ time, (rows.getLast hn).getD 0 0 ≤ time → ColumnAt rows time j ((rows.getLast hn).getD j 0)) ∧
    (∀ i (h : i + 1 < rows.length) (s : K), 0 ≤ s → s ≤ 1 →
      ColumnAt rows ((1 - s) * rows[i].getD 0 0 + s * rows[i + 1].getD 0 0) j ((1 - s) * rows[i].getD j 0 + s * rows[i + 1].getD j 0)) := by
  have hX : rows.map (fun r => r.getD 0 0) ≠ [] := by simpa using hn
  obtain ⟨a, b, c⟩ := linInterp_spec (rows.map (fun r => r.getD 0 0)) (rows.map (fun r => r.getD j 0)) hs hX (by simp)
  refine ⟨?_, ?_, ?_, ?_⟩
  · intro i h
    have := a i (by simpa using h)
    simpa [ColumnAt] using this
  · intro time ht
    obtain ⟨h', e⟩ := b time (by simpa [List.head_map] using ht)
    rw [List.head_map] at e
    exact e
  · intro time ht
    obtain ⟨h', e⟩ := c time (by simpa [List.getLast_map] using ht)
    rw [List.getLast_map] at e
    exact e
  · intro i h s h0 h1
    have hd : rows[i].getD 0 0 < rows[i + 1].getD 0 0 := by
      have := List.pairwise_iff_getElem.1 hs i (i + 1) (by simp; omega) (by simpa using h) (by omega)
      simpa using this
    set p := rows[i].getD 0 0 with hp
    set q := rows[i + 1].getD 0 0 with hq
    have hpq : 0 < q - p := by linarith
    have := linInterp_between (rows.map (fun r => r.getD 0 0)) (rows.map (fun r => r.getD j 0)) ((1 - s) * p + s * q) i hs (by simp)
      (by simpa using h) (by simp only [List.getElem_map, ← hp]; nlinarith) (by simp only [List.getElem_map, ← hq]; nlinarith)
    unfold ColumnAt
    rw [this]
    simp only [List.getElem_map, ← hp, ← hq]
    congr 1
    have e : ((1 - s) * p + s * q - p) / (q - p) = s := by field_simp; ring
    rw [e, AffineMap.lineMap_apply]
    simp
    ring

example : ∃ t, loadInertia [[0, 10, 0, 0, -2, 1, 1, 3], [4, 6, 0, 0, -1, 1, 1, (1 : ℚ)]] = .ok t ∧
    tableInertia t 1 = .ok (Inertia.make ⟨1, 1, 5 / 2⟩ ⟨0, 0, -7 / 4⟩ 9) := ⟨_, rfl, by decide +kernel⟩

end

end Mapleaf.Rocket
