import Verif.Motion.VecModel

/-! # Model: `ForceMomentSystem` and `Inertia` (MAPLEAF/Motion/forceMomentSystem.py, inertia.py)

Components in a field `K`, no rounding. -/

namespace Mapleaf.Motion

/-- forceMomentSystem.py:5-23 -/
structure FMS (K : Type) where
  force : V3 K
  loc : V3 K
  moment : V3 K
  deriving DecidableEq, Repr

namespace FMS
variable {K : Type} [Field K]

/-- forceMomentSystem.py:12-23 `ForceMomentSystem(force, location, moment)` with the defaults -/
def make (force : V3 K) (loc moment : Option (V3 K)) : FMS K := ⟨force, loc.getD ⟨0, 0, 0⟩, moment.getD ⟨0, 0, 0⟩⟩

/-- forceMomentSystem.py:40-51 `getAt` -/
def getAt (f : FMS K) (p : V3 K) : FMS K :=
  let newToOld := f.loc - p
  let m := V3.cross newToOld f.force
  ⟨f.force, p, f.moment + m⟩

/-- forceMomentSystem.py:25-32 `__add__` -/
def add (a b : FMS K) : FMS K :=
  let b' := b.getAt a.loc
  ⟨a.force + b'.force, a.loc, a.moment + b'.moment⟩

/-- forceMomentSystem.py:34-35 `__neg__` -/
def neg (a : FMS K) : FMS K := ⟨-a.force, a.loc, -a.moment⟩

/-- forceMomentSystem.py:37-38 `__sub__` -/
def sub (a b : FMS K) : FMS K := a.add b.neg

end FMS

/-- inertia.py:12-20: `MOI`, `CG`, `mass`, `MOICentroidLocation` -/
structure Inertia (K : Type) where
  moi : V3 K
  cg : V3 K
  mass : K
  about : V3 K
  deriving DecidableEq, Repr

namespace Inertia
variable {K : Type} [Field K] [LinearOrder K]

/-- inertia.py:12-20 `Inertia(MOI, CG, mass)` -/
def make (moi cg : V3 K) (mass : K) : Inertia K := ⟨moi, cg, mass, cg⟩

/-- inertia.py:66-71 (and 107-112): squared distances from the three axes through `d` -/
def axisDistSq (d : V3 K) : V3 K := ⟨d.y * d.y + d.z * d.z, d.x * d.x + d.z * d.z, d.x * d.x + d.y * d.y⟩

/-- inertia.py:61-71, 104-112: adding one part's second moments about `p` -/
def addMOI (p : V3 K) (acc : V3 K) (i : Inertia K) : V3 K := acc + i.moi + i.mass • axisDistSq (p - i.about)

/-- inertia.py:55-58, 93-95: adding mass and mass-weighted CG -/
def addMass (acc : K × V3 K) (i : Inertia K) : K × V3 K := (acc.1 + i.mass, acc.2 + i.mass • i.cg)

/-- inertia.py:49-50, 84-85: the list after `self` was added unless an equal inertia is already in it -/
def withSelf (self : Inertia K) (l : List (Inertia K)) : List (Inertia K) := if self ∈ l then l else l ++ [self]

/-- inertia.py:22-30 `checkDefinedAboutCG` -/
def definedAboutCG (l : List (Inertia K)) : Bool := l.all (fun i => decide (i.about = i.cg))

/-- inertia.py:32-76 `combineInertiasAboutPoint` -/
def combineAboutPoint (self : Inertia K) (l : List (Inertia K)) (p : V3 K) : Except PyErr (Inertia K) :=
  let l := withSelf self l
  if definedAboutCG l then
    let (mass, first) := l.foldl addMass (0, 0)
    if mass = 0 then .error .zeroDivision
    else .ok ⟨l.foldl (addMOI p) 0, (1 / mass) • first, mass, p⟩
  else .error .valueError

/-- inertia.py:78-115 `combineInertias` -/
def combine (self : Inertia K) (l : List (Inertia K)) : Except PyErr (Inertia K) :=
  let l := withSelf self l
  if definedAboutCG l then
    let (mass, first) := l.foldl addMass (0, 0)
    let cg := if mass > 0 then (1 / mass) • first else ⟨0, 0, 0⟩
    .ok (make (l.foldl (addMOI cg) 0) cg mass)
  else .error .valueError

/-- inertia.py:117-118 `__add__` -/
def add (a b : Inertia K) : Except PyErr (Inertia K) := a.combine [b]

end Inertia
end Mapleaf.Motion
