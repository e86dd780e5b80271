import Verif.Motion.ForceModel

/-!
# Model of composite objects (MAPLEAF/Rocket/CompositeObject.py) and of the force on the rocket built from them

A rocket is a composite of stages, a stage a composite of parts; the model allows any nesting. What a part does is an arbitrary
function of an abstract argument `A` (time, state and environment). Parts are taken not to raise. Caching of the last result is
the subject of `Verif.Motion.CacheModel`.
-/

namespace Mapleaf.Rocket
open Mapleaf.Motion

/-- CompositeObject.py:26-28 -/
structure Overrides (K : Type) where
  cg : Option (V3 K)
  moi : Option (V3 K)
  mass : Option K

/-- No override, the default -/
def Overrides.none {K : Type} : Overrides K := ⟨Option.none, Option.none, Option.none⟩

/-- CompositeObject.py:12-51: a component is a fixed-mass part (a subclass of `FixedMass`; RocketComponents.py:168-172), another
part (motor, force, table), or itself a composite -/
inductive Comp (A K : Type) where
  | fixed (inertia : Inertia K) (force : A → V3 K → FMS K)
  | part (inertia : A → Inertia K) (force : A → V3 K → FMS K)
  | node (o : Overrides K) (cs : List (Comp A K))

section
variable {A K : Type} [Field K] [LinearOrder K]

/-- CompositeObject.py:47-51, 56-57: the inertias of the fixed-mass components, in order -/
def fixedInertias : List (Comp A K) → List (Inertia K)
  | [] => []
  | .fixed i _ :: cs => i :: fixedInertias cs
  | .part _ _ :: cs => fixedInertias cs
  | .node _ _ :: cs => fixedInertias cs

/-- CompositeObject.py:53-63 `_initializeFixedMassInertia` -/
def fixedMassInertia (cs : List (Comp A K)) : Except PyErr (Inertia K) :=
  match fixedInertias cs with
  | [] => .ok (Inertia.make ⟨0, 0, 0⟩ ⟨0, 0, 0⟩ 0)
  | i :: l => i.combine (i :: l)

/-- CompositeObject.py:112-119 -/
def applyOverrides (o : Overrides K) (i : Inertia K) : Inertia K :=
  let i := match o.cg with
    | some c => { i with cg := c, about := c }
    | none => i
  let i := match o.moi with
    | some m => { i with moi := m }
    | none => i
  match o.mass with
  | some m => { i with mass := m }
  | none => i

mutual
/-- CompositeObject.py:81-99 `getAppliedForce` (of a part: its own) -/
def Comp.force (a : A) (cg : V3 K) : Comp A K → FMS K
  | .fixed _ f => f a cg
  | .part _ f => f a cg
  | .node _ cs => Comp.forceAll a cg cs (FMS.make ⟨0, 0, 0⟩ (some cg) none)
/-- CompositeObject.py:89-97: the loop -/
def Comp.forceAll (a : A) (cg : V3 K) : List (Comp A K) → FMS K → FMS K
  | [], acc => acc
  | c :: cs, acc => Comp.forceAll a cg cs (acc.add (c.force a cg))
end

mutual
/-- CompositeObject.py:101-121 `getInertia` (of a part: its own) -/
def Comp.inertia (a : A) : Comp A K → Except PyErr (Inertia K)
  | .fixed i _ => .ok i
  | .part f _ => .ok (f a)
  | .node o cs =>
    match fixedMassInertia cs with
    | .error e => .error e
    | .ok fixedI =>
      match Comp.variableInertias a cs with
      | .error e => .error e
      | .ok l =>
        match fixedI.combine (fixedI :: l) with
        | .error e => .error e
        | .ok r => .ok (applyOverrides o r)
/-- CompositeObject.py:107-108: the inertias of the variable-mass components -/
def Comp.variableInertias (a : A) : List (Comp A K) → Except PyErr (List (Inertia K))
  | [] => .ok []
  | .fixed _ _ :: cs => Comp.variableInertias a cs
  | .part f _ :: cs =>
    match Comp.variableInertias a cs with
    | .error e => .error e
    | .ok l => .ok (f a :: l)
  | .node o cs' :: cs =>
    match (Comp.node o cs').inertia a with
    | .error e => .error e
    | .ok i =>
      match Comp.variableInertias a cs with
      | .error e => .error e
      | .ok l => .ok (i :: l)
end

/-- CompositeObject.py:123-139 `getMass`. No component's `getMass` returns an object with a `mass`, so the `except` branch is
always taken. -/
def Comp.getMass (a : A) : Comp A K → Except PyErr K
  | .fixed i _ => .ok i.mass
  | .part f _ => .ok (f a).mass
  | .node o cs =>
    match o.mass with
    | some m => .ok m
    | none =>
      match fixedMassInertia cs with
      | .error e => .error e
      | .ok fixedI =>
        match Comp.variableInertias a cs with
        | .error e => .error e
        | .ok l => .ok (l.foldl (fun m i => m + i.mass) fixedI.mass)

/-- rocket.py:560-593: the force handed to the rigid body before the launch rail acts: all components, or only the recovery
system under a parachute, moved to the CG, plus gravity -/
def rocketForce (underChute : Bool) (rocket recovery : Comp A K) (gravity : Inertia K → FMS K) (a : A) :
    Except PyErr (FMS K) :=
  match rocket.inertia a with
  | .error e => .error e
  | .ok i =>
    let components := if underChute then recovery.force a ⟨0, 0, -1⟩ else rocket.force a i.cg
    .ok ((components.getAt i.cg).add (gravity i))

end
end Mapleaf.Rocket
