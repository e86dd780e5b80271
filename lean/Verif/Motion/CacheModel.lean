import Verif.Motion.StateModel

/-!
# Model of last-result caching (MAPLEAF/Utilities.py) and of the aerodynamic queries built on it
(MAPLEAF/Motion/AeroParameters.py)

A memoised function owns one cell, shared by all callers in the process. The cached result is the object itself, so a caller
that writes to it changes what later callers get; the model keeps the current contents of the cached vector in the cell.
-/

namespace Mapleaf.Motion

/-! ## Utilities.py:3-23 `cacheLastResult` -/

section memo
variable {A R : Type}

/-- Utilities.py:12-21 `memoized_func`: the answer and the cell afterwards. `eqv` is `==` on argument tuples, the cached
tuple on the left. The cell starts as `none`: the initial `[]` equals no tuple. -/
def memoCall (eqv : A → A → Bool) (f : A → Except PyErr R) (cell : Option (A × R)) (a : A) :
    Except PyErr R × Option (A × R) :=
  let compute := match f a with
    | .error e => (.error e, cell)
    | .ok r => (.ok r, some (a, r))
  match cell with
  | some (a', r) => if eqv a' a then (.ok r, cell) else compute
  | none => compute

/-- a history of calls: all answers -/
def memoRun (eqv : A → A → Bool) (f : A → Except PyErr R) : Option (A × R) → List A → List (Except PyErr R)
  | _, [] => []
  | cell, a :: as => (memoCall eqv f cell a).1 :: memoRun eqv f (memoCall eqv f cell a).2 as

/-- A history in a world of objects that change between calls: `call a`, or a change of the objects that the arguments
refer to. -/
inductive WorldOp (W A : Type) where
  | call (a : A)
  | change (g : W → W)

/-- answers of a memoised function that reads the objects, over a history -/
def worldRun {W : Type} (eqv : A → A → Bool) (f : W → A → Except PyErr R) :
    W → Option (A × R) → List (WorldOp W A) → List (Except PyErr R)
  | _, _, [] => []
  | w, cell, .call a :: ops => (memoCall eqv (f w) cell a).1 :: worldRun eqv f w (memoCall eqv (f w) cell a).2 ops
  | w, cell, .change g :: ops => worldRun eqv f (g w) cell ops

/-- the answers of the function without the cache, over the same history -/
def worldPlain {W : Type} (f : W → A → Except PyErr R) : W → List (WorldOp W A) → List (Except PyErr R)
  | _, [] => []
  | w, .call a :: ops => f w a :: worldPlain f w ops
  | w, .change g :: ops => worldPlain f (g w) ops

end memo

/-! ## AeroParameters.py -/

/-- environment.py:19-31 `EnvironmentalConditions` -/
structure EnvCond where
  altitude : ℝ
  temp : ℝ
  pressure : ℝ
  density : ℝ
  viscosity : ℝ
  wind : V3 ℝ
  meanWind : V3 ℝ
  turbWind : V3 ℝ

/-- the caches of the module, one cell per memoised function. The keys are the argument tuples; the functions of the
standard interface take an optional third argument. -/
structure Caches where
  lfav : Option ((RBState × EnvCond) × V3 ℝ)
  normal : Option ((RBState × EnvCond) × V3 ℝ)
  dynP : Option ((RBState × EnvCond) × ℝ)
  mach : Option ((RBState × EnvCond × Option ℝ) × ℝ)
  reynolds : Option ((RBState × EnvCond × ℝ) × ℝ)
  totalAOA : Option ((RBState × EnvCond × Option ℝ) × ℝ)
  roll : Option ((RBState × EnvCond × Option ℝ) × ℝ)

namespace Aero

/-- all cells empty, as after import -/
def empty : Caches := ⟨none, none, none, none, none, none, none⟩

open Classical in
/-- Utilities.py:14-15 -/
noncomputable def lookup {K R : Type} (cell : Option (K × R)) (k : K) : Option R :=
  match cell with
  | some (k', r) => if k' = k then some r else none
  | none => none

/-- Utilities.py:12-21 around a function that itself queries the caches: `inner` obtains what it needs, `f` computes -/
noncomputable def memoVia {K R T : Type} (get : Caches → Option (K × R)) (set : Caches → Option (K × R) → Caches) (k : K)
    (inner : Caches → Except PyErr T × Caches) (f : T → Except PyErr R) (c : Caches) : Except PyErr R × Caches :=
  match lookup (get c) k with
  | some r => (.ok r, c)
  | none =>
    match inner c with
    | (.error e, c') => (.error e, c')
    | (.ok t, c') =>
      match f t with
      | .error e => (.error e, c')
      | .ok r => (.ok r, set c' (some (k, r)))

/-- AeroParameters.py:129: the computation in `getLocalFrameAirVel` -/
noncomputable def airVel (s : RBState) (e : EnvCond) : Except PyErr (V3 ℝ) :=
  (s.ori.conj.rotate (s.vel - e.wind)).map fun p => (-1 : ℝ) • p.1

/-- AeroParameters.py:126-129 `getLocalFrameAirVel` -/
noncomputable def getLocalFrameAirVel (s : RBState) (e : EnvCond) (c : Caches) : Except PyErr (V3 ℝ) × Caches :=
  memoVia Caches.lfav (fun c x => { c with lfav := x }) (s, e) (fun c => (.ok (), c)) (fun _ => airVel s e) c

open Classical in
/-- AeroParameters.py:14-19 `getMachNumber`; a negative temperature is a math domain error -/
noncomputable def machOf (s : RBState) (e : EnvCond) : Except PyErr ℝ :=
  if 1.4 * 287 * e.temp < 0 then .error .valueError
  else if Real.sqrt (1.4 * 287 * e.temp) = 0 then .error .zeroDivision
  else .ok ((s.vel - e.wind).length / Real.sqrt (1.4 * 287 * e.temp))

noncomputable def getMachNumber (s : RBState) (e : EnvCond) (x : Option ℝ) (c : Caches) : Except PyErr ℝ × Caches :=
  memoVia Caches.mach (fun c x => { c with mach := x }) (s, e, x) (fun c => (.ok (), c)) (fun _ => machOf s e) c

open Classical in
/-- AeroParameters.py:23-24 -/
noncomputable def reynoldsOf (e : EnvCond) (len : ℝ) (v : V3 ℝ) : Except PyErr ℝ :=
  if e.viscosity = 0 then .error .zeroDivision else .ok (v.length * e.density / e.viscosity * len)

/-- AeroParameters.py:21-24 `getReynoldsNumber` -/
noncomputable def getReynoldsNumber (s : RBState) (e : EnvCond) (len : ℝ) (c : Caches) : Except PyErr ℝ × Caches :=
  memoVia Caches.reynolds (fun c x => { c with reynolds := x }) (s, e, len) (getLocalFrameAirVel s e) (reynoldsOf e len) c

open Classical in
/-- AeroParameters.py:31-36 -/
noncomputable def totalAOAOf (v : V3 ℝ) : Except PyErr ℝ :=
  if v.length = 0 then .ok 0 else v.angle ⟨0, 0, -1⟩

/-- AeroParameters.py:26-36 `getTotalAOA` -/
noncomputable def getTotalAOA (s : RBState) (e : EnvCond) (x : Option ℝ) (c : Caches) : Except PyErr ℝ × Caches :=
  memoVia Caches.totalAOA (fun c x => { c with totalAOA := x }) (s, e, x) (getLocalFrameAirVel s e) totalAOAOf c

/-- write to the vector object that sits in the cache -/
def writeCached (w : V3 ℝ) (c : Caches) : Caches := { c with lfav := c.lfav.map fun p => (p.1, w) }

open Classical in
/-- AeroParameters.py:52-55, after the Y component has been zeroed -/
noncomputable def aoaOf (w : V3 ℝ) : Except PyErr ℝ :=
  if w.x > 0 then w.angle ⟨0, 0, -1⟩ else (w.angle ⟨0, 0, -1⟩).map fun a => -a

open Classical in
/-- AeroParameters.py:38-55 `getAOA`. Line 49 writes to the cached vector. -/
noncomputable def getAOA (s : RBState) (e : EnvCond) (c : Caches) : Except PyErr ℝ × Caches :=
  match getLocalFrameAirVel s e c with
  | (.error er, c') => (.error er, c')
  | (.ok v, c') =>
    if v.length = 0 then (.ok 0, c')
    else (aoaOf ⟨v.x, 0, v.z⟩, writeCached ⟨v.x, 0, v.z⟩ c')

open Classical in
/-- AeroParameters.py:71-74, after the X component has been zeroed -/
noncomputable def aossOf (w : V3 ℝ) : Except PyErr ℝ :=
  if w.y < 0 then w.angle ⟨0, 0, -1⟩ else (w.angle ⟨0, 0, -1⟩).map fun a => -a

open Classical in
/-- AeroParameters.py:57-74 `getAOSS`. Line 68 writes to the cached vector. -/
noncomputable def getAOSS (s : RBState) (e : EnvCond) (c : Caches) : Except PyErr ℝ × Caches :=
  match getLocalFrameAirVel s e c with
  | (.error er, c') => (.error er, c')
  | (.ok v, c') =>
    if v.length = 0 then (.ok 0, c')
    else (aossOf ⟨0, v.y, v.z⟩, writeCached ⟨0, v.y, v.z⟩ c')

open Classical in
/-- AeroParameters.py:138-142 -/
noncomputable def normalOf (v : V3 ℝ) : V3 ℝ :=
  if v.x = 0 ∧ v.y = 0 then ⟨1, 0, 0⟩ else V3.normalize ⟨v.x, v.y, 0⟩

/-- AeroParameters.py:135-142 `getNormalAeroForceDirection` -/
noncomputable def getNormal (s : RBState) (e : EnvCond) (c : Caches) : Except PyErr (V3 ℝ) × Caches :=
  memoVia Caches.normal (fun c x => { c with normal := x }) (s, e) (getLocalFrameAirVel s e) (fun v => .ok (normalOf v)) c

open Classical in
/-- AeroParameters.py:86-94: `degrees(atan2(..))`, negated, Python `% 360` -/
noncomputable def rollOf (n : V3 ℝ) : ℝ :=
  let y := (-1 : ℝ) • n
  if y.length < 0.01 then 0
  else
    let a := -1 * (Quat.atan2 (-y.y) y.x * 180 / Real.pi)
    a - 360 * ⌊a / 360⌋

/-- AeroParameters.py:76-94 `getRollAngle` -/
noncomputable def getRollAngle (s : RBState) (e : EnvCond) (x : Option ℝ) (c : Caches) : Except PyErr ℝ × Caches :=
  memoVia Caches.roll (fun c x => { c with roll := x }) (s, e, x) (getNormal s e) (fun n => .ok (rollOf n)) c

/-- AeroParameters.py:144-152 `getDynamicPressure` for a 6-DoF state -/
noncomputable def getDynamicPressure (s : RBState) (e : EnvCond) (c : Caches) : Except PyErr ℝ × Caches :=
  memoVia Caches.dynP (fun c x => { c with dynP := x }) (s, e) (getLocalFrameAirVel s e)
    (fun v => .ok (v.length * v.length * e.density / 2)) c

/-- AeroParameters.py:110-121 and 126-152: everything that can be asked -/
inductive Query where
  | altitude (s : RBState) (e : EnvCond)
  | mach (s : RBState) (e : EnvCond) (x : Option ℝ)
  | reynolds (s : RBState) (e : EnvCond) (len : ℝ)
  | totalAOA (s : RBState) (e : EnvCond) (x : Option ℝ)
  | aoa (s : RBState) (e : EnvCond)
  | aoss (s : RBState) (e : EnvCond)
  | roll (s : RBState) (e : EnvCond) (x : Option ℝ)
  | airVel (s : RBState) (e : EnvCond)
  | normal (s : RBState) (e : EnvCond)
  | dynP (s : RBState) (e : EnvCond)

/-- a number or a vector -/
inductive Ans where
  | num (r : ℝ)
  | vec (v : V3 ℝ)

/-- one query: answer and caches afterwards -/
noncomputable def ask (c : Caches) : Query → Except PyErr Ans × Caches
  | .altitude _ e => (.ok (.num e.altitude), c)
  | .mach s e x => let r := getMachNumber s e x c; (r.1.map .num, r.2)
  | .reynolds s e l => let r := getReynoldsNumber s e l c; (r.1.map .num, r.2)
  | .totalAOA s e x => let r := getTotalAOA s e x c; (r.1.map .num, r.2)
  | .aoa s e => let r := getAOA s e c; (r.1.map .num, r.2)
  | .aoss s e => let r := getAOSS s e c; (r.1.map .num, r.2)
  | .roll s e x => let r := getRollAngle s e x c; (r.1.map .num, r.2)
  | .airVel s e => let r := getLocalFrameAirVel s e c; (r.1.map .vec, r.2)
  | .normal s e => let r := getNormal s e c; (r.1.map .vec, r.2)
  | .dynP s e => let r := getDynamicPressure s e c; (r.1.map .num, r.2)

/-- a history of queries -/
noncomputable def askAll : Caches → List Query → List (Except PyErr Ans)
  | _, [] => []
  | c, q :: qs => (ask c q).1 :: askAll (ask c q).2 qs

end Aero
end Mapleaf.Motion
