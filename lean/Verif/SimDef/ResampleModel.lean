import Verif.Base.Dict
import Verif.Base.Str

/-! # Model: Monte Carlo sampling of probabilistic values, MAPLEAF/IO/simDefinition.py:471-532

Number parsing and printing (`float(…)`, `str(…)`, `Vector(…)`, `str(Vector)`) are parameters, the random generator is
a stream `z` of standard normal numbers read at a counter: `rng.gauss(mu, sigma)` is CPython's `mu + z * sigma`.
The log line (527-532) is not modelled. -/

namespace Mapleaf.SimDef
open Str

/-- Text conversions used by the sampling code. `none` is a raised `ValueError`. -/
structure NumText (K : Type) where
  parse : Str → Option K
  print : K → Str
  parseVec : Str → Option (K × K × K)
  printVec : K × K × K → Str

def sdSuffix : Str := "_stdDev".toList
def meanSuffix : Str := "_mean".toList

variable {K : Type} [Add K] [Mul K]

/-- simDefinition.py:505 `self.rng.gauss(mu, sigma)` -/
def gauss (z : Nat → K) (n : Nat) (mu sigma : K) : K := mu + z n * sigma

/-- simDefinition.py:491-498: the mean text, and the dictionary after recording it -/
def meanStep (D : Dict Str Str) (key : Str) : Option (Str × Dict Str Str) :=
  match Dict.get? D (key ++ meanSuffix) with
  | some m => some (m, D)
  | none => match Dict.get? D key with
    | some m => some (m, Dict.set D (key ++ meanSuffix) m)
    | none => none

/-- simDefinition.py:512-525: sampling a vector -/
def vecStep (T : NumText K) (z : Nat → K) (key meanString sdString : Str) (D1 : Dict Str Str) (n : Nat) :
    Except PyErr (Dict Str Str × Nat) :=
  match T.parseVec meanString, T.parseVec sdString with
  | some (a, b, c), some (p, q, r) =>
    .ok (Dict.set D1 key (T.printVec (gauss z n a p, gauss z (n + 1) b q, gauss z (n + 2) c r)), n + 3)
  | _, _ => .error .valueError

/-- simDefinition.py:485-525: body of the loop for one key -/
def resampleKey (T : NumText K) (z : Nat → K) (key : Str) (D : Dict Str Str) (n : Nat) :
    Except PyErr (Dict Str Str × Nat) :=
  if Dict.has D (key ++ sdSuffix) then
    match meanStep D key with
    | none => .error .keyError
    | some (meanString, D1) =>
      match Dict.get? D1 (key ++ sdSuffix) with
      | none => .error .keyError
      | some sdString =>
        match T.parse meanString, T.parse sdString with
        | some mu, some sigma => .ok (Dict.set D1 key (T.print (gauss z n mu sigma)), n + 1)
        | _, _ => vecStep T z key meanString sdString D1 n
  else .ok (D, n)

/-- simDefinition.py:485: the loop over a list of keys -/
def resampleKeys (T : NumText K) (z : Nat → K) : List Str → Dict Str Str → Nat → Except PyErr (Dict Str Str × Nat)
  | [], D, n => .ok (D, n)
  | k :: ks, D, n =>
    match resampleKey T z k D n with
    | .ok (D', n') => resampleKeys T z ks D' n'
    | .error e => .error e

/-- simDefinition.py:471-525 `resampleProbabilisticValues` -/
def resample (T : NumText K) (z : Nat → K) (disabled : Bool) (D : Dict Str Str) (n : Nat) :
    Except PyErr (Dict Str Str × Nat) :=
  if disabled then .ok (D, n) else resampleKeys T z (Dict.keys D) D n

/-- MAPLEAF/SimulationRunners/MonteCarlo.py:48-76 re-samples the same definition before every run -/
def resampleRounds (T : NumText K) (z : Nat → K) : Nat → Dict Str Str → Nat → Except PyErr (Dict Str Str × Nat)
  | 0, D, n => .ok (D, n)
  | m + 1, D, n =>
    match resampleRounds T z m D n with
    | .ok (D', n') => resample T z false D' n'
    | .error e => .error e

end Mapleaf.SimDef
