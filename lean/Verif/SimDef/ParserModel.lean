import Verif.SimDef.KeysModel
import Mathlib.Data.List.Sort

/-! # Model: reading and writing `.mapleaf` files (MAPLEAF/IO/simDefinition.py) -/

namespace Mapleaf.SimDef
open Str

abbrev Line := Str
abbrev SDict := Dict Str Str

/-! ## Text preparation -/

/-- simDefinition.py:453-454: `re.sub("(?<!\\)#.*", "", text)`. `inComment`: inside a matched comment;
`prev`: the preceding character of the original text (the look-behind). `.` stops at a newline. -/
def stripComments : (inComment : Bool) → (prev : Char) → Str → Str
  | _, _, [] => []
  | true, _, c :: cs => if c = '\n' then c :: stripComments false c cs else stripComments true c cs
  | false, p, c :: cs =>
    if c = '#' ∧ p ≠ '\\' then stripComments true c cs else c :: stripComments false c cs

/-- simDefinition.py:457: `re.sub(r"\\(?=#)", "", text)` -/
def unescape : Str → Str
  | [] => []
  | c :: cs => if c = '\\' ∧ cs.head? = some '#' then unescape cs else c :: unescape cs

/-- `line.strip() != ''` -/
def nonBlank (l : Line) : Bool := !(strip l).isEmpty

/-- simDefinition.py:452-460: comments removed, escapes resolved, blank lines dropped. (A space stands for the
missing character before the first one.) -/
def prepLines (text : Str) : List Line :=
  (splitC '\n' (unescape (stripComments false ' ' text))).filter nonBlank

/-! ## `shlex.split` (Python standard library, POSIX mode) -/

/-- White space of `shlex`. -/
def shlexWs (c : Char) : Bool := c = ' ' || c = '\t' || c = '\r' || c = '\n'

/-- State machine of `shlex.split(s)`: `acc` current token (reversed), `inTok` whether a token is open,
`q` open quote. An unterminated quote or a trailing backslash raises `ValueError`. -/
def shlexAux : Str → (acc : Str) → (inTok : Bool) → (q : Option Char) → Except PyErr (List Str)
  | [], acc, inTok, none => .ok (if inTok then [acc.reverse] else [])
  | [], _, _, some _ => .error .valueError
  | c :: cs, acc, inTok, none =>
    if shlexWs c then
      (if inTok then (shlexAux cs [] false none).map (acc.reverse :: ·) else shlexAux cs [] false none)
    else if c = '\'' ∨ c = '"' then shlexAux cs acc true (some c)
    else if c = '\\' then
      match cs with
      | [] => .error .valueError
      | d :: ds => shlexAux ds (d :: acc) true none
    else shlexAux cs (c :: acc) true none
  | c :: cs, acc, _, some q =>
    if c = q then shlexAux cs acc true none
    else if c = '\\' ∧ q = '"' then
      match cs with
      | [] => .error .valueError
      | d :: ds => shlexAux ds (if d = '\\' ∨ d = '"' then d :: acc else d :: '\\' :: acc) true (some q)
    else shlexAux cs (c :: acc) true (some q)

def shlexSplit (s : Str) : Except PyErr (List Str) := shlexAux s [] false none

/-! ## Derived dictionaries -/

/-- `currDictName + "." + name`, or `name` at root level (simDefinition.py:264-267, 276-279, 289-292, 324-327) -/
def qualify (curr name : Str) : Str := if curr = [] then name else curr ++ '.' :: name

/-- simDefinition.py:366-368 `removeQuotes` -/
def removeQuotes (s : Str) : Str := replace (replace s ['\''] []) ['"'] []

/-- simDefinition.py:375-382: one `!replace` command applied to the derived dictionary -/
def replaceInDict (d : SDict) (old new : Str) : SDict :=
  d.foldl (fun acc p => Dict.set acc (replace p.1 old new) (replace p.2 old new)) []

/-- simDefinition.py:385-394: one `!removeKeysContaining` command -/
def removeKeysContaining (d : SDict) (s : Str) : SDict :=
  ((Dict.keys d).filter (fun k => isIn s k)).foldl Dict.erase d

/-- simDefinition.py:361-402: the loop over the command lines of a derived dictionary. Returns the edited
dictionary and the lines left for the regular parser. -/
def applyDerivedCommands : SDict → List Line → Except PyErr (SDict × List Line)
  | d, [] => .ok (d, [])
  | d, l :: ls =>
    match shlexSplit l with
    | .error e => .error e
    | .ok [] => .error .indexError
    | .ok (c0 :: args) =>
      if c0 = "!replace".toList then
        match args with
        | [] => .error .indexError
        | a1 :: _ => applyDerivedCommands (replaceInDict d (removeQuotes a1)
                      (removeQuotes ((c0 :: args).getLast (by simp)))) ls
      else if c0 = "!removeKeysContaining".toList then
        match args with
        | [] => .error .indexError
        | a1 :: _ => applyDerivedCommands (removeKeysContaining d a1) ls
      else if l.head? ≠ some '!' then .ok (d, l :: ls)
      else .error .valueError

/-- simDefinition.py:330: the parent dictionary path, with a trailing `{` removed; `IndexError` on an empty token -/
def derivedSource (tok : Str) : Except PyErr Str :=
  match tok.getLast? with
  | none => .error .indexError
  | some c => .ok (if c = '{' then tok.dropLast else tok)

/-- simDefinition.py:355-357: relocate the parent's keys by textual replacement -/
def relocate (src : SDict) (keysInParent : List Str) (dictPath derivedName : Str) : SDict :=
  keysInParent.foldl (fun acc k =>
    match Dict.get? src k with
    | some v => Dict.set acc (replace k dictPath derivedName) v
    | none => acc) []      -- unreachable: keys come from `src`

/-- simDefinition.py:405-410: add the derived keys to the main dictionary, refusing to overwrite -/
def addDerived (D : SDict) : SDict → Except PyErr SDict
  | [] => .ok D
  | (k, v) :: rest => if Dict.has D k then .error .valueError else addDerived (Dict.set D k v) rest

/-- simDefinition.py:307-410: everything `_parseDerivedDictionary` does before it hands the remaining lines to the
regular parser. Returns the extended dictionary, the remaining lines and the derived dictionary's name. -/
def derivedHead (load : Str → Except PyErr SDict) (D : SDict) (initLine : Line) (ls : List Line) (curr : Str) :
    Except PyErr (SDict × List Line × Str) :=
  match shlexSplit initLine with
  | .error e => .error e
  | .ok defn =>
    match defn with
    | c0 :: n1 :: more =>
      let derivedName := qualify curr n1
      match derivedSource ((c0 :: n1 :: more).getLast (by simp)) with
      | .error e => .error e
      | .ok path =>
        let source : Except PyErr (SDict × Str × List Str) :=
          if ':' ∈ path then
            match splitC ':' path with
            | f :: p :: _ =>
              match load f with
              | .error e => .error e
              | .ok sub => .ok (sub, p, getSubKeys sub p)
            | _ => .error .indexError       -- unreachable: `:` occurs
          else .ok (D, path, getSubKeys D path)
        match source with
        | .error e => .error e
        | .ok (src, p, ks) =>
          if ks.length = 0 then .error .valueError
          else
            match applyDerivedCommands (relocate src ks p derivedName) ls with
            | .error e => .error e
            | .ok (derived, rest) =>
              match addDerived D derived with
              | .error e => .error e
              | .ok D' => .ok (D', rest, derivedName)
    | _ => .error .indexError

/-! ## The recursive parser -/

/-- simDefinition.py:259: the path of an `!include` line; `line.index(" ")` raises `ValueError` without a space -/
def includePath (line : Str) : Except PyErr Str :=
  if ' ' ∈ line then .ok (strip (line.dropWhile (fun c => c ≠ ' '))) else .error .valueError

/-- simDefinition.py:263-269: copy an included definition into the current dictionary (existing keys are
overwritten without a check) -/
def includeInto (D sub : SDict) (curr : Str) : SDict :=
  sub.foldl (fun acc p => Dict.set acc (qualify curr p.1) p.2) D

/-- simDefinition.py:237-305 `_parseDictionaryContents`. `load path` stands for `_loadSubSimDefinition(path).dict`.
`lines` are the lines from index `i` on. The result carries the lines after the closing `}` (`some rest`), or
`none` when the end of the text is reached (the Python function then returns `None`). -/
def parseContents (load : Str → Except PyErr SDict) :
    (fuel : Nat) → (lines : List Line) → SDict → (curr : Str) → (allow : Bool) →
    Except PyErr (SDict × Option (List Line))
  | 0, _, _, _, _ => .error .outOfFuel
  | _ + 1, [], D, _, _ => .ok (D, none)
  | fuel + 1, l :: ls, D, curr, allow =>
    let line := strip l
    let splitLine := wsSplit line
    match splitLine with
    | [] => .error .indexError
    | tok :: toks =>
      if tok = "!create".toList then
        match derivedHead load D l ls curr with
        | .error e => .error e
        | .ok (D', rest, name) =>
          match parseContents load fuel rest D' name true with
          | .error e => .error e
          | .ok (_, none) => .error .typeError          -- `i = None; i += 1`
          | .ok (D'', some rest') => parseContents load fuel rest' D'' curr allow
      else if tok = "!include".toList then
        match includePath line with
        | .error e => .error e
        | .ok path =>
          match load path with
          | .error e => .error e
          | .ok sub => parseContents load fuel ls (includeInto D sub curr) curr allow
      else if line.getLast? = some '{' then
        match parseContents load fuel ls D (qualify curr line.dropLast) allow with
        | .error e => .error e
        | .ok (_, none) => .error .typeError            -- `i = None; i += 1`
        | .ok (D', some rest) => parseContents load fuel rest D' curr allow
      else if line = ['}'] then .ok (D, some ls)
      else if toks ≠ [] then
        let keyString := qualify curr tok
        if !Dict.has D keyString || allow then
          parseContents load fuel ls (Dict.set D keyString (join [' '] toks)) curr allow
        else .error .duplicateKey
      else .error .valueError

/-- simDefinition.py:462-468: parse from the root dictionary (the result of a stray `}` at root level, an
index, is ignored: the remaining lines are skipped). Path replacement (lines 465-466) is not modelled here. -/
def parseLines (load : Str → Except PyErr SDict) (lines : List Line) : Except PyErr SDict :=
  (parseContents load (lines.length + 1) lines [] [] false).map Prod.fst

def parseText (load : Str → Except PyErr SDict) (text : Str) : Except PyErr SDict :=
  parseLines load (prepLines text)

/-! ## Include graph -/

/-- simDefinition.py:183-190, 218-235: loading a file and everything it refers to. `fs` is the file system,
`resolve cur path` stands for `getAbsoluteFilePath(path, parent of cur)`, `post` for the steps after parsing
(path replacement, resampling). `stack` is `simDefParseStack`. -/
def loadFile (fs : Dict Str Str) (resolve : Str → Str → Str) (post : Str → SDict → Except PyErr SDict) :
    (fuel : Nat) → (stack : List Str) → (file : Str) → Except PyErr SDict
  | 0, _, _ => .error .outOfFuel
  | fuel + 1, stack, file =>
    match Dict.get? fs file with
    | none => .error .fileNotFound
    | some text =>
      match parseText (fun path =>
          let filePath := resolve file path
          if filePath ∈ stack then .error .circular
          else loadFile fs resolve post fuel (filePath :: stack) filePath) text with
      | .error e => .error e
      | .ok D => post file D

/-! ## Writing -/

def tabs (n : Nat) : Str := List.replicate n '\t'

/-- simDefinition.py:610-619: the loop closing dictionaries; returns the emitted lines and the remaining depth. -/
def closeLoop (curr dicts : List Str) : Nat → List Line × Nat
  | 0 => ([], 0)
  | d + 1 =>
    if d + 1 > dicts.length ∨ curr[d]? ≠ dicts[d]? then
      let r := closeLoop curr dicts d
      ((tabs d ++ ['}']) :: r.1, r.2)
    else ([], d + 1)

/-- simDefinition.py:624-628: open the dictionaries from depth `d` on (each preceded by an empty line). -/
def openLoop : (d : Nat) → List Str → List Line
  | _, [] => []
  | d, n :: ns => [] :: (tabs d ++ n ++ ['{']) :: openLoop (d + 1) ns

/-- simDefinition.py:604-634: lines needed to get from the open dictionaries `curr` into `dicts`. -/
def switchDict (curr dicts : List Str) : List Line :=
  if dicts = curr then []
  else
    let (closing, d) := closeLoop curr dicts curr.length
    let opening := openLoop d (dicts.drop d)
    closing ++ (if opening = [] then [[]] else opening)

/-- simDefinition.py:604: `key.split('.')[:-1]` -/
def keyDicts (key : Str) : List Str := (splitC '.' key).dropLast

/-- simDefinition.py:638: `re.sub("^([^\.]*\.)+", "", key)`: everything up to the last dot removed -/
def realKey (key : Str) : Str := (splitC '.' key).getLast (splitC_ne_nil '.' key)

/-- simDefinition.py:602-639: the loop over the sorted items, with the currently open dictionaries. -/
def writeItems : (curr : List Str) → List (Str × Str) → List Line
  | curr, [] =>
    -- simDefinition.py:641-645: close what is still open
    (List.range curr.length).reverse.map (fun d => tabs d ++ ['}'])
  | curr, (key, val) :: rest =>
    switchDict curr (keyDicts key) ++
      (tabs (keyDicts key).length ++ realKey key ++ ['\t'] ++ val) :: writeItems (keyDicts key) rest

/-- Code-point order on strings (Python `<=`). -/
def strLe : Str → Str → Bool
  | [], _ => true
  | _ :: _, [] => false
  | a :: as, b :: bs => if a.toNat < b.toNat then true else if b.toNat < a.toNat then false else strLe as bs

/-- simDefinition.py:600 `sorted(self.dict.items())` (keys are distinct, so values never matter) -/
def sortedItems (D : SDict) : List (Str × Str) := D.insertionSort (fun a b => strLe a.1 b.1 = true)

/-- Join lines into a text, each terminated by a newline. -/
def unlines (ls : List Line) : Str := ls.flatMap (fun l => l ++ ['\n'])

/-- simDefinition.py:582-645 `writeToFile`: the text written (`date` stands for `datetime.now()`). -/
def writeText (D : SDict) (fileName date : Str) (writeHeader : Bool) : Str :=
  unlines ((if writeHeader then
      ["# MAPLEAF".toList, "# File: ".toList ++ fileName, "# Autowritten on: ".toList ++ date] else []) ++
    writeItems [] (sortedItems D))

end Mapleaf.SimDef
