import Verif.Base.Str
import Verif.Base.Dict

/-!
# Model: file paths in simulation definitions (MAPLEAF/IO/simDefinition.py:415-442, 915-959, MAPLEAF/Main.py:73-100)

Paths are POSIX paths. The file system is given by what exists and what is a file, asked by path text; relative paths are those
of the current directory. Messages on the console are left out.
-/

namespace Mapleaf.Path
open Mapleaf Mapleaf.Str

/-- `pathlib.PurePosixPath`: absolute or not, and the components without empty ones and `.` (two leading slashes, which POSIX
keeps apart, are not) -/
structure PPath where
  rooted : Bool
  parts : List Str
  deriving DecidableEq

/-- `Path(s)` -/
def PPath.ofStr (s : Str) : PPath := ⟨s.head? == some '/', (splitC '/' s).filter fun c => c ≠ [] ∧ c ≠ ['.']⟩

/-- `str(p)` -/
def PPath.str (p : PPath) : Str :=
  if p.rooted then '/' :: join ['/'] p.parts
  else if p.parts = [] then ['.']
  else join ['/'] p.parts

/-- `a / b` -/
def PPath.under (a b : PPath) : PPath := if b.rooted then b else ⟨a.rooted, a.parts ++ b.parts⟩

/-- `p.parent` -/
def PPath.parent (p : PPath) : PPath := ⟨p.rooted, p.parts.dropLast⟩

/-- the file system, asked by text -/
structure FS where
  there : Str → Bool
  isFile : Str → Bool

/-- simDefinition.py:926-959 `getAbsoluteFilePath`. `install` is the directory of the installation; `alt` is `none` for the
default `""`. -/
def getAbsoluteFilePath (fs : FS) (install : PPath) (relativePath : Str) (alt : Option PPath) : Str :=
  let rel := PPath.ofStr relativePath
  let inInstall := install.under rel
  if fs.there inInstall.str then inInstall.str
  else
    match alt with
    | none => rel.str
    | some alt =>
      let other := if fs.isFile alt.str then alt.parent.under rel else alt.under rel
      if fs.there other.str then other.str else rel.str

/-- simDefinition.py:915-921 `isFileName` -/
def isFileName (value : Str) : Bool :=
  [".csv".toList, ".pdf".toList, ".mapleaf".toList, ".txt".toList, ".py".toList, ".eng".toList].any fun e => isIn e value

/-- simDefinition.py:923-924 `pathIsRelativeToRepository` -/
def pathIsRelativeToRepository (p : Str) : Bool := decide (8 < p.length) && decide (p.take 8 = "MAPLEAF/".toList)

/-- `os.path.join(a, b)` -/
def osJoin (a b : Str) : Str :=
  if b.head? = some '/' then b
  else if a = [] ∨ a.getLast? = some '/' then a ++ b
  else a ++ '/' :: b

/-- simDefinition.py:429-431 -/
def noDot (val : Str) : Str := if val.take 2 = "./".toList then val.drop 2 else val

/-- simDefinition.py:427-442: the new value of one key. `dir` is the directory of the definition file, if there is one. -/
def replaceValue (fs : FS) (install : PPath) (dir : Option Str) (old : Str) : Str :=
  let val := noDot old
  let v1 := if pathIsRelativeToRepository val then getAbsoluteFilePath fs install val none else old
  if isFileName val then
    match dir with
    | none => v1
    | some d => if fs.there (osJoin d val) then osJoin d val else v1
  else v1

/-- simDefinition.py:415-442 `_replaceRelativeFilePathsWithAbsolutePaths` -/
def replacePaths (fs : FS) (install : PPath) (dir : Option Str) (D : Dict Str Str) : Dict Str Str :=
  D.map fun p => (p.1, replaceValue fs install dir p.2)

/-- Main.py:91-97: the search for one name -/
def searchName (fs : FS) (install : PPath) (path : Str) : List PPath → Option Str
  | [] => none
  | l :: ls =>
    let a := getAbsoluteFilePath fs install path (some l)
    if fs.isFile a then some a else searchName fs install path ls

/-- Main.py:73-100 `findSimDefinitionFile`; `none` when the program ends with a message -/
def findSimDefinitionFile (fs : FS) (install : PPath) (provided : Str) : Option Str :=
  if fs.isFile provided then some provided
  else
    let locations := [install.under (PPath.ofStr "MAPLEAF/Examples/Simulations/".toList),
      install.under (PPath.ofStr "MAPLEAF/Examples/BatchSims/".toList)]
    let names := if provided.length < 8 ∨ provided.drop (provided.length - 8) ≠ ".mapleaf".toList then
      [provided, provided ++ ".mapleaf".toList] else [provided]
    names.findSome? fun n => searchName fs install n locations

end Mapleaf.Path
