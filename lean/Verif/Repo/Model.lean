import Verif.SemVer.Script
import Verif.Text.Model
import Verif.Coll.MapSet

/-!
# Tools for repositories of modules

`RepoIndexer` finds the newest version of every module, `DependencyChecker` checks that installed modules fit together.  Both are
written in the language itself, over `SemVer` (`Verif/SemVer/Script.lean`), `String` (`Verif/Text`) and `Set` (`Verif/Coll`).
-/

namespace Verif.Repo

open Verif.Str Verif.Text
open Verif.SemVer.Script (SemVer fromString)

/-! ## RepoIndexer -/

/-- A `Module` (`Library/RepoIndexer/Module.os:9-14`, `isValid` 27-29); the other members are empty texts here. -/
structure Module where
  name : Text
  version : SemVer
  deriving DecidableEq, Repr

/-- `Module.operator<` (`Module.os:39-45`). -/
def Module.lt (a b : Module) : Bool :=
  if a.name = b.name then a.version.lt b.version else decide (a.name < b.name)

/-- The loops that look for the last separator (`Library/RepoIndexer/Indexer.os:39-41` and `47-49`): the same as those of
`LastIndexOf`.  They end within the rounds given here (`Text.lastIndexOf_is_the_last`). -/
def lastOf (s : Text) (separator : Char) : Ext Int :=
  match lastIndexOf (s.length + 2) (newString s) [separator] with
  | some r => r
  | none => .exception

/-- The name and the version in the path of a file (`Indexer.os:37-51`). -/
def readPath (path : Text) : Ext (Text × Text) :=
  thenDo (lastOf path '/') fun i =>
  thenDo (subStringLen (newString path) (i + 1) (length (newString path))) fun file =>
  thenDo (subStringLen (newString file) 0 (length (newString file) - 5)) fun stem =>
  thenDo (lastOf stem '_') fun j =>
  thenDo (subStringLen (newString stem) 0 j) fun name =>
  thenDo (subString (newString stem) (j + 1)) fun version => .ok (name, version)

/-- `Set.indexOf` with `Module.operator==`, which compares the names (`Set.os:131-143`, `Module.os:35-37`). -/
def indexOfModule : List Module → Module → Option Nat
  | [], _ => none
  | x :: xs, m => if x.name = m.name then some 0 else (indexOfModule xs m).map (· + 1)

/-- One module of `buildIndex` (`Indexer.os:56-70`).  Sets are sequences in ascending order, as C68 says. -/
def addModule (index : List Module) (m : Module) : List Module :=
  match indexOfModule index m with
  | some i =>
    match index[i]? with
    | some other => if other.lt m then Coll.ascInsert Module.lt m (index.eraseIdx i) else index
    | none => index
  | none => Coll.ascInsert Module.lt m index

/-- `Indexer.buildIndex` (`Indexer.os:24-72`) for the lines `find` printed; `none`: an exception left the method.  A version
object counts as true, a text as C28 says. -/
def buildIndex : List Module → List Text → Option (List Module)
  | index, [] => some index
  | index, path :: rest =>
    if stringToBool path = false then buildIndex index rest
    else match readPath path with
      | .exception => none
      | .ok (name, version) =>
        match fromString version with
        | none => none
        | some v => if stringToBool name then buildIndex (addModule index ⟨name, v⟩) rest else buildIndex index rest

/-! ## DependencyChecker -/

/-- A `Dependency` (`Library/DependencyChecker/Main.slang:114-119`): the module and the versions it may have. -/
structure Dependency where
  name : Text
  min : Option SemVer
  max : Option SemVer
  deriving DecidableEq, Repr

/-- A module that was read from its file. -/
structure Installed where
  name : Text
  version : SemVer
  dependencies : List Dependency
  deriving DecidableEq, Repr

/-- `dep.VersionMin && dep.VersionMin > existing.Version` (`Main.slang:26`); no version counts as false. -/
def Dependency.tooOld (d : Dependency) (v : SemVer) : Bool :=
  match d.min with
  | some lo => lo.gt v
  | none => false

/-- `dep.VersionMax && dep.VersionMax < existing.Version` (`Main.slang:32`). -/
def Dependency.tooNew (d : Dependency) (v : SemVer) : Bool :=
  match d.max with
  | some hi => hi.lt v
  | none => false

/-- The test of one dependency against one module (`Main.slang:23-36`); `false`: an exception is thrown. -/
def fits (d : Dependency) (existing : Installed) : Bool :=
  if d.name ≠ existing.name then true
  else if d.tooOld existing.version then false
  else if d.tooNew existing.version then false
  else true

/-- The loop over the files (`Main.slang:17-46`) and the answer: "Dependencies are OK" or not. -/
def check : List Installed → List Installed → Bool
  | _, [] => true
  | modules, m :: rest =>
    if m.dependencies.all fun d => modules.all fun existing => fits d existing then check (modules ++ [m]) rest else false

end Verif.Repo
