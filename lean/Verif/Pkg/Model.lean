import Verif.AMap
import Verif.SemVer.Model

/-!
# The package manager `slang-pkg`

Models `slang-pkg/Application/Application.cpp`: `checkOutdatedModules` (404-420), `checkRestrictions`
(422-438), `collectLocalModuleData` (453-497), `install` (770-861), `installModule` (863-917),
`loadRestrictions` (1010-1036), `prepareModuleInstallation` (1038-1096), `upgrade` (1417-1462) and
`slang-pkg/Common/Repository.cpp`: `addModule`, `contains`, `getModule` (20-58).

Simplifications.
* The repository server is a function from a module and the text of a version to the content of the
  file `modules/<module>/<version>/module.json`; it does not change during a run.  `none` stands for every
  answer that is not a usable description (the code does not look at the result of the transfer:
  `download`, 604-648, is successful as soon as the target file could be opened).
* `target` says that the description has a target of a known type and that the archive of the version can
  be fetched and unpacked; the module on disk then has the version of the description.
* The index of the server has already been fetched (`prepareRemoteRepository`).
* Sources, names, descriptions, installed links are left out.
-/

namespace Verif
namespace Pkg

open SemVer Str

/-- A module as the package manager sees it (Module.h): `std::set<Module>` is ordered by the short name. -/
structure Mod where
  name : String
  version : Version
  deriving DecidableEq, Repr

/-- A dependency (Dependency.h). -/
structure Dep where
  name : String
  min : Text
  max : Text
  deriving DecidableEq, Repr

/-- The part of a module description that matters (Module.cpp 57-118). -/
structure Info where
  version : Version
  deps : List Dep
  archOk : Bool
  target : Bool
  deriving DecidableEq, Repr

/-- The repository server: `modules/<module>/<version>/module.json`. -/
abbrev Server := String → Text → Option Info

/-- A version restriction (Restriction.h). -/
structure Restriction where
  name : String
  min : Version
  max : Version

/-- The configuration and the options of a run; `remote` is the index of the server. -/
structure Config where
  restrictions : List Restriction := []
  force : Bool := false
  skipDeps : Bool := false
  remote : List Mod := []

/-- The state of a run: the two global repositories, the cached descriptions, the modules on disk, and (a
ghost, not in the code) the modules that have been unpacked, latest first. -/
structure St where
  locals : List Mod := []
  missing : List Mod := []
  cache : AMap String (Option Info) := []
  disk : AMap String Version := []
  log : List Mod := []

/-- Insertion into `std::set<Module>` after `contains` has said no (Repository.cpp 20-28): ordered by name. -/
def insertMod (m : Mod) : List Mod → List Mod
  | [] => [m]
  | x :: xs => if m.name < x.name then m :: x :: xs else x :: insertMod m xs

/-- `Repository::contains` (Repository.cpp 30-39). -/
def contains (l : List Mod) (name : String) : Bool := l.any fun m => m.name = name

/-- `Repository::addModule` (Repository.cpp 20-28): a module that is already there is kept as it is. -/
def addModule (m : Mod) (l : List Mod) : List Mod := if contains l m.name then l else insertMod m l

/-- `Repository::getModule` (Repository.cpp 41-51). -/
def getModule (l : List Mod) (name : String) : Option Mod := l.find? fun m => m.name = name

/-- `checkRestrictions` (Application.cpp 422-438). -/
def checkRestrictions (rs : List Restriction) (m : Mod) : Bool :=
  rs.all fun r => !(r.name = m.name &&
    ((r.min.valid && m.version.lt r.min) || (r.max.valid && r.max.lt m.version)))

/-- `std::set<Restriction>::insert` (Restriction.h 40-42): one restriction for each module, the first one
stays. (The order of the set does not matter to `checkRestrictions`.) -/
def insertRestriction (r : Restriction) (l : List Restriction) : List Restriction :=
  if l.any fun x => x.name = r.name then l else l ++ [r]

/-- `loadRestrictions` (Application.cpp 1010-1036): the hardcoded restriction of the interpreter is inserted
first, then those of the configuration. -/
def loadRestrictions (product : String) (version : Text) (config : List (String × Text × Text)) : List Restriction :=
  config.foldl (fun l c => insertRestriction ⟨c.1, Version.ofText c.2.1, Version.ofText c.2.2⟩ l)
    [⟨product, Version.ofText [], Version.ofText version⟩]

/-- How a step of the package manager ends. -/
inductive Res where
  | ok (st : St)
  /-- `exit( ERROR_ARCHITECTURE )` -/
  | exit (st : St)
  /-- the recursion was not followed to its end (not an outcome of the program) -/
  | fuel

/-- The loop over the dependencies (Application.cpp 1077-1096): a dependency is satisfied by every local
module of its name; otherwise it is added to the missing modules, with its minimal version, and prepared. -/
def prepareDeps (prepare : Mod → St → Res) : List Dep → St → Res
  | [], st => .ok st
  | d :: ds, st =>
    if contains st.locals d.name then prepareDeps prepare ds st
    else
      let m : Mod := ⟨d.name, Version.ofText d.min⟩
      match prepare m { st with missing := addModule m st.missing } with
      | .ok st' => prepareDeps prepare ds st'
      | r => r

/-- `prepareModuleInstallation` (Application.cpp 1038-1096). The description replaces the one cached for the
module before; without a usable description the module has no dependencies. -/
def prepare (srv : Server) (cfg : Config) : Nat → Mod → St → Res
  | 0, _, _ => .fuel
  | n + 1, m, st =>
    let info := srv m.name m.version.toText
    let st := { st with cache := st.cache.set m.name info }
    if cfg.skipDeps then .ok st
    else
      match info with
      | none => .ok st
      | some i => if !i.archOk then .exit st else prepareDeps (prepare srv cfg n) i.deps st

/-- The module asked for by a parameter `<module>[:<version>]` (Application.cpp 793-808, 819-834): without a
version that of the index, and if the index does not know the module the empty version. -/
def requested (cfg : Config) (p : String × Text) : Mod :=
  if p.2.isEmpty then
    match getModule cfg.remote p.1 with
    | some m => ⟨p.1, Version.ofText m.version.toText⟩
    | none => ⟨p.1, Version.ofText []⟩
  else ⟨p.1, Version.ofText p.2⟩

/-- The first loop of `install` (Application.cpp 790-811). -/
def prepareAll (srv : Server) (cfg : Config) (n : Nat) : List (String × Text) → St → Res
  | [], st => .ok st
  | p :: ps, st =>
    match prepare srv cfg n (requested cfg p) st with
    | .ok st' => prepareAll srv cfg n ps st'
    | r => r

/-- `installModule` (Application.cpp 863-917). -/
def installModule (name : String) (st : St) : St :=
  match st.cache.find name with
  | some (some i) =>
    if i.target then { st with disk := st.disk.set name i.version, log := ⟨name, i.version⟩ :: st.log } else st
  | _ => st

/-- The last loop of `install` (Application.cpp 847-858). -/
def installAll (force : Bool) : List Mod → St → St
  | [], st => st
  | m :: ms, st =>
    match getModule st.locals m.name with
    | some t => if !force && !(t.version.lt m.version) then installAll force ms st else installAll force ms (installModule m.name st)
    | none => installAll force ms (installModule m.name st)

/-- `collectLocalModuleData` (Application.cpp 453-497): the interpreter as a virtual module, then the modules on
disk, each added unless a module of its name is already in the local repository. -/
def collectLocal (product : Mod) (st : St) : St :=
  { st with locals := st.disk.foldl (fun l e => addModule ⟨e.1, e.2⟩ l) (addModule product st.locals) }

/-- Whether a version is forced for the whole run (Application.cpp 788, 806, 832). -/
def forced (cfg : Config) (params : List (String × Text)) : Bool := cfg.force || params.any fun p => !p.2.isEmpty

/-- Whether the requested modules respect the restrictions (Application.cpp 836-841). -/
def allowed (cfg : Config) (params : List (String × Text)) : Bool :=
  params.all fun p => checkRestrictions cfg.restrictions (requested cfg p)

/-- `install` (Application.cpp 770-861). -/
def install (srv : Server) (cfg : Config) (product : Mod) (n : Nat) (params : List (String × Text)) (st : St) : Res :=
  if params.isEmpty then .ok st
  else
    match prepareAll srv cfg n params (collectLocal product st) with
    | .ok st =>
      let st := { st with missing := params.foldl (fun l p => addModule (requested cfg p) l) st.missing }
      if allowed cfg params then .ok (installAll (forced cfg params) st.missing st) else .ok st
    | r => r

/-- `checkOutdatedModules` (Application.cpp 404-420). -/
def checkOutdated (locals remote : List Mod) : List Mod :=
  locals.foldl (fun out l => remote.foldl (fun out r =>
    if l.name = r.name && l.version.lt r.version then addModule r out else out) out) []

/-- The loop of `upgrade` (Application.cpp 1452-1457). -/
def upgradeAll (srv : Server) (cfg : Config) (product : Mod) (n : Nat) : List Mod → St → Res
  | [], st => .ok st
  | m :: ms, st =>
    match install srv cfg product n [(m.name, [])] st with
    | .ok st' => upgradeAll srv cfg product n ms st'
    | r => r

/-- The modules `upgrade` selects (Application.cpp 1427-1445). -/
def selected (cfg : Config) (params : List String) (st : St) : List Mod :=
  (checkOutdated st.locals cfg.remote).filter fun m => params.isEmpty || params.any fun p => p = m.name

/-- `upgrade` (Application.cpp 1417-1462). -/
def upgrade (srv : Server) (cfg : Config) (product : Mod) (n : Nat) (params : List String) (st : St) : Res :=
  let st := collectLocal product st
  upgradeAll srv cfg product n (selected cfg params st) st

end Pkg
end Verif
