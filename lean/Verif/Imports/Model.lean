/-!
# Loading of scripts and libraries

Models `Core/VirtualMachine/VirtualMachine.cpp`: `addLibraryFolder` (130-145), `createScript`
(147-209, the part that loads imports), `createScriptFromFile` (211-235), `loadLibrary` (304-367) and
`buildFilename` (471-494), with `Utils/Tools/Files.cpp`: `exists` (25-41), `BuildPath` (43-48),
`ExtractPathname` (76-90) and `GetFullname` (92-113).

Simplifications.
* The file system does not change while a script is loaded, and has no symbolic links.
* A path is the list of its components, written from the root; components contain neither separators
  nor dots.  `import a.b.c` (`Analyser::createLibraryReference`, Analyser.cpp 336-371) is the list
  `[a, b, c]`, because `BuildPath` replaces every dot by a separator.
* A library is a path together with one of the two extensions `buildFilename` tries.
* Whether the analysis of a file and the loading of its extensions succeed is a parameter, which may
  depend on everything analysed before; an exception of either ends the loading.
* Not modelled: `init` (242-276) filling the library folders from the environment, and what
  `createScript` does after all imports have been loaded.
-/

namespace Verif
namespace Imports

/-- A path below the root, as its components. -/
abbrev Path := List String

/-- The two extensions of library files (VirtualMachine.cpp 477, 483). -/
inductive Ext where
  | slang
  | os
  deriving DecidableEq, Repr

/-- The name of a library file: `/p₁/…/pₙ.ext`. -/
structure LibFile where
  path : Path
  ext : Ext
  deriving DecidableEq, Repr

/-- The name written in an import statement (Analyser.cpp 336-371). -/
abbrev Import := List String

/-- The files on disk: the directories, and the library files with the imports written in them. -/
structure FS where
  dirs : List Path
  files : List (LibFile × List Import)

/-- `Utils::Tools::Files::exists` (Files.cpp 25-41) for library files. -/
def FS.exists (fs : FS) (f : LibFile) : Bool := fs.files.any fun e => e.1 = f

/-- The import statements of a file, in the order in which they are written
(`Analyser::getLibraryReferences`, Analyser.cpp 661-664). -/
def FS.imports (fs : FS) (f : LibFile) : List Import :=
  match fs.files.find? fun e => e.1 = f with
  | some e => e.2
  | none => []

/-- The walk of `realpath(3)` below an existing directory. If a component does not exist the GNU C
library leaves the path up to and including the missing component in the buffer, and `GetFullname`
does not look at the result (Files.cpp 106-109). -/
def FS.walk (fs : FS) (done : Path) : Path → Path
  | [] => done
  | c :: rest => if done ++ [c] ∈ fs.dirs then fs.walk (done ++ [c]) rest else done ++ [c]

/-- `GetFullname` (Files.cpp 92-113). -/
def FS.fullname (fs : FS) (p : Path) : Path := fs.walk [] p

/-- `BuildPath(baseFolder, filename)` (Files.cpp 43-48). -/
def FS.buildPath (fs : FS) (folder : Path) (name : Path) : Path := fs.fullname (folder ++ name)

/-- `buildFilename(folder, filename)` (VirtualMachine.cpp 473-493). -/
def FS.buildFilename (fs : FS) (folder : Path) (name : Import) : LibFile :=
  let path := fs.buildPath folder name
  if fs.exists ⟨path, .slang⟩ then ⟨path, .slang⟩
  else if fs.exists ⟨path, .os⟩ then ⟨path, .os⟩
  else if fs.exists ⟨fs.buildPath path ["All"], .slang⟩ then ⟨fs.buildPath path ["All"], .slang⟩
  else ⟨fs.buildPath path ["All"], .os⟩

/-- `ExtractPathname` of a file name (Files.cpp 76-90): everything but the last component. -/
def LibFile.folder (f : LibFile) : Path := f.path.dropLast

/-- The text of a folder in the set of library folders: `/p₁/…/pₙ/` (VirtualMachine.cpp 139). -/
def text (p : Path) : String := String.join (p.map fun c => "/" ++ c) ++ "/"

/-- Insertion into `std::set<std::string>` (`OrderedStringSet`, Types.h 27): ordered by the text of the
folder, without duplicates. -/
def insertFolder (p : Path) : List Path → List Path
  | [] => [p]
  | q :: qs => if p = q then q :: qs else if text p < text q then p :: q :: qs else q :: insertFolder p qs

/-- The part of the virtual machine that matters here: the library folders, the imported libraries, and
(a ghost, not in the code) the files that have been analysed, latest first. -/
structure State where
  folders : List Path := []
  imported : List LibFile := []
  log : List LibFile := []

/-- `addLibraryFolder(libraryFolder)` (VirtualMachine.cpp 130-145). -/
def addLibraryFolder (fs : FS) (p : Path) (s : State) : State :=
  { s with folders := insertFolder (fs.fullname p) s.folders }

/-- How an attempt to load something ends. -/
inductive Res where
  /-- the function returns a truth value -/
  | ok (found : Bool) (s : State)
  /-- "could not resolve import …" -/
  | unresolved (name : Import) (fromFile : LibFile) (s : State)
  /-- the analysis of a file or the loading of an extension throws -/
  | broken (f : LibFile) (s : State)
  /-- the recursion was not followed to its end (not an outcome of the program) -/
  | fuel

/-- Loop (1) of `loadLibrary` (VirtualMachine.cpp 341-348): the imports found relative to the current
file are loaded and erased from the list, the others are kept. An exception (or missing fuel) is passed
on. -/
def relative (fs : FS) (load : LibFile → State → Res) (folder : Path) :
    List Import → State → Except Res (State × List Import)
  | [], s => .ok (s, [])
  | i :: is, s =>
    match load (fs.buildFilename folder i) s with
    | .ok true s' => relative fs load folder is s'
    | .ok false s' =>
      match relative fs load folder is s' with
      | .ok (s'', rest) => .ok (s'', i :: rest)
      | .error r => .error r
    | r => .error r

/-- The search of one import through a list of folders (VirtualMachine.cpp 173-178, 354-359). -/
def search (fs : FS) (load : LibFile → State → Res) (i : Import) : List Path → State → Res
  | [], s => .ok false s
  | d :: ds, s =>
    match load (fs.buildFilename d i) s with
    | .ok true s' => .ok true s'
    | .ok false s' => search fs load i ds s'
    | r => r

/-- Loop (2) of `loadLibrary` (VirtualMachine.cpp 351-364) and the loop of `createScript` (170-183).
`folders` gives the folders to be searched: the copy taken before loop (1) in `loadLibrary`, the current
ones in `createScript`. (The latter iterates over the set while `loadLibrary` may insert into it; this
only happens when `loadLibrary` returns true, and then the iteration stops.) -/
def searchAll (fs : FS) (load : LibFile → State → Res) (current : LibFile) (folders : State → List Path) :
    List Import → State → Res
  | [], s => .ok true s
  | i :: is, s =>
    match search fs load i (folders s) s with
    | .ok true s' => searchAll fs load current folders is s'
    | .ok false s' => .unresolved i current s'
    | r => r

/-- `loadLibrary(library, fromLibrary)` (VirtualMachine.cpp 304-367). `good` tells whether analysing a
file and loading its extensions succeeds, given the files analysed before. -/
def loadLibrary (fs : FS) (good : List LibFile → LibFile → Bool) : Nat → LibFile → State → Res
  | 0, _, _ => .fuel
  | n + 1, f, s =>
    if !fs.exists f then .ok false s
    else if f ∈ s.imported then .ok true s
    else
      let s := addLibraryFolder fs f.folder s
      let ok := good s.log f
      let s := { s with imported := f :: s.imported, log := f :: s.log }
      if !ok then .broken f s
      else
        let folders := insertFolder f.folder s.folders
        match relative fs (loadLibrary fs good n) f.folder (fs.imports f) s with
        | .error r => r
        | .ok (s, rest) => searchAll fs (loadLibrary fs good n) f (fun _ => folders) rest s

/-- The fuel that is always enough (`createScript_terminates`). -/
def enough (fs : FS) : Nat := fs.files.length + 1

/-- `createScriptFromFile` and `createScript` up to the end of the imports (VirtualMachine.cpp 147-184,
211-235): the folder of the script becomes a library folder, the script is analysed, then its imports are
searched in all library folders. The script itself is not entered in the imported libraries. -/
def createScript (fs : FS) (good : List LibFile → LibFile → Bool) (script : LibFile) (s : State) : Res :=
  let s := addLibraryFolder fs script.folder s
  let ok := good s.log script
  let s := { s with log := script :: s.log }
  if !ok then .broken script s
  else searchAll fs (loadLibrary fs good (enough fs)) script (fun s => s.folders) (fs.imports script) s

end Imports
end Verif
