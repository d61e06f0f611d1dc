import Verif.AMap
import Verif.Decl.Model

/-!
# The names a program declares

Models what `Analyser::generate` (`Designtime/Analyser.cpp`) does with the declarations it reads (`Verif.Decl`): the symbols it
defines in namespaces and classes, the types it looks up (`resolveType`) and the table of classes (`VirtualMachine/Repository.cpp`).
Paths are relative to `/repo/Projects/Core/Core`, line numbers without a file name are those of `Analyser.cpp`.

Simplifications: overloads of methods are not checked (`defineMethod`, see `Verif.Scope`), the default constructor is not added
(205-219), the entries of enumerations are not defined (see `Verif.Enums`), static members are never rejected by `createInstance`
(which checks the number of type arguments), no extension adds names of its own.  Errors of reading and of defining, which the code
finds in one pass, are two passes here: the file is rejected either way.
-/

namespace Verif.Global

open Verif.Str (Text)
open Verif.Decl (Node TypeDecl Vis Layout Ancestor Relation)

/-- A scope: the names of the namespaces and classes around a place, the innermost first; the global scope is `[]`
(`Controller.cpp:57`: a namespace without a name). -/
abbrev Path := List Text

/-- A type whose names are resolved: its name and, for every type parameter, `mRunType` and `mConstraint`. -/
structure RType where
  name : Text
  args : List (Text × Text)
deriving DecidableEq, Repr

/-- What is stored under a name in `mSymbols` (`Scope.h`). -/
inductive Sym where
  /-- `Common::Namespace`. -/
  | space (vis : Vis)
  /-- A class, interface or enumeration, with its `QualifiedTypename()`. -/
  | type (vis : Vis) (qualified : Text)
  /-- A non-static member of a class: a `BluePrintObject`, too, whose `QualifiedTypename()` is that of its type (434-447). -/
  | member (vis : Vis) (type : RType)
  /-- A static member or a variable of a namespace: a `Runtime::Object` (448-458). -/
  | object (vis : Vis) (type : RType)
deriving DecidableEq, Repr

/-- A method of a class or namespace (524-537). -/
structure Meth where
  scope : Path
  name : Text
  vis : Vis
  type : RType
  params : List RType
deriving DecidableEq, Repr

/-- A class in the repository: where it is, under which name, its type parameters and ancestors. -/
structure Cls where
  scope : Path
  name : Text
  args : List (Text × Text)
  ancestors : List (Relation × RType)
deriving DecidableEq, Repr

/-- The symbols and methods of all scopes and `mBluePrintObjects` (`VirtualMachine/Repository.h`).  A scope is identified by its path:
`define` admits no name twice in a scope. -/
structure World where
  symbols : AMap (Path × Text) Sym
  methods : List Meth
  classes : AMap Text Cls
deriving DecidableEq, Repr

/-- `MethodScope::getFullScopeName` (`Scope.cpp:266-277`). -/
def fullName : Path → Text
  | [] => []
  | n :: p => (if fullName p ≠ [] ∧ n ≠ [] then fullName p ++ ['.'] else fullName p) ++ n

/-- `getQualifiedTypename` (666-676). -/
def qualified (p : Path) (t : Text) : Text :=
  (if fullName p ≠ [] ∧ t ≠ [] then fullName p ++ ['.'] else fullName p) ++ t

/-- A symbol that is found: `getSymbolType`. -/
inductive Found where
  | sym (s : Sym)
  | method
deriving DecidableEq, Repr

/-- `MethodScope::resolve` with `onlyCurrentScope` (`Scope.cpp:288-345`): symbols, then methods.  There are no external symbols or
methods before `prepareParents`.  The visibility asked for is `Private` or less, which every declaration has. -/
def here (w : World) (p : Path) (x : Text) : Option Found :=
  match w.symbols.find (p, x) with
  | some s => some (.sym s)
  | none => if w.methods.any (fun m => m.scope = p ∧ m.name = x) then some .method else none

/-- `MethodScope::resolve` (`Scope.cpp:288-345`) without `onlyCurrentScope`. -/
def resolve (w : World) : Path → Text → Option Found
  | [], x => here w [] x
  | n :: p, x =>
    match here w (n :: p) x with
    | some f => some f
    | none => resolve w p x

/-- `resolveType` (748-771): `none` is the exception for symbols that are no blueprints.  The loop asks every enclosing scope. -/
def resolveType (w : World) : Path → Text → Option Text
  | p, x =>
    match resolve w p x with
    | some (.sym (.type _ q)) => some q
    | some (.sym (.member _ t)) => some t.name
    | some _ => none
    | none =>
      match p with
      | [] => some x
      | _ :: p => resolveType w p x

/-- The constraints of a type (781-788). -/
def resolveArgs (w : World) (p : Path) : List Decl.Arg → Option (List (Text × Text))
  | [] => some []
  | a :: as =>
    (resolveType w p a.constraint).bind fun c => (resolveType w p a.type).bind fun t =>
      (resolveArgs w p as).bind fun r => some ((t, c) :: r)

/-- `resolveType` (773-792). -/
def resolveDecl (w : World) (p : Path) (n : Text) (as : List Decl.Arg) : Option RType :=
  (resolveType w p n).bind fun n => (resolveArgs w p as).bind fun as => some ⟨n, as⟩

/-- `Analyser::collectInheritance` (101-113). -/
def resolveAncestors (w : World) (p : Path) : List Ancestor → Option (List (Relation × RType))
  | [] => some []
  | a :: as =>
    (resolveDecl w p a.name a.args).bind fun t => (resolveAncestors w p as).bind fun r => some ((a.relation, t) :: r)

/-- `parseParameters` (688-697). -/
def resolveParams (w : World) (p : Path) : List Decl.Param → Option (List RType)
  | [] => some []
  | a :: as =>
    (resolveDecl w p a.type.name a.type.args).bind fun t => (resolveParams w p as).bind fun r => some (t :: r)

/-- A type as it is written (`Parser::parseTypeDeclaration`, which interfaces and enumerations call). -/
def written (n : Text) (as : List Decl.Arg) : RType := ⟨n, as.map fun a => (a.type, a.constraint)⟩

/-- `MethodScope::define` (`Scope.cpp:167-179`): `none` is the exception for a second symbol of the same name. -/
def define (w : World) (p : Path) (x : Text) (s : Sym) : Option World :=
  match w.symbols.find (p, x) with
  | some _ => none
  | none => some { w with symbols := w.symbols.set (p, x) s }

/-- `Repository::addBluePrint` (`VirtualMachine/Repository.cpp:43-51`). -/
def addClass (w : World) (q : Text) (c : Cls) : Option World :=
  match w.classes.find q with
  | some _ => none
  | none => some { w with classes := w.classes.set q c }

/-- The loop of `createNamespace` (559-593). -/
def openSpaces (w : World) (p : Path) (v : Vis) : List Text → Option (World × Path)
  | [] => some (w, p)
  | n :: ns =>
    match here w p n with
    | none => (define w p n (.space v)).bind fun w => openSpaces w (n :: p) v ns
    | some (.sym (.space _)) => openSpaces w (n :: p) v ns
    | some _ => none

/-- The ancestor every implemented class has (172-175). -/
def rootAncestor (body : Option (List Node)) (as : List (Relation × RType)) : List (Relation × RType) :=
  if body.isSome ∧ as.all (·.1 ≠ .extends) then as ++ [(.extends, ⟨"Object".toList, []⟩)] else as

mutual

/-- One declaration in the scope `p`; `cls` tells whether the scope is a class or interface. -/
def node (p : Path) (cls : Bool) (w : World) : Node → Option World
  -- `createBluePrint` (115-224): the name of the class itself is resolved as well (134)
  | .object v _ _ ty as body =>
    (resolveDecl w p ty.name ty.args).bind fun t => (resolveAncestors w p as).bind fun as =>
      (define w p t.name (.type v (qualified p t.name))).bind fun w => (inner (t.name :: p) w body).bind fun w =>
        addClass w (qualified p t.name) ⟨p, t.name, t.args, rootAncestor body as⟩
  -- `createEnum` (226-267)
  | .enum v _ ty _ =>
    (define w p ty.name (.type v (qualified p ty.name))).bind fun w => addClass w (qualified p ty.name) ⟨p, ty.name, [], []⟩
  -- `createInterface` (269-334): neither its name nor its ancestors are resolved (288, 293)
  | .interface v _ ty as body =>
    (define w p ty.name (.type v (qualified p ty.name))).bind fun w => (nodes (ty.name :: p) true w body).bind fun w =>
      addClass w (qualified p ty.name)
        ⟨p, ty.name, (written ty.name ty.args).args, as.map fun a => (a.relation, written a.name a.args)⟩
  -- `createLibraryReference` (336-370)
  | .library _ _ => some w
  -- `createNamespace` (543-604)
  | .space v _ ns body => (openSpaces w p v ns).bind fun r => nodes r.2 false r.1 body
  -- `createMemberStub` (404-461)
  | .member v l _ ty n _ _ _ =>
    (resolveDecl w p ty.name ty.args).bind fun t =>
      if cls ∧ l ≠ .stat then define w p n (.member v t) else define w p n (.object v t)
  -- `createMethodStub` (463-541)
  | .method v _ _ ty n ps _ _ _ _ =>
    (resolveDecl w p ty.name ty.args).bind fun t => (resolveParams w p ps).bind fun ps =>
      some { w with methods := w.methods ++ [⟨p, n, v, t, ps⟩] }

/-- `generate` (614-644). -/
def nodes (p : Path) (cls : Bool) (w : World) : List Node → Option World
  | [] => some w
  | d :: ds => (node p cls w d).bind fun w => nodes p cls w ds

/-- The body of a class (193-199); a class without a body has no tokens. -/
def inner (p : Path) (w : World) : Option (List Node) → Option World
  | none => some w
  | some ds => nodes p true w ds

end

/-- The types `Repository::init` adds (`VirtualMachine/Repository.cpp:397-459`; names: `Designtime/BuildInTypes`, `Common/Types.h`). -/
def builtinTypes : List Text :=
  ["bool".toList, "double".toList, "float".toList, "int16".toList, "int".toList, "int64".toList, "string".toList, "void".toList,
    "Object".toList]

/-- `Repository::init` (`VirtualMachine/Repository.cpp:392-472`). -/
def builtin : World where
  symbols := builtinTypes.map (fun t => (([], t), .type .pub t)) ++ [(([], "null".toList), .object .pub ⟨"Object".toList, []⟩)]
  methods := []
  classes := builtinTypes.map fun t => (t, ⟨[], t, [], []⟩)

/-- The files of a program, in the order in which they are analysed: the script, then the libraries
(`VirtualMachine/VirtualMachine.cpp:147-178`). -/
def load (w : World) : List (List Node) → Option World
  | [] => some w
  | f :: fs => (nodes [] false w f).bind fun w => load w fs

/-- `initializeBlueprints` (`VirtualMachine/Repository.cpp:477-525`) with `initBluePrintObject` (530-601), as far as it looks up types:
the ancestors of every class and, if it has no type parameters, the types of its members, inner classes and methods. -/
def linked (w : World) : Bool :=
  w.classes.all fun (_, c) =>
    c.ancestors.all (fun a => (w.classes.find a.2.name).isSome) &&
      (!c.args.isEmpty ||
        (w.symbols.all (fun (k, s) => k.1 ≠ c.name :: c.scope ||
            match s with
            | .type _ q => (w.classes.find q).isSome
            | .member _ t => (w.classes.find t.name).isSome
            | _ => true) &&
          w.methods.all fun m => m.scope ≠ c.name :: c.scope || (w.classes.find m.type.name).isSome))

end Verif.Global
