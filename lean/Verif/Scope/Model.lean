import Verif.AMap

/-! # Scopes: declaring and looking up names and methods

Models `Core/Scope.cpp` (all of `SymbolScope` and `MethodScope` except destruction and scope names),
`Object::resolve` and `Object::resolveMethod` of `Core/Object.cpp`, and `Method::isSignatureValid` of
`Core/Common/Method.cpp`.  Paths are relative to `/repo/Projects/Core`. -/

namespace Verif.Scope

/-- `Core/Common/Visibility.h:19-27`: the access levels, in ascending order. -/
inductive Vis
  | designtime | priv | prot | pub
  deriving DecidableEq, Repr

/-- `Core/Common/Visibility.h:22-27`: the numeric value of the enumeration. -/
def Vis.rank : Vis → Nat
  | .designtime => 0
  | .priv => 1
  | .prot => 2
  | .pub => 3

instance : LE Vis := ⟨fun a b => a.rank ≤ b.rank⟩
instance (a b : Vis) : Decidable (a ≤ b) := inferInstanceAs (Decidable (a.rank ≤ b.rank))

/-- A symbol as far as lookup is concerned: an identity and its visibility (`Symbol::getVisibility`).
Simplification: the object, namespace or blueprint behind the symbol is reduced to its identity, except for
the symbol called `base`, whose scope is kept in `Scope.base`. -/
structure Sym where
  id : Nat
  vis : Vis
  deriving DecidableEq, Repr

/-- `Core/Runtime/Parameter.h`: the parts of a parameter that `isSignatureValid` reads, `type()` and
`hasDefaultValue()`. -/
structure Param where
  type : String
  hasDefault : Bool := false
  deriving DecidableEq, Repr

/-- `Core/Common/Method.h`: identity, name, visibility, signature and `isFinalMethod()`. -/
structure Meth where
  id : Nat
  name : String
  vis : Vis
  sig : List Param
  final : Bool := false
  deriving DecidableEq, Repr

/-- What a lookup can return: `Symbol*` is either a method or something else. -/
inductive Decl
  | sym (s : Sym)
  | meth (m : Meth)
  deriving DecidableEq, Repr

/-- `Symbol::getVisibility`. -/
def Decl.vis : Decl → Vis
  | .sym s => s.vis
  | .meth m => m.vis

/-- The three classes of scopes that differ in their lookup: `SymbolScope` (also `NamedScope` and
`Common::Method`), `MethodScope` (namespaces and blueprints), `Runtime::Object`. -/
inductive Kind
  | symbol | method | object
  deriving DecidableEq, Repr

/-- `Core/Scope.h:35-104`: a scope with its own and external symbols, its own and external methods, the scope
behind its symbol `base` and its parent; `null` is the null pointer.  `std::set<Method*>` is ordered by the
addresses of the methods: the order of the two lists of methods is arbitrary here, too.
Simplification: objects whose `mThis` points to another object are replaced by that object. -/
inductive Scope
  | null
  | mk (kind : Kind) (locals externals : AMap String Sym) (methods externalMethods : List Meth)
      (base parent : Scope)
  deriving Repr

/-- The outcome of a lookup: a null pointer, a result, an exception, or undefined behaviour
(a null pointer dereferenced). -/
inductive Res (α : Type)
  | none
  | found (a : α)
  | threw
  | undefined
  deriving DecidableEq, Repr

/-- `Core/Scope.cpp:114-128` and `301-315`: the own and the external symbols. -/
def ownSymbol (locals externals : AMap String Sym) (n : String) (v : Vis) : Option Decl :=
  match locals.find n with
  | some s => if v ≤ s.vis then some (.sym s) else ext
  | none => ext
where
  ext : Option Decl :=
    match externals.find n with
    | some s => if v ≤ s.vis then some (.sym s) else none
    | none => none

/-- `Core/Scope.cpp:318-324` and `327-333`: the first method of that name that is visible enough. -/
def firstNamed (ms : List Meth) (n : String) (v : Vis) : Option Decl :=
  (ms.find? fun m => decide (v ≤ m.vis) && m.name == n).map .meth

/-- `Core/Scope.cpp:299-333`: everything declared in the scope itself. -/
def ownDecl (locals externals : AMap String Sym) (methods ext : List Meth) (n : String) (v : Vis) : Option Decl :=
  (ownSymbol locals externals n v).or ((firstNamed methods n v).or (firstNamed ext n v))

/-- `Core/Scope.cpp:299-358`, `MethodScope::resolve`, given what the scope itself declares (`own`), what it
declares under the name `base` (`bs`), and the results of asking the base with `onlyCurrentScope` (`rb`) and
the parent (`rp`). -/
def methodResolve (own bs : Option Decl) (rb rp : Res Decl) (only : Bool) (v : Vis) : Res Decl :=
  match own with
  | some d => .found d
  | none =>
    if v = .designtime then parent
    else match bs with
      | none => parent
      | some (.meth _) => .threw
      | some (.sym _) => match rb with
        | .none => parent
        | r => r
where
  parent : Res Decl := if only then .none else rp

/-- `dynamic_cast<Object*>` of the scope behind `base`. -/
def Scope.isObject : Scope → Bool
  | .mk .object .. => true
  | _ => false

/-- `visibility < Protected ? Protected : visibility` (`Core/Object.cpp:498`). -/
def Vis.atLeastProt (v : Vis) : Vis := if v.rank < Vis.prot.rank then .prot else v

/-- `Core/Object.cpp:491-507`: the three searches of an object, given the results of `MethodScope::resolve`
restricted to the scope (`r1`), of the base object if it is one (`r2`), and of the unrestricted
`MethodScope::resolve` (`r3`). -/
def objectResolve (r1 r2 r3 : Res Decl) (only : Bool) : Res Decl :=
  match r1 with
  | .none =>
    match (if only then .none else r2) with
    | .none => if only then .none else r3
    | r => r
  | r => r

/-- What the base object contributes: `Core/Object.cpp:496-499`, where `dynamic_cast<Object*>` of `base` must
succeed. -/
def baseResult {α : Type} (bs : Option Decl) (b : Scope) (r : Res α) : Res α :=
  match bs with
  | some (.sym _) => if b.isObject then r else .none
  | _ => .none

/-- `SymbolScope::resolve` (`Core/Scope.cpp:112-136`), `MethodScope::resolve` (`299-358`) and
`Object::resolve` (`Core/Object.cpp:485-508`). -/
def resolve : Scope → String → Bool → Vis → Res Decl
  | .null, _, _, _ => .none
  | .mk .symbol L E _ _ _ p, n, only, v =>
    match ownSymbol L E n v with
    | some d => .found d
    | none => if only then .none else resolve p n false v
  | .mk .method L E M X b p, n, only, v =>
    methodResolve (ownDecl L E M X n v) (ownDecl L E M X "base" .designtime)
      (resolve b n true v) (resolve p n false v) only v
  | .mk .object L E M X b p, n, only, v =>
    objectResolve
      (methodResolve (ownDecl L E M X n v) (ownDecl L E M X "base" .designtime)
        (resolve b n true v) (resolve p n false v) true v)
      (baseResult (ownDecl L E M X "base" .designtime) b (resolve b n false v.atLeastProt))
      (methodResolve (ownDecl L E M X n v) (ownDecl L E M X "base" .designtime)
        (resolve b n true v) (resolve p n false v) false v)
      only

/-- `Core/Common/Method.cpp:236-286`, `Method::isSignatureValid`; the received parameters matter only by their
type.  `VALUE_NONE` is the empty string (`Core/Consts.h:127`). -/
def isSignatureValid (sig : List Param) (args : List String) : Bool :=
  if args.length > sig.length then false else go sig args
where
  go : List Param → List String → Bool
    | [], _ => true
    | s :: sig, a :: args => if s.type ≠ a ∧ s.type ≠ "" then false else go sig args
    | s :: sig, [] => if !s.hasDefault then false else go sig []

/-- `Core/Scope.cpp:362-376`: the first visible method of that name with a valid signature. -/
def firstApplicable (ms : List Meth) (n : String) (args : List String) (v : Vis) : Option Meth :=
  ms.find? fun m => decide (v ≤ m.vis) && (m.name == n && isSignatureValid m.sig args)

/-- `Core/Scope.cpp:360-401`, `MethodScope::resolveMethod`, given the own candidate, what the scope declares as
`base`, the results of base and parent, and whether the parent is null or no `MethodScope`
(`dynamic_cast<MethodScope*>(mParent)->resolveMethod` then dereferences a null pointer). -/
def methodResolveM (own : Option Meth) (bs : Option Decl) (rb rp : Res Meth) (p : Scope) (only : Bool) (v : Vis) :
    Res Meth :=
  match own with
  | some m => .found m
  | none =>
    if v = .designtime then parent
    else match bs with
      | none => parent
      | some (.meth _) => .threw
      | some (.sym _) => match rb with
        | .none => parent
        | r => r
where
  parent : Res Meth :=
    if only then .none
    else match p with
      | .null => .none
      | .mk .symbol .. => .undefined
      | _ => rp

/-- `Core/Object.cpp:517-540`, the combination of the three searches: own with the bases (`r1`), the base
object (`r2`), and own with the parents (`r3`). -/
def objectResolveM (r1 r2 r3 : Res Meth) (only : Bool) : Res Meth :=
  match r1, r2 with
  | .threw, _ => .threw
  | .undefined, _ => .undefined
  | _, .threw => .threw
  | _, .undefined => .undefined
  | .none, r2 => third r2
  | .found m, .found m2 => third (if m2.final then .found m2 else .found m)
  | .found m, .none => third (.found m)
where
  third (r : Res Meth) : Res Meth :=
    match r, r3 with
    | .found m, .none => .found m
    | .found m, r3 => if m.final || only then .found m else r3
    | _, r3 => if only then .none else r3

/-- `MethodScope::resolveMethod` (`Core/Scope.cpp:360-401`) and `Object::resolveMethod`
(`Core/Object.cpp:510-541`).  A `SymbolScope` has no such operation (`undefined`). -/
def resolveMethod : Scope → String → List String → Bool → Vis → Res Meth
  | .null, _, _, _, _ => .none
  | .mk .symbol .., _, _, _, _ => .undefined
  | .mk .method L E M X b p, n, args, only, v =>
    methodResolveM ((firstApplicable M n args v).or (firstApplicable X n args v)) (ownDecl L E M X "base" .designtime)
      (resolveMethod b n args true v) (resolveMethod p n args false v) p only v
  | .mk .object L E M X b p, n, args, only, v =>
    objectResolveM
      (methodResolveM ((firstApplicable M n args v).or (firstApplicable X n args v))
        (ownDecl L E M X "base" .designtime) (resolveMethod b n args true v) (resolveMethod p n args false v) p true v)
      (baseResult (ownDecl L E M X "base" .designtime) b (resolveMethod b n args only v.atLeastProt))
      (methodResolveM ((firstApplicable M n args v).or (firstApplicable X n args v))
        (ownDecl L E M X "base" .designtime) (resolveMethod b n args true v) (resolveMethod p n args false v) p false v)
      only

/-- `SymbolScope::define` (`Core/Scope.cpp:33-45`; `none` is the exception `DuplicateIdentifier`) and
`MethodScope::define` (`177-189`, also used by objects). -/
def define : Scope → String → Sym → Option Scope
  | .null, _, _ => none
  | .mk .symbol L E M X b p, n, s =>
    match ownSymbol L E n .designtime with
    | some _ => none
    | none => some (.mk .symbol (L.set n s) E M X b p)
  | .mk k L E M X b p, n, s =>
    match L.find n with
    | some _ => none
    | none => some (.mk k (L.set n s) E M X b p)

/-- `SymbolScope::defineExternal` (`Core/Scope.cpp:47-60`) and `MethodScope::defineExternal` (`191-204`). -/
def defineExternal : Scope → String → Sym → Option Scope
  | .null, _, _ => none
  | .mk k L E M X b p, n, s =>
    match E.find n with
    | some _ => none
    | none => some (.mk k L (E.set n s) M X b p)

/-- `SymbolScope::undefine` (`Core/Scope.cpp:138-144`) and `MethodScope::undefine` (`402-408`). -/
def undefine : Scope → String → Scope
  | .null, _ => .null
  | .mk k L E M X b p, n => .mk k (L.erase n) E M X b p

/-- `MethodScope::defineMethod` (`Core/Scope.cpp:215-226`; `none` is the exception `DuplicateIdentifier`).
`MethodScope::resolveMethod` is called without virtual dispatch, with the types of the own signature,
`onlyCurrentScope` and level `Designtime`, so that neither base nor parent is asked.
`insertAt` is the position the address of the method happens to have among the others. -/
def defineMethod (methods ext : List Meth) (m : Meth) (insertAt : Nat) : Option (List Meth) :=
  let args := m.sig.map Param.type
  match (firstApplicable methods m.name args .designtime).or (firstApplicable ext m.name args .designtime) with
  | some _ => none
  | none => some (methods.take insertAt ++ m :: methods.drop insertAt)

end Verif.Scope
