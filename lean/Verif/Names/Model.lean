import Verif.Scope.Model

/-!
# Qualified names: what they mean when a method is compiled, and when it runs

Model of `TreeGenerator::resolve`, `resolveWithExceptions` and `resolveWithThis`
(`Projects/Core/Core/AST/TreeGenerator.cpp:2284-2382`, `2455-2481`), of the rules for `const` that assignments,
increments and calls apply to the names they use (`1004-1010`, `1480-1482`, `1654-1668`), of
`TreeInterpreter::evaluateSymbolExpression`, `resolveRValue` and `resolveMethod`
(`Projects/Core/Core/AST/TreeInterpreter.cpp:426-468`, `855-933`), and of the objects behind references without a
value (`Projects/Core/Core/VirtualMachine/Repository.cpp:175-231`).  Lookups in a single scope are those of
`Verif.Scope.Model`.
-/

namespace Verif
namespace Names

open Scope (Vis Sym Meth Decl Kind Scope Res)

/-- A token, as far as names are concerned: `.` is `Token::Type::OPERATOR_SCOPE`.  Simplification: the spelling of
the other tokens that are not words does not matter. -/
inductive Tok where
  | word (s : String)
  | dot
  | other (s : String)
  deriving DecidableEq, Repr

/-- `Token::content`. -/
def Tok.content : Tok → String
  | .word s => s
  | .dot => "."
  | .other s => s

/-- What a symbol is (`Symbol::getSymbolType`): a blueprint — a class, or a non-static member of a class, which
the analyser stores as a copy of the blueprint of its type (`Designtime/Analyser.cpp:403-455`) — a namespace, or an
object — a local variable, a parameter, a static member or a global variable.  `const` and `member` are as they are
declared.  Simplification: classes are not generic, so that no type arguments follow their names. -/
inductive Entity where
  | blueprint (type : String) (const member : Bool)
  | space (s : Scope)
  | object (type : String) (const member : Bool)

/-- The program: what the symbols are, the scopes of the classes (`Repository::findBluePrintObject`), and which
types are atomic (`isAtomicType`). -/
structure World where
  entity : Nat → Entity
  classes : String → Option Scope
  atomic : String → Bool

/-- The method that is compiled: `mThis` (the class it belongs to, also for static methods, line 215),
`mMethod->isConstMethod()`, `mMethod->isStatic()`, and `mAllowConstModify` (constructors and destructors). -/
structure Method where
  owner : Option String := none
  const : Bool := false
  static : Bool := false
  special : Bool := false

/-- One name of a path, as a `SymbolExpression` (`AST/Expression.h`): the name, the symbol it was resolved to,
`mIsConst` and `mIsMember`. -/
structure Part where
  name : String
  decl : Decl
  const : Bool
  member : Bool
  deriving DecidableEq, Repr

/-- The part for a symbol, and the scope for the next name (`TreeGenerator.cpp:2302-2350`; `none` is the exception
`UnknownIdentifier`).  A `DesigntimeSymbolExpression` is never const and never a member (line 2325 is commented
out).  A scope that is a null pointer is `Scope.null`. -/
def part (w : World) (name : String) (d : Decl) : Option (Part × Scope) :=
  match d with
  | .meth _ => some (⟨name, d, false, false⟩, .null)
  | .sym s =>
    match w.entity s.id with
    | .blueprint t _ _ => (w.classes t).map fun c => (⟨name, d, false, false⟩, c)
    | .space c => some (⟨name, d, false, false⟩, c)
    | .object t k m => some (⟨name, d, k, m⟩, if w.atomic t then .null else (w.classes t).getD .null)

/-- The symbol is an object whose class is the class of the method (`TreeGenerator.cpp:2359-2362`). -/
def ownObject (w : World) (own : Option String) : Decl → Bool
  | .meth _ => false
  | .sym s => match w.entity s.id with
    | .object t _ _ => own == some t
    | _ => false

/-- The access level for the name after the dot (`TreeGenerator.cpp:2353-2362`). -/
def nextVis (w : World) (own : Option String) (name : String) (d : Decl) (v : Vis) : Vis :=
  if name = "base" then .prot
  else if name = "this" then .priv
  else if ownObject w own d then .priv
  else v

/-- The outcome of resolving a path: the path and the tokens after it; a null pointer, with the tokens where the
iterator stands; an exception; undefined behaviour (the end of the tokens is read). -/
inductive Out where
  | found (path : List Part) (rest : List Tok)
  | missing (rest : List Tok)
  | threw
  | undefined
  deriving DecidableEq, Repr

/-- `TreeGenerator::resolve` (`TreeGenerator.cpp:2284-2382`). -/
def resolve (w : World) (own : Option String) : List Tok → Scope → Bool → Vis → Out
  | [], b, _, _ => match b with
    | .null => .threw
    | _ => .undefined
  | t :: rest, b, only, v =>
    match b with
    | .null => .threw
    | _ =>
      match Scope.resolve b t.content only (if only then v else .priv) with
      | .threw => .threw
      | .undefined => .undefined
      | .none => .missing (t :: rest)
      | .found d =>
        match part w t.content d with
        | none => .threw
        | some (p, sc) =>
          match rest with
          | [] => .undefined
          | .dot :: r =>
            match resolve w own r sc true (nextVis w own t.content d v) with
            | .found ps r' => .found (p :: ps) r'
            | o => o
          | r => .found [p] r

/-- The path a name stands for: is `this` put before it, and the parts. -/
structure Path where
  viaThis : Bool
  parts : List Part
  deriving DecidableEq, Repr

inductive Outcome where
  | path (p : Path) (rest : List Tok)
  /-- the method is rejected -/
  | rejected
  | undefined
  deriving DecidableEq, Repr

/-- `TreeGenerator::resolveWithExceptions` (`TreeGenerator.cpp:2455-2463`). -/
def withExceptions (w : World) (own : Option String) (toks : List Tok) (b : Scope) : Outcome :=
  match resolve w own toks b false .pub with
  | .found ps r => .path ⟨false, ps⟩ r
  | .undefined => .undefined
  | _ => .rejected

/-- The scope of the class of the method (`mThis`). -/
def ownScope (w : World) (own : Option String) : Option Scope := own.bind w.classes

/-- `TreeGenerator::resolveWithThis` (`TreeGenerator.cpp:2465-2481`).  The first search moves the iterator. -/
def withThis (w : World) (own : Option String) (toks : List Tok) (b : Scope) : Outcome :=
  match ownScope w own with
  | none => withExceptions w own toks b
  | some c =>
    match resolve w own toks c true .priv with
    | .found ps r => .path ⟨true, ps⟩ r
    | .missing r => withExceptions w own r b
    | .threw => .rejected
    | .undefined => .undefined

/-! ## Const -/

/-- `SymbolExpression::isConst` (`AST/Expression.h`): any part is const; the `this` put before a member is const in
const methods (`TreeGenerator.cpp:2473`). -/
def Path.isConst (m : Method) (p : Path) : Bool := (p.viaThis && m.const) || p.parts.any Part.const

/-- `SymbolExpression::isMember`: any part is a member; the `this` put before a member is one. -/
def Path.isMember (p : Path) : Bool := p.viaThis || p.parts.any Part.member

/-- An assignment to the path is accepted (`TreeGenerator.cpp:1004-1010`). -/
def mayAssign (m : Method) (p : Path) : Bool :=
  !(p.isMember && m.const) && !(p.isConst m && !(m.special && p.isMember))

/-- `++` and `--` of the path are accepted (`TreeGenerator.cpp:1480-1482`). -/
def mayStep (m : Method) (p : Path) : Bool := !(p.isConst m && !(m.special && p.isMember))

/-- A statement `path = …;` of a method is accepted, and `p` is the path it assigns to. -/
def assigns (w : World) (m : Method) (toks : List Tok) (b : Scope) (p : Path) : Prop :=
  ∃ r, withThis w m.owner toks b = .path p r ∧ mayAssign m p = true

/-- A statement `path++;` of a method is accepted, and `p` is the path it changes. -/
def steps (w : World) (m : Method) (toks : List Tok) (b : Scope) (p : Path) : Prop :=
  ∃ r, withThis w m.owner toks b = .path p r ∧ mayStep m p = true

/-- The method that is called: `isConstMethod()`, `isStatic()`, whether it is a plain method (neither constructor nor
destructor), and whether it belongs to the same class (`getEnclosingScope`). -/
structure Callee where
  const : Bool
  static : Bool
  plain : Bool
  sameScope : Bool

/-- A call through the path is accepted (`TreeGenerator.cpp:1655-1667`). -/
def mayCall (m : Method) (p : Path) (c : Callee) : Bool :=
  !(m.const && c.sameScope && !c.const && c.plain) && !(p.isConst m && !c.const) &&
    !(c.sameScope && m.static && !c.static && c.plain)

/-! ## Run time -/

/-- What a symbol is at run time: an object with its scope (an object behind a reference stands for the reference,
`mThis`), a class, or a namespace. -/
inductive Thing where
  | object (s : Scope)
  | scope (s : Scope)

/-- The object behind a reference without a value: `Repository::createUserType` without initialization defines
neither members nor methods nor `base`.  The parent is the scope around the class, or the object that the reference is
a member of (`VirtualMachine/Repository.cpp:218-229`, `340`). -/
def nullObject (around : Scope) : Scope := .mk .object [] [] [] [] .null around

/-- The symbol becomes a member of the objects of the class (`VirtualMachine/Repository.cpp:313-330`): `base`, and the
non-static members. -/
def instanceSymbol (w : World) (e : String × Sym) : Bool :=
  e.1 == "base" || match w.entity e.2.id with
    | .blueprint _ _ true => true
    | _ => false

/-- An object of a class (`Repository::createUserType`, `VirtualMachine/Repository.cpp:270-360`): an object for every
non-static member, under the same name and with the same access level, and a `base` object for the base class, whose
parent is the one of the derived class (line 293).  Simplifications: the symbols keep their identities; static methods
are treated like the others. -/
def instantiate (w : World) : Scope → Scope → Scope
  | .null, _ => .null
  | .mk _ L _ M _ b p, around => .mk .object (L.filter (instanceSymbol w)) [] M [] (instantiate w b p) around

inductive Value where
  /-- the symbol is found and is an object -/
  | symbol (id : Nat)
  /-- `NullPointerException` is raised, which the script can catch -/
  | nullPointer
  /-- the interpreter ends with an error -/
  | error
  | undefined
  deriving DecidableEq, Repr

/-- `TreeInterpreter::evaluateSymbolExpression` (`AST/TreeInterpreter.cpp:426-468`). -/
def evaluate (thing : Nat → Thing) : List String → Scope → Value
  | [], _ => .undefined
  | n :: ns, s =>
    match s with
    | .null => .error
    | _ =>
      match Scope.resolve s n false .designtime with
      | .threw => .error
      | .undefined => .undefined
      | .none => .nullPointer
      | .found (.meth _) => .error
      | .found (.sym y) =>
        match ns with
        | [] => match thing y.id with
          | .object _ => .symbol y.id
          | .scope _ => .error
        | _ :: _ => match thing y.id with
          | .object s' => evaluate thing ns s'
          | .scope s' => evaluate thing ns s'

/-- `TreeInterpreter::resolveRValue` and `resolveLValue` (`AST/TreeInterpreter.cpp:847-890`), as assignments call
them (without restriction to the current scope, level `Designtime`).  Without a result `AccessViolation` ends the
interpreter. -/
def target (thing : Nat → Thing) : List String → Scope → Value
  | [], _ => .undefined
  | n :: ns, s =>
    match s with
    | .null => .error
    | _ =>
      match Scope.resolve s n false .designtime with
      | .threw => .error
      | .undefined => .undefined
      | .none => .error
      | .found (.meth _) => .error
      | .found (.sym y) =>
        match ns with
        | [] => match thing y.id with
          | .object _ => .symbol y.id
          | .scope _ => .error
        | _ :: _ => match thing y.id with
          | .object s' => target thing ns s'
          | .scope s' => target thing ns s'

/-- `TreeInterpreter::resolveMethod` (`AST/TreeInterpreter.cpp:892-933`), called at level `Private`
(`visitMethodExpression`); `only` is `onlyCurrentScope`. -/
def callee (thing : Nat → Thing) (args : List String) : List String → Scope → Bool → Res Meth
  | [], _, _ => .undefined
  | [n], s, _ => match s with
    | .null => .threw
    | .mk .symbol .. => .none
    | s => Scope.resolveMethod s n args false .priv
  | n :: ns, s, only => match s with
    | .null => .threw
    | s =>
      match Scope.resolve s n only .priv with
      | .threw => .threw
      | .undefined => .undefined
      | .none => .none
      | .found (.meth _) => .threw
      | .found (.sym y) => match thing y.id with
        | .object s' => callee thing args ns s' true
        | .scope s' => callee thing args ns s' true

/-- The method that `evaluateMethodExpression` calls (`AST/TreeInterpreter.cpp:283-299`; `none` stands for
`NullPointerException`); `around` is `getEnclosingMethodScope(scope)`. -/
def calls (thing : Nat → Thing) (args : List String) (path : List String) (s around : Scope) : Res Meth :=
  match callee thing args path s false with
  | .none => callee thing args path around false
  | r => r

end Names
end Verif
