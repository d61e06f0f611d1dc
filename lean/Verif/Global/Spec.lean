import Verif.Global.Model

/-!
# What a program declares

A program is a sequence of declarations, each in a scope.  A class is known by its name, preceded by the names of the namespaces and
classes around it.  The name of a type means the class of that name in the innermost scope around the place where it is used.
Only the data types (`Path`, `RType`, `Sym`, `Cls`, `World`) are those of the model.
-/

namespace Verif.Global

open Verif.Str (Text)
open Verif.Decl (Node TypeDecl Vis Layout Ancestor Relation Arg Param)

/-- The name of something from outside: `A.B.c`. -/
def spelled : Path → Text → Text
  | [], x => x
  | n :: p, x => spelled p n ++ '.' :: x

/-- What is declared. -/
inductive Thing where
  | space (vis : Vis)
  | cls (vis : Vis) (args : List Arg) (ancestors : List Ancestor) (body : Bool)
  | iface (vis : Vis) (args : List Arg) (ancestors : List Ancestor)
  | enum (vis : Vis)
  | member (vis : Vis) (type : TypeDecl)
  | object (vis : Vis) (type : TypeDecl)
  | method (vis : Vis) (type : TypeDecl) (params : List Param)

/-- A declaration in its scope. -/
structure Event where
  scope : Path
  name : Text
  thing : Thing

/-- Classes, interfaces and enumerations are types. -/
def Event.isType (e : Event) : Bool :=
  match e.thing with
  | .cls .. => true
  | .iface .. => true
  | .enum _ => true
  | _ => false

/-- Is a class. -/
def Event.isClass (e : Event) : Bool :=
  match e.thing with
  | .cls .. => true
  | _ => false

/-- Is an interface. -/
def Event.isInterface (e : Event) : Bool :=
  match e.thing with
  | .iface .. => true
  | _ => false

/-- Namespaces may be opened again. -/
def Event.isSpace (e : Event) : Bool :=
  match e.thing with
  | .space _ => true
  | _ => false

/-- Methods may share a name. -/
def Event.isMethod (e : Event) : Bool :=
  match e.thing with
  | .method .. => true
  | _ => false

/-- `namespace A.B` opens `A` and, in it, `B`. -/
def spaces (p : Path) (v : Vis) : List Text → List Event
  | [] => []
  | n :: ns => ⟨p, n, .space v⟩ :: spaces (n :: p) v ns

mutual

/-- The declarations of a declaration: itself and, for what has a body, those in it. -/
def declared (p : Path) (cls : Bool) : Node → List Event
  | .object v _ _ ty as body => ⟨p, ty.name, .cls v ty.args as body.isSome⟩ :: declaredIn (ty.name :: p) body
  | .enum v _ ty _ => [⟨p, ty.name, .enum v⟩]
  | .interface v _ ty as body => ⟨p, ty.name, .iface v ty.args as⟩ :: declaredAll (ty.name :: p) true body
  | .library _ _ => []
  | .space v _ ns body => spaces p v ns ++ declaredAll (ns.reverse ++ p) false body
  | .member v l _ ty n _ _ _ => [⟨p, n, if cls ∧ l ≠ .stat then .member v ty else .object v ty⟩]
  | .method v _ _ ty n ps _ _ _ _ => [⟨p, n, .method v ty ps⟩]

/-- The declarations of a body. -/
def declaredAll (p : Path) (cls : Bool) : List Node → List Event
  | [] => []
  | d :: ds => declared p cls d ++ declaredAll p cls ds

/-- The declarations of a class that may have no body. -/
def declaredIn (p : Path) : Option (List Node) → List Event
  | none => []
  | some ds => declaredAll p true ds

end

/-- The types every program has without declaring them. -/
def predefined : List Text :=
  ["bool".toList, "double".toList, "float".toList, "int16".toList, "int".toList, "int64".toList, "string".toList, "void".toList,
    "Object".toList]

/-- What every program has. -/
def builtinEvents : List Event :=
  predefined.map (fun t => ⟨[], t, .cls .pub [] [] false⟩) ++ [⟨[], "null".toList, .object .pub ⟨"Object".toList, [], .modify⟩⟩]

theorem builtinEvents_eq : builtinEvents =
    builtinTypes.map (fun t => ⟨[], t, .cls .pub [] [] false⟩) ++ [⟨[], "null".toList, .object .pub ⟨"Object".toList, [], .modify⟩⟩] := rfl

/-- All declarations of the files of a program, in their order. -/
def declarations (files : List (List Node)) : List Event := builtinEvents ++ files.flatMap (declaredAll [] false)

/-- A type of this name is declared in the scope. -/
def hasType (evs : List Event) (p : Path) (x : Text) : Bool := evs.any fun e => e.isType && e.scope = p && e.name = x

/-- The type a name means in a scope: the one in the innermost scope around it that has a type of this name.  A name that no scope
around it has stands for itself: it may be the full name of a type. -/
def meant (evs : List Event) : Path → Text → Text
  | [], x => x
  | n :: p, x => if hasType evs (n :: p) x then spelled (n :: p) x else meant evs p x

/-- A type with all its names replaced by what they mean. -/
def meantType (m : Text → Text) (n : Text) (as : List Arg) : RType := ⟨m n, as.map fun a => (m a.type, m a.constraint)⟩

/-- What the tables hold of a declaration; `m` is the meaning of the names of types where it stands. -/
def Recorded (w : World) (m : Text → Text) (e : Event) : Prop :=
  match e.thing with
  | .space _ => ∃ v, w.symbols.find (e.scope, e.name) = some (.space v)
  | .cls v args as body =>
    w.symbols.find (e.scope, e.name) = some (.type v (spelled e.scope e.name)) ∧
      ∃ parents, w.classes.find (spelled e.scope e.name) = some ⟨e.scope, e.name, args.map fun a => (m a.type, m a.constraint), parents⟩ ∧
        parents = as.map (fun a => (a.relation, meantType m a.name a.args)) ++
          (if body ∧ ∀ a ∈ as, a.relation ≠ .extends then [(.extends, ⟨"Object".toList, []⟩)] else [])
  | .iface v args as =>
    w.symbols.find (e.scope, e.name) = some (.type v (spelled e.scope e.name)) ∧
      w.classes.find (spelled e.scope e.name) = some ⟨e.scope, e.name, args.map fun a => (m a.type, m a.constraint),
        as.map fun a => (a.relation, meantType m a.name a.args)⟩
  | .enum v =>
    w.symbols.find (e.scope, e.name) = some (.type v (spelled e.scope e.name)) ∧
      w.classes.find (spelled e.scope e.name) = some ⟨e.scope, e.name, [], []⟩
  | .member v ty => w.symbols.find (e.scope, e.name) = some (.member v (meantType m ty.name ty.args))
  | .object v ty => w.symbols.find (e.scope, e.name) = some (.object v (meantType m ty.name ty.args))
  | .method v ty ps =>
    ⟨e.scope, e.name, v, meantType m ty.name ty.args, ps.map fun a => meantType m a.type.name a.type.args⟩ ∈ w.methods

/-- The names of types in a type. -/
def namesIn (n : Text) (as : List Arg) : List Text := n :: as.flatMap fun a => [a.type, a.constraint]

/-- The names of types a declaration uses. -/
def Event.uses (e : Event) : List Text :=
  match e.thing with
  | .space _ => []
  | .cls _ args as _ => args.flatMap (fun a => [a.type, a.constraint]) ++ as.flatMap fun a => namesIn a.name a.args
  | .iface _ args as => args.flatMap (fun a => [a.type, a.constraint]) ++ as.flatMap fun a => namesIn a.name a.args
  | .enum _ => []
  | .member _ ty => namesIn ty.name ty.args
  | .object _ ty => namesIn ty.name ty.args
  | .method _ ty ps => namesIn ty.name ty.args ++ ps.flatMap fun a => namesIn a.type.name a.type.args

/-- Two declarations have the same name in the same scope. -/
def Same (a b : Event) : Prop := a.scope = b.scope ∧ a.name = b.name

/-- A declaration that is not allowed behind the ones before it: a namespace, if something of its name is there and is no namespace;
any other declaration but that of a method, if something of its name is there and is no method. -/
def Refused (before : List Event) (e : Event) : Prop :=
  if e.isSpace then (∃ a ∈ before, Same a e) ∧ ∀ a ∈ before, Same a e → a.isSpace = false
  else e.isMethod = false ∧ ∃ a ∈ before, Same a e ∧ a.isMethod = false

/-- No declaration is refused. -/
def NoClash : List Event → List Event → Prop
  | _, [] => True
  | before, e :: es => ¬ Refused before e ∧ NoClash (before ++ [e]) es

/-! ## When the program treats names as meant -/

/-- The names of the declarations and of the scopes around them are identifiers. -/
def Plain (evs : List Event) : Prop := ∀ e ∈ evs, ∀ n ∈ e.name :: e.scope, n ≠ [] ∧ '.' ∉ n

/-- No name of a type — used, or of a class that is declared — is the name of something else that is declared before in a scope
around it. -/
def Clear (evs : List Event) : Prop :=
  ∀ before e after, evs = before ++ e :: after → ∀ x ∈ e.uses ++ (if e.isClass then [e.name] else []),
    ∀ o ∈ before, o.name = x → o.scope <:+ e.scope → o.isType = true

/-- No class is declared in a namespace or class after a type of the same name in the same scope or in one around it; the global scope
does not count. -/
def Unshadowed (evs : List Event) : Prop :=
  ∀ before e after, evs = before ++ e :: after → e.isClass = true →
    ∀ o ∈ before, o.isType = true → o.name = e.name → o.scope <:+ e.scope → o.scope = []

/-- Types are declared before they are used. -/
def DeclaredFirst (evs : List Event) : Prop :=
  ∀ before e after, evs = before ++ e :: after → ∀ x ∈ e.uses, ∀ o ∈ e :: after, o.isType = true → o.name = x →
    o.scope <:+ e.scope → o.scope = []

/-- The heads of interfaces use only full names. -/
def InterfacesQualified (evs : List Event) : Prop :=
  ∀ e ∈ evs, e.isInterface = true → ∀ x ∈ e.uses, meant evs e.scope x = x

end Verif.Global
