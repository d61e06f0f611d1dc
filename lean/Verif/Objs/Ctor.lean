import Verif.Scope.Lemmas

/-! # `new` and destruction: which constructor and which destructor runs

Models `Object::Constructor` and `Object::Destructor` (`Core/Object.cpp:158-193`, `213-234`), `process_new` and
`process_method` of `Core/AST/TreeGenerator.cpp` as far as they look up the constructor,
`TreeInterpreter::evaluateNewExpression` (`Core/AST/TreeInterpreter.cpp:330-356`), and the default constructor that
`Analyser::createBluePrint` adds.  The lookup itself is `Scope.resolveMethod`.  Paths are relative to
`/repo/Projects/Core`.

Simplifications: the types of the arguments are the same when the call is checked and when it is made; static
constructors, which are not copied into the object, and abstract ones do not occur; what the constructor does when
it runs is not modelled here. -/

namespace Verif.Objs

open Scope (Meth Vis Res resolveMethod)

/-- A class as it is looked up in: the methods of the class itself, those of the class it extends, and so on.  The
built-in class `Object`, which every such chain ends with, is not in the list. -/
abbrev Chain := List (List Meth)

/-- `Core/Designtime/BuildInTypes/UserType.cpp:34-42`: the only method of `Object`. -/
def objectConstructor : Meth := { id := 0, name := "Constructor", vis := .pub, sig := [] }

/-- `Core/Designtime/Analyser.cpp:205-219`: a class without any constructor gets a public one without parameters.
`BluePrintObject::hasConstructor` (`Core/Designtime/BluePrintObject.cpp:227-236`) asks for constructors that are
private or better; the base class is not known at that time (`Core/VirtualMachine/Repository.cpp:501`). -/
def addDefault (id : Nat) (methods : List Meth) : List Meth :=
  if methods.any (fun m => m.name == "Constructor" && decide (Vis.priv ≤ m.vis)) then methods
  else methods ++ [{ id := id, name := "Constructor", vis := .pub, sig := [] }]

/-- `Core/VirtualMachine/Repository.cpp:265-375`: the object that `createUserType` makes of the class: the base
object is created first and defined as `base`, then the methods are copied.  The parent is not asked by the
lookups below. -/
def objectOf : Chain → Scope.Scope
  | [] => .mk .object [] [] [objectConstructor] [] .null .null
  | l :: c => .mk .object [("base", ⟨0, .pub⟩)] [] l [] (objectOf c) .null

/-- `Core/VirtualMachine/Repository.cpp:480-510`: the class as the compiler looks it up: the base class is defined
as `base`. -/
def classOf : Chain → Scope.Scope
  | [] => .mk .method [] [] [objectConstructor] [] .null .null
  | l :: c => .mk .method [("base", ⟨0, .pub⟩)] [] l [] (classOf c) .null

/-- What comes of `new C(arguments)`. -/
inductive New
  /-- the compiler finds no constructor (`TreeGenerator.cpp:1617-1626`) -/
  | rejected
  /-- the exception "no appropriate constructor found" when the expression is evaluated (`Object.cpp:187-190`) -/
  | notFound
  /-- the object is created and the constructor runs -/
  | runs (m : Meth)
  deriving DecidableEq, Repr

/-- `Core/Object.cpp:175-190`, `Object::Constructor`. -/
def construct (c : Chain) (args : List String) : New :=
  match resolveMethod (objectOf c) "Constructor" args true .prot with
  | .found m => .runs m
  | _ => .notFound

/-- `Core/AST/TreeGenerator.cpp:1687-1722` with `process_method` (`1617`) and `resolveMethod` (`2384-2410`): the
compiler looks the constructor up in the class, privately, wherever `new` is written. -/
def compileNew (c : Chain) (args : List String) : Option Meth :=
  match resolveMethod (classOf c) "Constructor" args true .priv with
  | .found m => some m
  | _ => none

/-- `new C(arguments)`: compiled, then evaluated (`Core/AST/TreeInterpreter.cpp:330-356`). -/
def newExpr (c : Chain) (args : List String) : New :=
  match compileNew c args with
  | none => .rejected
  | some _ => construct c args

/-- `Core/Object.cpp:213-234`, `Object::Destructor`: the destructor that runs when an object is destroyed. -/
def destructorOf (c : Chain) : Option Meth :=
  match resolveMethod (objectOf c) "Destructor" [] true .priv with
  | .found m => some m
  | _ => none

end Verif.Objs
