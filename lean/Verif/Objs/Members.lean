import Verif.AMap
import Verif.Generic.Model

/-! # The members of a new object

Models `Analyser::createMemberStub` (`Core/Designtime/Analyser.cpp:405-460`), the copies of members that
`BluePrintObject::replicate` and `fromPrototype` make for instances of generic classes
(`Core/Designtime/BluePrintObject.cpp:135-180`, `396-459`), and the members that `Repository::createUserType`
(`Core/VirtualMachine/Repository.cpp:318-352`) gives to a new object.  Paths are relative to `/repo/Projects/Core`. -/

namespace Verif.Objs

open Generic (Constraint lookupType buildRuntimeConstraints)

/-- `Core/Runtime/AtomicValue.h`: a value with its type.  Simplification: values of the types `double` and `float`
are those of the literals they were written with. -/
inductive Val
  | bool (b : Bool)
  | int (i : Int)
  | number (literal : String)
  | str (s : String)
  deriving DecidableEq, Repr

/-- A member as it is declared: `static`, its type with type arguments, and the value behind `=`, if there is one. -/
structure MemberDecl where
  name : String
  type : String
  args : List Constraint := []
  init : Option Val := none
  static : Bool := false
  deriving Repr

/-- A member of a class: the blueprint with its type, its type arguments and its value; a static member is an object
of its own (`isBlueprint = false`). -/
structure BlueMember where
  type : String
  args : List Constraint
  value : Val
  isBlueprint : Bool
  deriving Repr

/-- `Core/Designtime/Analyser.cpp:419-458`: the value is the declared one, else the empty string if the declared type
is `string`, else the number 0. -/
def createMember (d : MemberDecl) : BlueMember :=
  { type := d.type
    args := d.args
    value := d.init.getD (if d.type = "string" then .str "" else .int 0)
    isBlueprint := !d.static }

/-- The members of a class: the symbols it defines, in order of declaration (`none` is the exception
`DuplicateIdentifier` of `Core/Scope.cpp:177-189`). -/
def defineMembers : List MemberDecl → AMap String BlueMember → Option (AMap String BlueMember)
  | [], ms => some ms
  | d :: ds, ms =>
    match ms.find d.name with
    | some _ => none
    | none => defineMembers ds (ms.set d.name (createMember d))

/-- `Core/Designtime/BluePrintObject.cpp:425-446`: the replica gets the members that are blueprints. -/
def replicateMembers (ms : AMap String BlueMember) : AMap String BlueMember := ms.filter fun e => e.2.isBlueprint

/-- `Core/Designtime/BluePrintObject.cpp:148-167`: the types of the members of the replica are replaced. -/
def fromPrototypeMembers (cs : List Constraint) (ms : AMap String BlueMember) : AMap String BlueMember :=
  (replicateMembers ms).map fun e =>
    (e.1, if e.2.args ≠ [] then { e.2 with args := buildRuntimeConstraints e.2.args cs }
      else { e.2 with type := lookupType cs e.2.type, args := [] })

/-- A class: declared as it is, or an instance of a generic class. -/
inductive Cls
  | plain (members : List MemberDecl)
  | inst (members : List MemberDecl) (cs : List Constraint)

/-- The members of the blueprint of the class. -/
def Cls.blueprint : Cls → Option (AMap String BlueMember)
  | .plain ds => defineMembers ds []
  | .inst ds cs => (defineMembers ds []).map (fromPrototypeMembers cs)

/-- A member of an object: its type and its value (`Runtime::Object`). -/
structure ObjMember where
  type : String
  args : List Constraint
  value : Val
  deriving Repr

/-- `Core/VirtualMachine/Repository.cpp:319-352`: each blueprint among the symbols of the class becomes a member with
the value of the blueprint. -/
def createMembers (ms : AMap String BlueMember) : AMap String ObjMember :=
  (ms.filter fun e => e.2.isBlueprint).map fun e => (e.1, ⟨e.2.type, e.2.args, e.2.value⟩)

/-- `Core/VirtualMachine/Repository.cpp:265-352`: the object made of a class and its ancestors: its own members, then
those of the base object, and so on. -/
def createObject : List Cls → Option (List (AMap String ObjMember))
  | [] => some []
  | c :: cs =>
    match createObject cs, c.blueprint with
    | some o, some ms => some (createMembers ms :: o)
    | _, _ => none

/-- `AtomicValue::toStdString` (`Core/Runtime/AtomicValue.cpp:281-296`), by which values are printed and become
strings.  `number` prints the value of a literal. -/
def Val.text (number : String → String) : Val → String
  | .bool b => if b then "1" else "0"
  | .int i => toString i
  | .number l => number l
  | .str s => s

end Verif.Objs
