import Verif.AMap

/-!
# Generic types

Model of `Projects/Core/Core/Common/PrototypeConstraint.cpp`, of `Method::initialize`
(`Projects/Core/Core/Common/Method.cpp`), of `BluePrintObject::fromPrototype`
(`Projects/Core/Core/Designtime/BluePrintObject.cpp`), of `mergeConstraints` and
`Parser::buildRuntimeConstraintTypename` (`Projects/Core/Core/Designtime/Parser/Parser.cpp`) and of the part of
`Projects/Core/Core/VirtualMachine/Repository.cpp` that creates instantiated types.
-/

namespace Verif
namespace Generic

/-- `PrototypeConstraint.h`: for a generic class one of its type parameters (`design`), for a use of a generic
class one of its type arguments (`run`); `bound` is the type behind the colon. -/
structure Constraint where
  index : Nat
  design : String
  run : String
  bound : String := ""
  deriving DecidableEq, Repr

/-- `PrototypeConstraint::operator==` (`PrototypeConstraint.cpp:31-34`): the design time type is compared with
itself. -/
def Constraint.same (a b : Constraint) : Bool := a.index = b.index && a.design = a.design

/-- `PrototypeConstraints::operator==` (47-61). -/
def sameAll : List Constraint → List Constraint → Bool
  | [], [] => true
  | a :: as, b :: bs => a.same b && sameAll as bs
  | _, _ => false

/-- `lookupConstraint` (138-147); `none` is the default constructed constraint, which has no run time type. -/
def lookupConstraint (cs : List Constraint) (type : String) : Option Constraint := cs.find? fun c => c.design = type

/-- `lookupType` (149-158). -/
def lookupType (cs : List Constraint) (type : String) : String :=
  match lookupConstraint cs type with
  | some c => c.run
  | none => type

/-- `extractTypes` (103-116). -/
def extractTypes (cs other : List Constraint) : String :=
  "<" ++ other.foldl (fun result c => (if result ≠ "" then result ++ "," else result) ++ lookupType cs c.design) "" ++ ">"

/-- `buildRawConstraints` (63-82): the arguments, filled up with `Object`. -/
def buildRawConstraints (this other : List Constraint) : List Constraint :=
  other ++ (this.drop other.length).map fun c => ⟨c.index, c.design, "Object", ""⟩

/-- `buildRuntimeConstraints` (84-101). -/
def buildRuntimeConstraints (this other : List Constraint) : List Constraint :=
  this.map fun c =>
    match lookupConstraint other c.design with
    | some d => if d.run ≠ "" then d else ⟨c.index, c.design, "Object", ""⟩
    | none => ⟨c.index, c.design, "Object", ""⟩

/-- The run time type of an argument, `Object` if there is none (`Parser.cpp:102`). -/
def Constraint.argument (c : Constraint) : String := if c.run = "" then "Object" else c.run

/-- The loop of `buildRuntimeConstraintTypename` (`Parser.cpp:101-107`). -/
def arguments : List Constraint → String
  | [] => ""
  | [c] => c.argument
  | c :: cs => c.argument ++ "," ++ arguments cs

/-- `Parser::buildRuntimeConstraintTypename` (`Parser.cpp:93-112`). -/
def runtimeName (name : String) (cs : List Constraint) : String :=
  if cs = [] then name else name ++ "<" ++ arguments cs ++ ">"

/-- `mergeConstraints` (`Parser.cpp:49-70`); `none` is the exception for different sizes. -/
def mergeConstraints : List Constraint → List Constraint → Option (List Constraint)
  | [], [] => some []
  | d :: ds, r :: rs =>
    match mergeConstraints ds rs with
    | some cs => some (⟨d.index, d.design, r.run, d.bound⟩ :: cs)
    | none => none
  | _, _ => none

/-- A type with its arguments (`Common/TypeDeclaration.h`); `combined` is the name the type is known by.
Simplification: mutability is left out. -/
structure TypeDecl where
  name : String
  cs : List Constraint := []
  combined : String := name
  deriving DecidableEq, Repr

/-- A parameter of a method (`Runtime/Parameter.h`).  Simplification: mutability, reference and the value are
left out, the instantiation copies them. -/
structure Param where
  name : String
  type : TypeDecl
  hasDefault : Bool := false
  byRef : Bool := false
  deriving DecidableEq, Repr

/-- A token of a method body: its content, and whether it is an identifier. -/
structure Tok where
  identifier : Bool
  content : String
  deriving DecidableEq, Repr

/-- The part of `Common::Method` that `initialize` reads or changes. -/
structure Method where
  name : String
  ret : TypeDecl
  sig : List Param
  tokens : List Tok
  initialized : Bool := false
  deriving DecidableEq, Repr

/-- `provideAtomicTypes` (`Common/Types.cpp`). -/
def atomicTypes : List String := ["bool", "double", "float", "int", "int16", "int32", "int64", "string", "void"]

/-- `initialize`, one parameter (`Method.cpp:186-207`). -/
def Param.initialize (cs : List Constraint) (p : Param) : Param :=
  let base := lookupType cs p.type.name
  let type := if p.type.cs = [] then base else base ++ extractTypes cs p.type.cs
  if p.type.name ≠ type then
    { p with type := ⟨type, [], type⟩, byRef := !atomicTypes.contains type }
  else p

/-- `initialize`, one token (`Method.cpp:212-220`). -/
def Tok.initialize (cs : List Constraint) (t : Tok) : Tok :=
  if t.identifier then
    let type := lookupType cs t.content
    if type ≠ t.content then { t with content := type } else t
  else t

/-- `Method::initialize` (`Method.cpp:162-224`). -/
def Method.initialize (cs : List Constraint) (m : Method) : Method :=
  if m.initialized then m
  else
    let base := lookupType cs m.ret.name
    let type := if m.ret.cs = [] then base else base ++ extractTypes cs m.ret.cs
    { m with
      ret := { m.ret with combined := type, cs := [] }
      sig := m.sig.map (Param.initialize cs)
      tokens := m.tokens.map (Tok.initialize cs)
      initialized := true }

/-- A member variable: a symbol of the class whose blueprint has the type of the member. -/
structure Member where
  name : String
  type : String
  cs : List Constraint := []
  deriving DecidableEq, Repr

/-- A class (`Designtime/BluePrintObject.h`): its type parameters `cs`, direct ancestors, members, methods.
Simplification: attributes that the instantiation copies are left out. -/
structure Class where
  name : String
  cs : List Constraint
  ancestors : List TypeDecl := []
  members : List Member := []
  methods : List Method := []
  deriving DecidableEq, Repr

/-- `fromPrototype`, one member (`BluePrintObject.cpp:148-167`). -/
def Member.fromPrototype (cs : List Constraint) (m : Member) : Member :=
  if m.cs ≠ [] then { m with cs := buildRuntimeConstraints m.cs cs }
  else { m with type := lookupType cs m.type }

/-- `BluePrintObject::fromPrototype` (135-179) with `replicate` (396-459), which copies the ancestors. -/
def Class.fromPrototype (cs : List Constraint) (c : Class) : Class :=
  { name := runtimeName c.name cs
    cs := []
    ancestors := c.ancestors.map fun a => ⟨a.name, a.cs, a.name⟩
    members := c.members.map (Member.fromPrototype cs)
    methods := c.methods.map (Method.initialize cs) }

inductive Err where
  | mismatch
  | unknown
  | duplicate
  deriving DecidableEq, Repr

/-- `Repository::createBluePrintFromPrototype` (`Repository.cpp:55-99`), with `addBluePrint` (43-51).
Simplification: the check of the bounds and the initialisation of the arguments and of the new class
(which instantiates the types of its members) are left out. -/
def createBluePrint (R : AMap String Class) (c : Class) (cs : List Constraint) : Except Err (AMap String Class) :=
  if !sameAll c.cs cs then .error .mismatch
  else
    match mergeConstraints c.cs cs with
    | none => .error .mismatch
    | some cs =>
      if cs.any fun d => (R.find d.run).isNone then .error .unknown
      else
        let new := c.fromPrototype cs
        if (R.find new.name).isSome then .error .duplicate else .ok ((new.name, new) :: R)

/-- `Repository::prepareType` (`Repository.cpp:755-774`). -/
def prepareType (R : AMap String Class) (t : TypeDecl) : Except Err (AMap String Class) :=
  match R.find (runtimeName t.name t.cs) with
  | some _ => .ok R
  | none =>
    match R.find t.name with
    | none => .error .unknown
    | some c => createBluePrint R c t.cs

end Generic
end Verif
