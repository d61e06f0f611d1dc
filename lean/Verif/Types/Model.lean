import Verif.AMap
import Verif.Str.Std

/-!
# The type system (`Projects/Core/Core/VirtualMachine/TypeSystem.{h,cpp}` and `Repository.cpp:607-753`)

and the dispatch of the built-in operators at run time (`Projects/Core/Core/Runtime/OperatorOverloading.cpp`,
`Runtime/BuildInTypes/*.cpp`, `Runtime/TypeCast.cpp`).

Simplifications: type names are the built-in names (an enumeration) or any other text; positions are dropped from errors;
of an operand at run time only its type is kept, since whether an operator is available depends on nothing else.
-/

namespace Verif.Types

open Verif.Str

/-- The built-in type names (Consts.h:105-124); `unary` is the pseudo type `__unary__`. -/
inductive BT where
  | bool | double | float | int16 | int32 | int64 | object | string | unary | void
deriving Repr, DecidableEq

/-- A type name. -/
inductive TName where
  | b (t : BT)
  | user (n : Text)
deriving Repr, DecidableEq

/-- `std::string::empty` of a type name. -/
def TName.isEmpty : TName → Bool
  | .user [] => true
  | _ => false

/-- The token types under which operations are registered (Common/Token.h:41-118). -/
inductive Op where
  | AND | ASSIGN | BITAND | BITCOMPLEMENT | BITOR | COMPARE_EQUAL | COMPARE_EQUAL_CONTENT | COMPARE_GREATER
  | COMPARE_GREATER_EQUAL | COMPARE_LESS | COMPARE_LESS_EQUAL | COMPARE_UNEQUAL | MATH_ADDITION | MATH_DIVIDE
  | MATH_MODULO | MATH_MULTIPLY | MATH_SUBTRACT | NAND | NOR | OPERATOR_DECREMENT | OPERATOR_INCREMENT
  | OPERATOR_SHIFT_LEFT | OPERATOR_SHIFT_RIGHT | OR | TYPECAST
deriving Repr, DecidableEq

/-- `TypeSystem::mTypeMap` (TypeSystem.h:22-80). -/
abbrev Table := AMap TName (AMap Op (AMap TName TName))

/-- The last part of `TypeSystem::define` (TypeSystem.cpp:37-43): an existing right type keeps its result. -/
def addRight (r t : TName) (rights : AMap TName TName) : AMap TName TName :=
  match rights.find r with
  | some _ => rights
  | none => rights.set r t

/-- `TypeSystem::define` (TypeSystem.cpp:27-44). -/
def define (l : TName) (o : Op) (r : TName) (t : TName) (tab : Table) : Table :=
  let ops := (tab.find l).getD []
  tab.set l (ops.set o (addRight r t ((ops.find o).getD [])))

/-- `TypeSystem::exists` (TypeSystem.cpp:46-59). -/
def isDefined (l : TName) (o : Op) (r : TName) (tab : Table) : Bool :=
  match tab.find l with
  | none => false
  | some ops =>
    match ops.find o with
    | none => false
    | some rights =>
      match rights.find r with
      | none => false
      | some t => !t.isEmpty

/-- The outcomes of `getType`. -/
inductive TypeRes where
  | ok (t : TName)
  | unknownIdentifier
  | unknownOperation
  | typeMismatch
deriving Repr, DecidableEq

/-- `TypeSystem::getType` (TypeSystem.cpp:66-79). -/
def getType (l : TName) (o : Op) (r : TName) (tab : Table) : TypeRes :=
  match tab.find l with
  | none => .unknownIdentifier
  | some ops =>
    match ops.find o with
    | none => .unknownOperation
    | some rights =>
      match rights.find r with
      | none => .typeMismatch
      | some t => .ok t

/-- One call of `define`. -/
structure Reg where
  left : TName
  op : Op
  right : TName
  result : TName
deriving Repr, DecidableEq

/-- A sequence of calls of `define`. -/
def registerAll (rs : List Reg) (tab : Table) : Table :=
  rs.foldl (fun t r => define r.left r.op r.right r.result t) tab

/-! ## Registration of user types -/

/-- What `initTypeSystem` reads of a method: its name, its parameter types and its result type. -/
structure OpMethod where
  name : Text
  params : List TName
  result : TName
deriving Repr, DecidableEq

/-- What `initTypeSystem` reads of a blueprint. -/
structure TypeDecl where
  name : TName
  isEnum : Bool
  methods : List OpMethod
  ancestors : List TName
deriving Repr, DecidableEq

/-- The registrations for an enumeration (Repository.cpp:615-660). -/
def enumRegs (n : TName) : List Reg :=
  [⟨n, .ASSIGN, n, n⟩, ⟨.b .int32, .ASSIGN, n, .b .int32⟩, ⟨.b .string, .ASSIGN, n, .b .string⟩,
   ⟨n, .COMPARE_EQUAL, n, .b .bool⟩, ⟨n, .COMPARE_LESS, n, .b .bool⟩, ⟨n, .COMPARE_LESS_EQUAL, n, .b .bool⟩,
   ⟨n, .COMPARE_GREATER, n, .b .bool⟩, ⟨n, .COMPARE_GREATER_EQUAL, n, .b .bool⟩, ⟨n, .COMPARE_UNEQUAL, n, .b .bool⟩,
   ⟨n, .COMPARE_EQUAL, .b .int32, .b .bool⟩, ⟨n, .COMPARE_LESS, .b .int32, .b .bool⟩,
   ⟨n, .COMPARE_LESS_EQUAL, .b .int32, .b .bool⟩, ⟨n, .COMPARE_GREATER, .b .int32, .b .bool⟩,
   ⟨n, .COMPARE_GREATER_EQUAL, .b .int32, .b .bool⟩, ⟨n, .COMPARE_UNEQUAL, .b .int32, .b .bool⟩,
   ⟨.b .int32, .COMPARE_EQUAL, n, .b .bool⟩, ⟨.b .int32, .COMPARE_LESS, n, .b .bool⟩,
   ⟨.b .int32, .COMPARE_LESS_EQUAL, n, .b .bool⟩, ⟨.b .int32, .COMPARE_GREATER, n, .b .bool⟩,
   ⟨.b .int32, .COMPARE_GREATER_EQUAL, n, .b .bool⟩, ⟨.b .int32, .COMPARE_UNEQUAL, n, .b .bool⟩,
   ⟨n, .MATH_ADDITION, n, n⟩, ⟨n, .MATH_DIVIDE, n, n⟩, ⟨n, .MATH_MODULO, n, .b .float⟩, ⟨n, .MATH_MULTIPLY, n, n⟩,
   ⟨n, .MATH_SUBTRACT, n, n⟩,
   ⟨.b .int32, .TYPECAST, n, .b .int32⟩, ⟨.b .string, .TYPECAST, n, .b .string⟩]

/-- How an operator method with one parameter is registered (Repository.cpp:664-724): with the class as result, with the
method's result type, or as a conversion to the method's result type. -/
inductive OpKind where
  | own (o : Op)
  | typed (os : List Op)
  | conversion
deriving Repr, DecidableEq

/-- The names tested by the `if` chain (Repository.cpp:664-724), in order. -/
def opKinds : List (Text × OpKind) :=
  [("operator=".toList, .own .ASSIGN), ("operator&".toList, .own .BITAND), ("operator|".toList, .own .BITOR),
   ("operator~".toList, .own .BITCOMPLEMENT), ("operator==".toList, .typed [.COMPARE_EQUAL, .COMPARE_EQUAL_CONTENT]),
   ("operator<".toList, .typed [.COMPARE_LESS]), ("operator<=".toList, .typed [.COMPARE_LESS_EQUAL]),
   ("operator>".toList, .typed [.COMPARE_GREATER]), ("operator>=".toList, .typed [.COMPARE_GREATER_EQUAL]),
   ("operator+".toList, .own .MATH_ADDITION), ("operator/".toList, .own .MATH_DIVIDE),
   ("operator%".toList, .own .MATH_MODULO), ("operator*".toList, .own .MATH_MULTIPLY),
   ("operator-".toList, .own .MATH_SUBTRACT), ("operator<<".toList, .own .OPERATOR_SHIFT_LEFT),
   ("operator>>".toList, .own .OPERATOR_SHIFT_RIGHT), ("=operator".toList, .conversion)]

/-- The registrations of one branch of the chain. -/
def kindRegs (n p result : TName) : OpKind → List Reg
  | .own o => [⟨n, o, p, n⟩]
  | .typed os => os.map fun o => ⟨n, o, p, result⟩
  | .conversion => [⟨result, .ASSIGN, n, result⟩, ⟨result, .TYPECAST, n, result⟩]

/-- The registrations for an operator method with one parameter (Repository.cpp:664-724). -/
def unaryMethodRegs (n : TName) (m : OpMethod) (p : TName) : List Reg :=
  match AMap.find m.name opKinds with
  | some k => kindRegs n p m.result k
  | none => []

/-- The registrations for one method (Repository.cpp:662-725). -/
def methodRegs (n : TName) (m : OpMethod) : List Reg :=
  match m.params with
  | [] =>
    if m.name = "operator--".toList then [⟨n, .OPERATOR_DECREMENT, .b .void, n⟩]
    else if m.name = "operator++".toList then [⟨n, .OPERATOR_INCREMENT, .b .void, n⟩]
    else []
  | [p] => unaryMethodRegs n m p
  | _ :: _ :: _ => []

/-- The registrations for a class (Repository.cpp:662-752). -/
def classRegs (d : TypeDecl) : List Reg :=
  d.methods.flatMap (methodRegs d.name) ++
  [⟨d.name, .COMPARE_EQUAL, .b .object, .b .bool⟩, ⟨.b .object, .COMPARE_EQUAL, d.name, .b .bool⟩,
   ⟨d.name, .ASSIGN, d.name, d.name⟩, ⟨d.name, .TYPECAST, d.name, d.name⟩,
   ⟨d.name, .COMPARE_EQUAL, d.name, .b .bool⟩, ⟨d.name, .COMPARE_EQUAL_CONTENT, d.name, .b .bool⟩] ++
  d.ancestors.flatMap fun a => [⟨a, .ASSIGN, d.name, a⟩, ⟨a, .TYPECAST, d.name, a⟩]

/-- `Repository::initTypeSystem` (Repository.cpp:607-753). -/
def initType (d : TypeDecl) (tab : Table) : Table :=
  if isDefined d.name .ASSIGN d.name tab then tab
  else if d.isEnum then registerAll (enumRegs d.name) tab
  else registerAll (classRegs d) tab

/-- All blueprints of a program, one after the other (Repository.cpp:575-604 is called for each of them). -/
def initTypes (ds : List TypeDecl) (tab : Table) : Table := ds.foldl (fun t d => initType d t) tab

/-! ## Run time -/

/-- The outcome of an operator at run time: the type of the value, or the exception. -/
inductive RunRes where
  | value (t : BT)
  | invalidOperation
  | notSupported
deriving Repr, DecidableEq

/-- All types an operand may have in the operators of the integer types and of `string`. -/
def anyAtomic : List BT := [.bool, .double, .float, .int16, .int32, .int64, .string]
/-- The same without `string`. -/
def anyNumber : List BT := [.bool, .double, .float, .int16, .int32, .int64]
/-- The same without `bool` and `string`. -/
def onlyNumber : List BT := [.double, .float, .int16, .int32, .int64]

/-- The right operand types for which the class of the left operand implements an operator; `[]` when the class does not
override it, so that `Object`'s version throws (Object.cpp:370-483).  Sources: BoolType.cpp:97-114, DoubleType.cpp:96-260,
FloatType.cpp:97-252, Int16Type.cpp:102-333, Int32Type.cpp:102-333, Int64Type.cpp:102-333, StringType.cpp:99-232. -/
def accepts (l : BT) (o : Op) : List BT :=
  match l with
  | .bool => match o with
    | .COMPARE_EQUAL => anyAtomic
    | _ => []
  | .double => match o with
    | .MATH_DIVIDE | .COMPARE_EQUAL | .COMPARE_GREATER | .COMPARE_GREATER_EQUAL | .COMPARE_LESS | .COMPARE_LESS_EQUAL
    | .MATH_MULTIPLY | .MATH_ADDITION | .MATH_SUBTRACT => anyNumber
    | _ => []
  | .float => match o with
    | .MATH_DIVIDE | .COMPARE_EQUAL | .COMPARE_GREATER | .COMPARE_GREATER_EQUAL | .COMPARE_LESS | .COMPARE_LESS_EQUAL
    | .MATH_MULTIPLY | .MATH_ADDITION | .MATH_SUBTRACT => onlyNumber
    | _ => []
  | .int16 | .int32 | .int64 => match o with
    | .BITAND | .BITOR => anyNumber
    | .MATH_DIVIDE | .COMPARE_EQUAL | .COMPARE_GREATER | .COMPARE_GREATER_EQUAL | .COMPARE_LESS | .COMPARE_LESS_EQUAL
    | .MATH_MODULO | .MATH_MULTIPLY | .MATH_ADDITION | .MATH_SUBTRACT => anyAtomic
    | _ => []
  | .string => match o with
    | .COMPARE_EQUAL | .COMPARE_GREATER | .COMPARE_GREATER_EQUAL | .COMPARE_LESS | .COMPARE_LESS_EQUAL | .MATH_ADDITION
    | .OPERATOR_SHIFT_LEFT => anyAtomic
    | _ => []
  | _ => []

/-- The left operand types for which `operator_binary_*` has a branch: `bitand`, `bitcomplement`, `bitor` and the shifts miss
`int16` and `int64` (OperatorOverloading.cpp:100-243, 768-872), the others have all (245-295, 345-767, 874-924). -/
def dispatched (o : Op) (l : BT) : Bool :=
  match o with
  | .BITAND | .BITCOMPLEMENT | .BITOR | .OPERATOR_SHIFT_LEFT | .OPERATOR_SHIFT_RIGHT =>
    l == .bool || l == .double || l == .float || l == .int32 || l == .string || l == .void
  | _ =>
    l == .bool || l == .double || l == .float || l == .int16 || l == .int32 || l == .int64 || l == .string || l == .void

/-- One `operator_binary_*` function: convert the left operand to its own type, apply the operator of its class, store the
result back into the left operand. -/
def opBinary (o : Op) (l r : BT) : RunRes :=
  if dispatched o l then
    if (accepts l o).contains r then .value l else .invalidOperation
  else .invalidOperation

/-- `TreeInterpreter::evaluateBinaryExpression` on operands of types `l` and `r` (TreeInterpreter.cpp:121-167). -/
def runBinary (o : Op) (l r : BT) : RunRes :=
  match o with
  | .BITAND | .BITCOMPLEMENT | .BITOR | .MATH_ADDITION | .MATH_DIVIDE | .MATH_MODULO | .MATH_MULTIPLY | .MATH_SUBTRACT
  | .OPERATOR_SHIFT_LEFT | .OPERATOR_SHIFT_RIGHT => opBinary o l r
  | _ => .notSupported

/-- `TreeInterpreter::evaluateBooleanBinaryExpression` (TreeInterpreter.cpp:169-225): the boolean operators only use the
truth of the operands, `!=` negates `==`, the result is a `BoolType`. -/
def runBoolean (o : Op) (l r : BT) : RunRes :=
  match o with
  | .AND | .NAND | .NOR | .OR => .value .bool
  | .COMPARE_EQUAL | .COMPARE_GREATER | .COMPARE_GREATER_EQUAL | .COMPARE_LESS | .COMPARE_LESS_EQUAL =>
    match opBinary o l r with
    | .value _ => .value .bool
    | e => e
  | .COMPARE_UNEQUAL =>
    match opBinary .COMPARE_EQUAL l r with
    | .value _ => .value .bool
    | e => e
  | _ => .notSupported

/-- `operator_binary_assign` for a target of an atomic type (OperatorOverloading.cpp:30-99): the source value is converted
to the target type, so every atomic source is accepted. -/
def runAssign (l r : BT) : RunRes :=
  if l = r then .value l
  else if anyAtomic.contains l then .value l
  else .invalidOperation

/-- `typecast` (Runtime/TypeCast.cpp:26-87) with the converting constructors of the target type
(BoolType.cpp:49-70, DoubleType.cpp:49-70, FloatType.cpp:49-70, Int16Type.cpp:47-70, Int32Type.cpp:47-70,
Int64Type.cpp:47-70, StringType.cpp:49-72): all of them take every atomic type. -/
def runCast (src target : BT) : RunRes :=
  if anyAtomic.contains target && anyAtomic.contains src then .value target else .invalidOperation

/-- `operator_unary_minus`, `operator_unary_plus` (OperatorOverloading.cpp:1046-1165): `minus` is implemented by the number
classes, `plus` by none. -/
def runUnary (o : Op) (l : BT) : RunRes :=
  match o with
  | .MATH_SUBTRACT => if onlyNumber.contains l then .value l else .invalidOperation
  | _ => .invalidOperation

/-- What happens when an operation accepted by the type checker is executed.  For a cast the type checker asks with the target
type on the left and the type of the operand on the right (TreeGenerator.cpp:1089). -/
def run (o : Op) (l r : BT) : RunRes :=
  match o with
  | .ASSIGN => runAssign l r
  | .TYPECAST => runCast r l
  | .AND | .NAND | .NOR | .OR | .COMPARE_EQUAL | .COMPARE_GREATER | .COMPARE_GREATER_EQUAL | .COMPARE_LESS
  | .COMPARE_LESS_EQUAL | .COMPARE_UNEQUAL => runBoolean o l r
  | _ => if r = .unary then runUnary o l else runBinary o l r

end Verif.Types
