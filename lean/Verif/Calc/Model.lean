import Verif.Expr.Model
import Verif.Ints.Model

/-!
# Evaluating an expression tree on numbers and truth values (`Projects/Core/Core/AST/TreeInterpreter.cpp:79-225, 245-266, 426-492, 515-569`)

The part of `evaluate` that concerns `bool`, `string` and the integer types.  Simplifications: variables are looked up by name in a store
(scopes and stack frames are modelled in `Verif.Scope` and `Verif.Interp`), and no variable changes meanwhile.  Everything on
other types, calls, casts and assignments is a separate outcome (`outside`).
-/

namespace Verif.Calc

open Verif.Str (Text)
open Verif.Lex (Ty)
open Verif.Ints (Obj Width)
open Verif.Expr (Expr Lit)

/-- A run-time value (Object.h:33-160): an integer object, a `BoolType` or a `StringType`. -/
inductive Val where
  | int (o : Obj)
  | bool (b : Bool)
  | str (t : Text)
deriving Repr, DecidableEq

/-- The outcomes of an evaluation: a value, an exception that ends the program, undefined behaviour of C++, or something that is
not modelled here. -/
inductive Out where
  | ok (v : Val)
  | failed
  | undefined
  | outside
deriving Repr, DecidableEq

/-- Continue with the value. -/
def Out.bind : Out → (Val → Out) → Out
  | .ok v, k => k v
  | .failed, _ => .failed
  | .undefined, _ => .undefined
  | .outside, _ => .outside

/-- A computed integer; `none` is undefined behaviour. -/
def Out.ofObj : Option Obj → Out
  | some o => .ok (.int o)
  | none => .undefined

/-- `isTrue` (Runtime/Utils.cpp:17-24) with `AtomicValue::toBool` (AtomicValue.cpp:198-212). -/
def isTrue : Val → Bool
  | .int o => decide (o.stored ≠ 0)
  | .bool b => b
  | .str t => Str.stringToBool t

/-- The operators of the `switch` in `evaluateBinaryExpression` (TreeInterpreter.cpp:130-163) on integers. -/
def arithOp : Ty → Option Ints.Op
  | .MATH_ADDITION => some .add
  | .MATH_DIVIDE => some .div
  | .MATH_MODULO => some .mod
  | .MATH_MULTIPLY => some .mul
  | .MATH_SUBTRACT => some .sub
  | _ => none

/-- `AtomicValue::toStdString` (Runtime/AtomicValue.cpp:279-293, with `toString`, Utils/Tools/Strings.h:46-51). -/
def Val.text : Val → Text
  | .int o => Str.intToString o.stored
  | .bool b => if b then ['1'] else ['0']
  | .str t => t

/-- `evaluateBinaryExpression` behind the evaluation of the operands (TreeInterpreter.cpp:130-167); a string with `+` takes the text of
the other value (OperatorOverloading.cpp:742-747, BuildInTypes/StringType.cpp:194-212). -/
def binary (op : Ty) : Val → Val → Out
  | .int a, .int b =>
    match arithOp op with
    | some o => Out.ofObj (a.arith o b)
    | none => .outside
  | .str s, v => if op = .MATH_ADDITION then .ok (.str (s ++ v.text)) else .outside
  | _, _ => .outside

/-- The incomplete evaluation (TreeInterpreter.cpp:179-195): the result if the left side decides. -/
def early (op : Ty) (left : Bool) : Option Bool :=
  if op = .AND ∧ !left then some false
  else if op = .NAND ∧ !left then some true
  else if op = .NOR ∧ left then some false
  else if op = .OR ∧ left then some true
  else none

/-- `std::string::operator<` on bytes. -/
def textLess : Text → Text → Bool
  | _, [] => false
  | [], _ :: _ => true
  | a :: s, b :: t => if a = b then textLess s t else decide (a.toNat < b.toNat)

/-- The comparisons of texts (BuildInTypes/StringType.cpp:99-192). -/
def compareText (op : Ty) (a b : Text) : Out :=
  match op with
  | .COMPARE_EQUAL => .ok (.bool (decide (a = b)))
  | .COMPARE_GREATER => .ok (.bool (textLess b a))
  | .COMPARE_GREATER_EQUAL => .ok (.bool (!textLess a b))
  | .COMPARE_LESS => .ok (.bool (textLess a b))
  | .COMPARE_LESS_EQUAL => .ok (.bool (!textLess b a))
  | .COMPARE_UNEQUAL => .ok (.bool (!decide (a = b)))
  | _ => .outside

/-- The comparisons (TreeInterpreter.cpp:213-218) on integers and texts, and `==` on truth values; a text is compared with the text of
the other value. -/
def compare (op : Ty) : Val → Val → Out
  | .int a, .int b =>
    match op with
    | .COMPARE_EQUAL => .ok (.bool (a.equal b))
    | .COMPARE_GREATER => .ok (.bool (a.greater b))
    | .COMPARE_GREATER_EQUAL => .ok (.bool (a.greaterEqual b))
    | .COMPARE_LESS => .ok (.bool (a.less b))
    | .COMPARE_LESS_EQUAL => .ok (.bool (a.lessEqual b))
    | .COMPARE_UNEQUAL => .ok (.bool (!a.equal b))
    | _ => .outside
  | .bool a, .bool b => if op = .COMPARE_EQUAL then .ok (.bool (a == b)) else .outside
  | .str a, v => compareText op a v.text
  | _, _ => .outside

/-- The `switch` of `evaluateBooleanBinaryExpression` (TreeInterpreter.cpp:202-224). -/
def late (op : Ty) (left right : Val) : Out :=
  match op with
  | .AND => .ok (.bool (isTrue left && isTrue right))
  | .NAND => .ok (.bool (!isTrue left && !isTrue right))
  | .NOR => .ok (.bool (!isTrue left || !isTrue right))
  | .OR => .ok (.bool (isTrue left || isTrue right))
  | op => compare op left right

/-- The rvalue operators of `evaluateUnaryExpression` (TreeInterpreter.cpp:541-567); `operator_unary_not` gives a `BoolType`
(OperatorOverloading.cpp:1170-1222), `operator_unary_plus` is supported by no type (OperatorOverloading.cpp:1108-1168,
Object.cpp:480-483). -/
def unary (op : Ty) : Val → Out
  | .int a =>
    match op with
    | .MATH_SUBTRACT => Out.ofObj a.minus
    | .MATH_ADDITION => .failed
    | .OPERATOR_NOT => .ok (.bool (decide (a.stored = 0)))
    | _ => .outside
  | .bool b => if op = .OPERATOR_NOT then .ok (.bool !b) else .outside
  | .str t => if op = .OPERATOR_NOT then .ok (.bool !Str.stringToBool t) else .outside

/-- `evaluateLiteral` (TreeInterpreter.cpp:245-266). -/
def literal : Lit → Out
  | .bool b => .ok (.bool b)
  | .int32 i => .ok (.int ⟨.w32, i⟩)
  | .int64 i => .ok (.int ⟨.w64, i⟩)
  | .string t => .ok (.str t)
  | _ => .outside

/-- `evaluate` (TreeInterpreter.cpp:79-104), `evaluateBinaryExpression` (121-167), `evaluateBooleanBinaryExpression` (169-225),
`evaluateSymbolExpression` (426-470), `evaluateTernaryExpression` (472-492) and `evaluateUnaryExpression` (515-569). -/
def eval (store : Text → Option Val) : Expr → Out
  | .lit l => literal l
  | .sym n _ =>
    match store n with
    | some v => .ok v
    | none => .outside
  | .unary op false e => (eval store e).bind (unary op)
  | .not _ e => (eval store e).bind (unary .OPERATOR_NOT)
  | .binary op l r _ => (eval store l).bind fun a => (eval store r).bind fun b => binary op a b
  | .boolean op l r =>
    (eval store l).bind fun a =>
      match early op (isTrue a) with
      | some b => .ok (.bool b)
      | none => (eval store r).bind fun b => late op a b
  | .ternary c a b => (eval store c).bind fun x => if isTrue x then eval store a else eval store b
  | _ => .outside

end Verif.Calc
