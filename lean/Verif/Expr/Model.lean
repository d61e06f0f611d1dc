import Verif.Brackets.Model
import Verif.Types.Model
import Verif.Str.Tools

/-!
# The expression parser (`Projects/Core/Core/AST/TreeGenerator.cpp:62-81, 248-564, 712-899, 954-1095, 1380-1445, 1478-1510, 1570-1680`)

An iterator is the list of tokens from its position on.  Reading at the end of the list, and following a null pointer, is
undefined behaviour and a separate outcome.  Token lists are `std::list`s (Common/Token.h:155), so `std::distance` from a later
to an earlier position is undefined as well.

Simplifications: the scopes a name is looked up in, the table of types and the choice among overloaded methods are parameters
(`Env`); they are modelled in `Verif.Scope` and `Verif.Types`.  A method call that the checks of `process_method` reject
(TreeGenerator.cpp:1602-1680) counts as not found.  Not covered, and a separate outcome: members (`a.b`), the operators `..` and
`[]`, generic types, and the keywords `copy`, `new`, `streval` and `typeid`.  Positions and messages of errors are dropped.
-/

namespace Verif.Expr

open Verif.Str (Text)
open Verif.Lex (Tok Ty Cat)
open Verif.Types (TName Op BT)

/-- What the name of a symbol stands for. -/
inductive Kind where
  | var | type | func
deriving Repr, DecidableEq

/-- What `resolve` finds out about a name (TreeGenerator.cpp:2284-2354): a variable and a method become a
`RuntimeSymbolExpression`, a type becomes a `DesigntimeSymbolExpression`. -/
structure Sym where
  kind : Kind
  ty : TName
  atomic : Bool
  const : Bool
deriving Repr, DecidableEq

/-- The surroundings of an expression. -/
structure Env where
  /-- The scopes. -/
  lookup : Text → Option Sym
  /-- The table of types. -/
  table : Types.Table
  /-- Is there a blueprint of this name (`Repository::findBluePrintObject`)? -/
  isType : TName → Bool
  /-- The result type of the function of this name for arguments of these types. -/
  method : Text → List TName → Option TName
  /-- The result type of the method of this class, of this name, for arguments of these types. -/
  classMethod : TName → Text → List TName → Option TName

/-- Literals (Expression.h:187-282). -/
inductive Lit where
  | bool (b : Bool)
  | double (t : Text)
  | float (t : Text)
  | int32 (i : Int)
  | int64 (i : Int)
  | string (t : Text)
deriving Repr, DecidableEq

/-- The expression trees (Expression.h:25-740). -/
inductive Expr where
  | lit (l : Lit)
  | sym (name : Text) (s : Sym)
  | call (name : Text) (args : List Expr) (ty : TName)
  | opCall (obj : Expr) (op : Text) (args : List Expr) (ty : TName)
  | unary (op : Ty) (lvalue : Bool) (e : Expr)
  /-- The postfix `!`, `OPERATOR_VALIDATE`. -/
  | validate (e : Expr)
  /-- `!` in front; `sign` is the content of the token of the operation, which is empty for the negation that `!=` and `!==`
  stand for (`Token(Token::Type::OPERATOR_NOT)`, TreeGenerator.cpp:324). -/
  | not (sign : Text) (e : Expr)
  | binary (op : Ty) (l r : Expr) (ty : TName)
  | boolean (op : Ty) (l r : Expr)
  | ternary (c a b : Expr)
  | is (e : Expr) (ty : TName)
  | cast (ty : TName) (e : Expr)
  | assign (name : Text) (s : Sym) (e : Expr) (ty : TName)
deriving Repr

/-- The type of a literal (Expression.h:203-282). -/
def Lit.ty : Lit → TName
  | .bool _ => .b .bool
  | .double _ => .b .double
  | .float _ => .b .float
  | .int32 _ => .b .int32
  | .int64 _ => .b .int64
  | .string _ => .b .string

/-- `getResultType` (Expression.h:94-740). -/
def Expr.ty : Expr → TName
  | .lit l => l.ty
  | .sym _ s => s.ty
  | .call _ _ t => t
  | .opCall _ _ _ t => t
  | .unary _ _ e => e.ty
  | .validate e => e.ty
  | .not _ _ => .b .bool
  | .binary _ _ _ t => t
  | .boolean _ _ _ => .b .bool
  | .ternary _ a _ => a.ty
  | .is _ _ => .b .bool
  | .cast t _ => t
  | .assign _ _ _ t => t

/-- The outcomes of a parsing function. -/
inductive Res (α : Type) where
  | ok (a : α) (rest : List Tok)
  | error
  | undefined
  | outside
  | noFuel
deriving Repr

/-- Continue after a success. -/
def Res.bind {α β : Type} : Res α → (α → List Tok → Res β) → Res β
  | .ok a rest, k => k a rest
  | .error, _ => .error
  | .undefined, _ => .undefined
  | .outside, _ => .outside
  | .noFuel, _ => .noFuel

/-- A value or an exception. -/
def Res.ofOption {α : Type} (o : Option α) (rest : List Tok) : Res α :=
  match o with
  | some a => .ok a rest
  | none => .error

/-! ## Operators -/

/-- The levels of `expression`, `parseCondition`, `parseExpression`, `parseFactor` and `parseInfix`. -/
inductive Lvl where
  | expression | condition | arith | factor | infix
deriving Repr, DecidableEq

/-- The function each of them calls for its operands. -/
def Lvl.next : Lvl → Lvl
  | .expression => .condition
  | .condition => .arith
  | .arith => .factor
  | _ => .infix

/-- The operators of each level (TreeGenerator.cpp:67-71, 253-262, 335-343, 387-391). -/
def Lvl.ops : Lvl → List Ty
  | .expression => [.AND, .NAND, .NOR, .OR]
  | .condition => [.COMPARE_EQUAL, .COMPARE_EQUAL_CONTENT, .COMPARE_GREATER, .COMPARE_GREATER_EQUAL, .COMPARE_LESS,
      .COMPARE_LESS_EQUAL, .COMPARE_UNEQUAL, .COMPARE_UNEQUAL_CONTENT]
  | .arith => [.BITAND, .BITCOMPLEMENT, .BITOR, .MATH_ADDITION, .MATH_SUBTRACT, .OPERATOR_SHIFT_LEFT,
      .OPERATOR_SHIFT_RIGHT]
  | .factor => [.MATH_DIVIDE, .MATH_MODULO, .MATH_MULTIPLY]
  | .infix => []

/-- The key under which an operator is registered in the type table. -/
def opOf : Ty → Option Op
  | .ASSIGN => some .ASSIGN
  | .BITAND => some .BITAND
  | .BITCOMPLEMENT => some .BITCOMPLEMENT
  | .BITOR => some .BITOR
  | .COMPARE_EQUAL => some .COMPARE_EQUAL
  | .COMPARE_GREATER => some .COMPARE_GREATER
  | .COMPARE_GREATER_EQUAL => some .COMPARE_GREATER_EQUAL
  | .COMPARE_LESS => some .COMPARE_LESS
  | .COMPARE_LESS_EQUAL => some .COMPARE_LESS_EQUAL
  | .MATH_ADDITION => some .MATH_ADDITION
  | .MATH_DIVIDE => some .MATH_DIVIDE
  | .MATH_MODULO => some .MATH_MODULO
  | .MATH_MULTIPLY => some .MATH_MULTIPLY
  | .MATH_SUBTRACT => some .MATH_SUBTRACT
  | .OPERATOR_SHIFT_LEFT => some .OPERATOR_SHIFT_LEFT
  | .OPERATOR_SHIFT_RIGHT => some .OPERATOR_SHIFT_RIGHT
  | _ => none

/-- The name of the operator method, `"operator" + content`. -/
def opName : Ty → Text
  | .ASSIGN => "operator=".toList
  | .BITAND => "operator&".toList
  | .BITCOMPLEMENT => "operator~".toList
  | .BITOR => "operator|".toList
  | .COMPARE_EQUAL => "operator==".toList
  | .COMPARE_GREATER => "operator>".toList
  | .COMPARE_GREATER_EQUAL => "operator>=".toList
  | .COMPARE_LESS => "operator<".toList
  | .COMPARE_LESS_EQUAL => "operator<=".toList
  | .MATH_ADDITION => "operator+".toList
  | .MATH_DIVIDE => "operator/".toList
  | .MATH_MODULO => "operator%".toList
  | .MATH_MULTIPLY => "operator*".toList
  | .MATH_SUBTRACT => "operator-".toList
  | .OPERATOR_DECREMENT => "operator--".toList
  | .OPERATOR_INCREMENT => "operator++".toList
  | .OPERATOR_SHIFT_LEFT => "operator<<".toList
  | .OPERATOR_SHIFT_RIGHT => "operator>>".toList
  | _ => []

/-- `resolveType` (TreeGenerator.cpp:2412-2460); generic types are not covered. -/
def typeOf (env : Env) (l : TName) (op : Ty) (r : TName) : Option TName :=
  match opOf op with
  | none => none
  | some o =>
    match Types.getType l o r env.table with
    | .ok t => some t
    | _ => none

/-- `process_method` on an operator of a class (TreeGenerator.cpp:365-377, 413-425, 298-310). -/
def callOperator (env : Env) (obj : Expr) (op : Ty) (args : List Expr) : Option Expr :=
  match env.classMethod obj.ty (opName op) (args.map Expr.ty) with
  | some t => some (.opCall obj (opName op) args t)
  | none => none

/-- `dynamic_cast<SymbolExpression*>(e)` is not null. -/
def Expr.isSym : Expr → Bool
  | .sym _ _ => true
  | _ => false

/-- `exp->isAtomicType()` of a symbol. -/
def Expr.atomicSym : Expr → Bool
  | .sym _ s => s.atomic
  | _ => false

/-- The body of the loops of `parseExpression` and `parseFactor` (TreeGenerator.cpp:346-377, 394-425). -/
def buildArith (env : Env) (op : Ty) (l r : Expr) : Option Expr :=
  match typeOf env l.ty op r.ty with
  | none => none
  | some t =>
    if !l.isSym || l.atomicSym then some (.binary op l r t)
    else if !env.isType l.ty then none
    else callOperator env l op [r]

/-- `!=`, `===` and `!==` are looked up as `==` (TreeGenerator.cpp:267-278). -/
def compareOp : Ty → Ty
  | .COMPARE_EQUAL_CONTENT => .COMPARE_EQUAL
  | .COMPARE_UNEQUAL => .COMPARE_EQUAL
  | .COMPARE_UNEQUAL_CONTENT => .COMPARE_EQUAL
  | op => op

/-- The comparison itself (TreeGenerator.cpp:283-320). -/
def buildCompare (env : Env) (op : Ty) (l r : Expr) : Option Expr :=
  if l.isSym && (env.classMethod l.ty (opName (compareOp op)) [r.ty]).isSome then callOperator env l (compareOp op) [r]
  else if op = .COMPARE_EQUAL_CONTENT ∨ op = .COMPARE_UNEQUAL_CONTENT then none
  else some (.boolean (compareOp op) l r)

/-- The body of the loop of `parseCondition` (TreeGenerator.cpp:264-325). -/
def buildCondition (env : Env) (op : Ty) (l r : Expr) : Option Expr :=
  match typeOf env l.ty (compareOp op) r.ty with
  | none => none
  | some _ =>
    if !env.isType l.ty then none
    else match buildCompare env op l r with
      | none => none
      | some e => some (if op = .COMPARE_UNEQUAL ∨ op = .COMPARE_UNEQUAL_CONTENT then .not [] e else e)

/-- The body of the loop of each level; `expression` checks nothing (TreeGenerator.cpp:75-79). -/
def build (env : Env) (lvl : Lvl) (op : Ty) (l r : Expr) : Option Expr :=
  match lvl with
  | .expression => some (.boolean op l r)
  | .condition => buildCondition env op l r
  | _ => buildArith env op l r

/-! ## Terms -/

/-- The literals of `parseTerm` (TreeGenerator.cpp:513-542). -/
def literal (ty : Ty) (content : Text) : Option Lit :=
  match ty with
  | .CONST_BOOLEAN => some (.bool (Str.stringToBool content))
  | .CONST_DOUBLE => some (.double content)
  | .CONST_FLOAT => some (.float content)
  | .CONST_INTEGER =>
    let v := Str.stringToInt content
    if -2147483648 ≤ v ∧ v ≤ 2147483647 then some (.int32 v) else some (.int64 v)
  | .CONST_LITERAL => some (.string content)
  | _ => none

/-- `resolve` on a name that is not followed by a member access (TreeGenerator.cpp:2284-2380), with the exception of
`resolveWithExceptions` (2462-2470). -/
def resolve (env : Env) : List Tok → Res (Text × Sym)
  | [] => .undefined
  | t :: ts =>
    match env.lookup t.content with
    | none => .error
    | some s =>
      match ts with
      | [] => .undefined
      | u :: rest => if u.ty = .OPERATOR_SCOPE then .outside else .ok (t.content, s) (u :: rest)

/-- `expect` followed by `++token` (Common/Utils.cpp:16-21). -/
def expect (ty : Ty) : List Tok → Res Unit
  | [] => .undefined
  | t :: ts => if t.ty = ty then .ok () ts else .error

/-- The operator behind a compound assignment (TreeGenerator.cpp:969-981). -/
def assignedOp : Ty → Option Ty
  | .ASSIGN_ADDITION => some .MATH_ADDITION
  | .ASSIGN_BITAND => some .BITAND
  | .ASSIGN_BITCOMPLEMENT => some .BITCOMPLEMENT
  | .ASSIGN_BITOR => some .BITOR
  | .ASSIGN_DIVIDE => some .MATH_DIVIDE
  | .ASSIGN_MODULO => some .MATH_MODULO
  | .ASSIGN_MULTIPLY => some .MATH_MULTIPLY
  | .ASSIGN_SUBTRACT => some .MATH_SUBTRACT
  | _ => none

/-- The right side of a compound assignment (TreeGenerator.cpp:966-1002). -/
def compound (env : Env) (name : Text) (s : Sym) (op : Ty) (rhs : Expr) : Option Expr :=
  if op = .ASSIGN then some rhs
  else match assignedOp op with
    | none => none
    | some o =>
      match typeOf env s.ty o rhs.ty with
      | none => none
      | some t =>
        if s.atomic then some (.binary o (.sym name s) rhs t)
        else if !env.isType s.ty then none
        else callOperator env (.sym name s) o [rhs]

/-- `process_assignment_expression` behind the operator (TreeGenerator.cpp:960-1035); local variables are no members. -/
def buildAssign (env : Env) (name : Text) (s : Sym) (op : Ty) (e : Expr) : Option Expr :=
  match compound env name s op e with
  | none => none
  | some rhs =>
    if s.const then none
    else if s.atomic ∨ s.ty = rhs.ty then
      match typeOf env s.ty .ASSIGN rhs.ty with
      | none => none
      | some t => some (.assign name s rhs t)
    else if !env.isType s.ty then none
    else callOperator env (.sym name s) .ASSIGN [rhs]

/-- `process_incdecrement` (TreeGenerator.cpp:1478-1510). -/
def buildIncDec (env : Env) (name : Text) (s : Sym) (op : Ty) : Option Expr :=
  if s.const then none
  else if s.atomic then some (.unary op true (.sym name s))
  else if !env.isType s.ty then none
  else callOperator env (.sym name s) op []

/-- `process_method` once the arguments are known (TreeGenerator.cpp:1602-1680). -/
def buildCall (env : Env) (name : Text) (args : List Expr) : Option Expr :=
  match env.method name (args.map Expr.ty) with
  | some t => some (.call name args t)
  | none => none

/-- The prefix operators of `parseInfix` (TreeGenerator.cpp:436-449). -/
def buildPrefix (env : Env) (op : Ty) (e : Expr) : Option Expr :=
  if op = .OPERATOR_NOT then some (.not ['!'] e)
  else match typeOf env e.ty op (.b .unary) with
    | some _ => some (.unary op false e)
    | none => none

/-- `processTernaryOperator`, the types of the two results (TreeGenerator.cpp:893-897). -/
def buildTernary (c a b : Expr) : Option Expr :=
  if a.ty = b.ty then some (.ternary c a b) else none

/-- `process_cast`, the type check (TreeGenerator.cpp:1086-1094). -/
def buildCast (env : Env) (s : Sym) (e : Expr) : Option Expr :=
  match Types.getType s.ty .TYPECAST e.ty env.table with
  | .ok _ => some (.cast s.ty e)
  | _ => none

/-- The loop of `parsePostfix` (TreeGenerator.cpp:476-505). -/
def postLoop (e : Expr) : List Tok → Res Expr
  | [] => .undefined
  | t :: ts =>
    if t.ty = .BRACKET_OPEN then .error
    else if t.ty = .OPERATOR_DECREMENT ∨ t.ty = .OPERATOR_INCREMENT then postLoop (.unary t.ty false e) ts
    else if t.ty = .OPERATOR_NOT then postLoop (.validate e) ts
    else if t.ty = .OPERATOR_SCOPE then .outside
    else .ok e (t :: ts)

/-- `processIsOperator` (TreeGenerator.cpp:712-726). -/
def parseIs (env : Env) (e : Expr) (ts : List Tok) : Res Expr :=
  (resolve env ts).bind fun s rest => .ok (.is e s.2.ty) rest

/-- Is this one of the keywords with an expression that is not covered? -/
def otherKeywords : List Text := ["copy".toList, "new".toList, "streval".toList, "typeid".toList]

/-! ## The parser -/

/-- What a method call looks for behind its opening parenthesis: `findNextBalancedParenthesis` (TreeGenerator.cpp:1577). -/
def closing (ts : List Tok) : Option Nat :=
  match Brackets.findBalanced .PARENTHESIS_OPEN .PARENTHESIS_CLOSE 0 none ts 0 0 with
  | .at n => some n
  | _ => none

/-- `tmp = findNext(tmp, COMMA)` and the comparison with `closed` (TreeGenerator.cpp:1588-1596): `done` when the argument
ended at the closing parenthesis, otherwise the position behind the next comma.  `closed` is the number of tokens from the
closing parenthesis on. -/
inductive Comma where
  | done
  | more (rest : List Tok)
  | undefined

/-- See `Comma`. -/
def nextComma (closed : Nat) (ts : List Tok) : Comma :=
  if ts.length = closed then .done
  else if ts.length < closed then .undefined
  else match Brackets.findNext .COMMA none ts 0 with
    | .at k => if (ts.drop k).length ≤ closed then .undefined else .more (ts.drop (k + 1))
    | _ => .undefined

mutual

/-- `expression` (62-81), `parseCondition` (248-327), `parseExpression` (329-379), `parseFactor` (381-427), which differ in
the operators, the operands and what they build, and `parseInfix` (429-457). -/
def parseLevel (env : Env) : Nat → Lvl → List Tok → Res Expr
  | 0, _, _ => .noFuel
  | n + 1, .infix, ts => parseInfix env n ts
  | n + 1, .expression, ts => (parseLevel env n .condition ts).bind fun e rest => parseLoop env n .expression e rest
  | n + 1, .condition, ts => (parseLevel env n .arith ts).bind fun e rest => parseLoop env n .condition e rest
  | n + 1, .arith, ts => (parseLevel env n .factor ts).bind fun e rest => parseLoop env n .arith e rest
  | n + 1, .factor, ts => (parseLevel env n .infix ts).bind fun e rest => parseLoop env n .factor e rest

/-- The loops of these functions. -/
def parseLoop (env : Env) : Nat → Lvl → Expr → List Tok → Res Expr
  | 0, _, _, _ => .noFuel
  | _ + 1, _, _, [] => .undefined
  | n + 1, lvl, e, t :: ts =>
    if t.ty ∈ lvl.ops then
      (parseLevel env n lvl.next ts).bind fun r rest =>
        (Res.ofOption (build env lvl t.ty e r) rest).bind fun e' rest => parseLoop env n lvl e' rest
    else .ok e (t :: ts)

/-- `parseInfix` (TreeGenerator.cpp:429-457). -/
def parseInfix (env : Env) : Nat → List Tok → Res Expr
  | 0, _ => .noFuel
  | _ + 1, [] => .undefined
  | n + 1, t :: ts =>
    if t.ty = .MATH_ADDITION ∨ t.ty = .MATH_SUBTRACT ∨ t.ty = .OPERATOR_NOT then
      (parseTerm env n ts).bind fun e rest =>
        match rest with
        | [] => .undefined
        | u :: rest => (Res.ofOption (buildPrefix env t.ty e) (u :: rest)).bind fun e rest => parsePostfix env n e rest
    else (parseTerm env n (t :: ts)).bind fun e rest => parsePostfix env n e rest

/-- `parsePostfix` (TreeGenerator.cpp:459-507) with `processTernaryOperator` (870-899). -/
def parsePostfix (env : Env) : Nat → Expr → List Tok → Res Expr
  | 0, _, _ => .noFuel
  | _ + 1, _, [] => .undefined
  | n + 1, e, t :: ts =>
    if t.ty = .OPERATOR_IS then parseIs env e ts
    else if t.ty = .OPERATOR_RANGE then .outside
    else if t.ty = .QUESTION_MARK then
      match ts with
      | [] => .undefined
      | u :: rest =>
        if u.ty = .COLON then
          (parseLevel env n .expression rest).bind fun b rest => Res.ofOption (buildTernary e e b) rest
        else
          (parseLevel env n .expression (u :: rest)).bind fun a rest =>
            (expect .COLON rest).bind fun _ rest =>
              (parseLevel env n .expression rest).bind fun b rest => Res.ofOption (buildTernary e a b) rest
    else postLoop e (t :: ts)

/-- `parseTerm` (TreeGenerator.cpp:509-564) with `process_expression_keyword` (1194-1219) and `process_cast` (1060-1095). -/
def parseTerm (env : Env) : Nat → List Tok → Res Expr
  | 0, _ => .noFuel
  | _ + 1, [] => .undefined
  | n + 1, t :: ts =>
    match literal t.ty t.content with
    | some l => .ok (.lit l) ts
    | none =>
      if t.ty = .IDENTIFIER then parseName env n (t :: ts)
      else if t.ty = .KEYWORD then
        if t.content = "cast".toList then
          (expect .COMPARE_LESS ts).bind fun _ ts =>
            (resolve env ts).bind fun s ts =>
              if s.2.kind ≠ .type then .error
              else
                (expect .COMPARE_GREATER ts).bind fun _ ts =>
                  (expect .PARENTHESIS_OPEN ts).bind fun _ ts =>
                    (parseLevel env n .expression ts).bind fun e ts =>
                      (expect .PARENTHESIS_CLOSE ts).bind fun _ ts => Res.ofOption (buildCast env s.2 e) ts
        else if t.content ∈ otherKeywords then .outside
        else match ts with
          | [] => .undefined
          | _ :: _ => .error
      else if t.ty = .PARENTHESIS_OPEN then
        (parseLevel env n .expression ts).bind fun e ts => (expect .PARENTHESIS_CLOSE ts).bind fun _ ts => .ok e ts
      else .error

/-- `process_identifier` with type casts allowed (TreeGenerator.cpp:1380-1445), `process_assignment_expression` (954-1035)
and `process_method` (1570-1600).  A name that is not a type and is followed by a literal, a name or a keyword leads to a null
pointer (1395). -/
def parseName (env : Env) : Nat → List Tok → Res Expr
  | 0, _ => .noFuel
  | n + 1, ts =>
    (resolve env ts).bind fun s ts =>
      match ts with
      | [] => .undefined
      | u :: rest =>
        if u.cat = .constant ∨ u.ty = .IDENTIFIER ∨ u.ty = .KEYWORD then
          if s.2.kind = .type then
            (parseLevel env n .expression (u :: rest)).bind fun e rest => .ok (.cast s.2.ty e) rest
          else .undefined
        else if u.cat = .assignment then
          (parseLevel env n .expression rest).bind fun e rest => Res.ofOption (buildAssign env s.1 s.2 u.ty e) rest
        else if u.ty = .PARENTHESIS_OPEN then
          match closing rest with
          | none => .undefined
          | some k =>
            (parseArgs env n (rest.length - k) rest []).bind fun args _ =>
              Res.ofOption (buildCall env s.1 args) (rest.drop (k + 1))
        else if u.ty = .BRACKET_OPEN then .outside
        else if u.ty = .OPERATOR_DECREMENT ∨ u.ty = .OPERATOR_INCREMENT then
          Res.ofOption (buildIncDec env s.1 s.2 u.ty) rest
        else .ok (.sym s.1 s.2) (u :: rest)

/-- The loop over the arguments of a method call (TreeGenerator.cpp:1582-1597). -/
def parseArgs (env : Env) : Nat → Nat → List Tok → List Expr → Res (List Expr)
  | 0, _, _, _ => .noFuel
  | n + 1, closed, ts, acc =>
    if ts.length = closed then .ok acc ts
    else (parseLevel env n .expression ts).bind fun e rest =>
      match nextComma closed rest with
      | .done => .ok (acc ++ [e]) rest
      | .undefined => .undefined
      | .more rest => parseArgs env n closed rest (acc ++ [e])

end

/-- `TreeGenerator::expression`. -/
def parse (env : Env) (ts : List Tok) : Res Expr := parseLevel env (10 * ts.length + 10) .expression ts

end Verif.Expr
