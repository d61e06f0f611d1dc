import Verif.Brackets.Model
import Verif.Calc.Model
import Verif.Decl.Model
import Verif.Interp.Model
import Verif.Lex.Model
import Verif.Scope.Model
import Verif.Stmt.Model
import Verif.Str.Tools
import Verif.Types.Builtin

/-!
# From the text of a script to what it prints

The way of a script through the virtual machine (`Projects/Core/Core/VirtualMachine/VirtualMachine.cpp`): `createScript` (142-208)
reads the declarations and builds the syntax trees of the methods, `run` (424-445) executes `Main`.  The steps are modelled in
`Verif.Lex` (tokenizer), `Verif.Decl` (declarations), `Verif.Stmt` and `Verif.Expr` (syntax trees), `Verif.Interp` and
`Verif.Calc` (interpreter); this file connects them.  Paths are relative to `Projects/Core/Core`.

Simplifications: scripts with something else than functions without default values on the global scope, or with statements and
expressions on other types than `bool`, `string` and the integer types, are a separate outcome (`outside`); no extensions are loaded, so the
global scope holds the predefined types, `null` and the functions; no sanity check, no debugger; every syntax tree is complete before
the script starts, as in the code.  C++ exceptions and undefined behaviour of operators on values are one outcome (`failed`).
-/

namespace Verif.Whole

open Verif.Str (Text)
open Verif.Lex (Tok Ty)
open Verif.Types (TName)
open Verif.Calc (Val)

/-- The outcomes of a script: it ends and has printed a text, it is rejected before it runs, it ends with an exception of the script,
it fails (C++ exception or undefined behaviour), it is not covered by this model, or the steps of the model are used up. -/
inductive Outcome where
  | ended (out : Text)
  | rejected
  | thrown (out : Text)
  | failed
  | outside
  | running
deriving Repr, DecidableEq

/-! ## Names -/

/-- The predefined types (VirtualMachine/Repository.cpp:402-460) with their names (Common/Types.h). -/
def typeNames : List (Text × TName) :=
  [("bool".toList, .b .bool), ("double".toList, .b .double), ("float".toList, .b .float), ("int16".toList, .b .int16),
   ("int".toList, .b .int32), ("int64".toList, .b .int64), ("string".toList, .b .string), ("void".toList, .b .void),
   ("Object".toList, .b .object)]

/-- The name of a type. -/
def typeText (t : TName) : Text :=
  match typeNames.find? (·.2 = t) with
  | some p => p.1
  | none => []

/-- `Object::isAtomicType` of the predefined types (Runtime/BuildInTypes). -/
def atomic (t : TName) : Bool := decide (t ∈ [TName.b .bool, .b .double, .b .float, .b .int16, .b .int32, .b .int64, .b .string])

/-- `Repository::findBluePrintObject` (VirtualMachine/Repository.cpp:240-270). -/
def isType (t : TName) : Bool := decide (t ∈ typeNames.map (·.2))

/-- A function: result type, name, parameters, `throws`, and the tokens of its body (Designtime/Analyser.cpp:463-541). -/
structure Header where
  ty : TName
  name : Text
  params : List (Text × TName)
  throws : Bool
  body : List Tok

/-- `resolveType` (Designtime/Analyser.cpp:748-792) for the predefined types. -/
def resolveType (d : Decl.TypeDecl) : Option TName := if d.args.isEmpty then typeNames.lookup d.name else none

/-- A parameter by value without a default value. -/
def parameter (p : Decl.Param) : Option (Text × TName) :=
  if p.mutab = .modify ∧ p.access = .unspecified ∧ p.init.isNone then (resolveType p.type).map fun t => (p.name, t) else none

/-- All parameters. -/
def parameterList : List Decl.Param → Option (List (Text × TName))
  | [] => some []
  | p :: ps => (parameter p).bind fun x => (parameterList ps).map (x :: ·)

/-- `createMethodStub` (Designtime/Analyser.cpp:463-541) on the global scope. -/
def header : Decl.Node → Option Header
  | .method _ _ .stable ty name ps _ _ throws (some body) =>
    (resolveType ty).bind fun t => (parameterList ps).map fun ps => ⟨t, name, ps, throws, body⟩
  | _ => none

/-- The functions of a script; `none`: there is something else. -/
def headers : List Decl.Node → Option (List Header)
  | [] => some []
  | d :: ds => (header d).bind fun h => (headers ds).map (h :: ·)

/-- What `isSignatureValid` reads of the parameters (Common/Method.cpp:236-286). -/
def Header.signature (h : Header) : List Scope.Param := h.params.map fun p => ⟨String.ofList (typeText p.2), false⟩

/-- `MethodScope::resolveMethod` on the global scope (Scope.cpp:360-401): the first function of that name that can be called with
values of these types. -/
def applicable (hs : List Header) (f : Text) (tys : List TName) : Option Header :=
  hs.find? fun h => h.name = f && Scope.isSignatureValid h.signature (tys.map fun t => String.ofList (typeText t))

/-- `MethodScope::defineMethod` (Scope.cpp:191-210): no two functions have the same name and parameters. -/
def definable : List Header → Bool
  | [] => true
  | h :: hs => hs.all (fun g => !(g.name = h.name && g.params.map (·.2) = h.params.map (·.2))) && definable hs

/-- The global scope: types, `null` (VirtualMachine/Repository.cpp:402-475) and functions. -/
def global (hs : List Header) (n : Text) : Option Expr.Sym :=
  match typeNames.lookup n with
  | some t => some ⟨.type, t, atomic t, false⟩
  | none =>
    if n = "null".toList then some ⟨.var, .b .object, false, true⟩
    else (hs.find? (·.name = n)).map fun h => ⟨.func, h.ty, false, false⟩

/-- What expressions see outside of their function. -/
def env (hs : List Header) : Expr.Env where
  lookup := global hs
  table := Types.builtinTable
  isType := isType
  method := fun f tys => (applicable hs f tys).map Header.ty
  classMethod := fun _ _ _ => none

/-- What a function sees. -/
def site (hs : List Header) (h : Header) : Stmt.Site where
  env := env hs
  atomic := atomic
  creatable := isType
  iterates := fun _ => false
  constCall := fun _ => false
  result := h.ty

/-- The parameters as variables (AST/TreeGenerator.cpp:200-233). -/
def Header.symbols (h : Header) : List (Text × Expr.Sym) := h.params.map fun p => (p.1, ⟨.var, p.2, atomic p.2, false⟩)

/-! ## Syntax trees -/

/-- The operators on values by the text of their tokens. -/
def opTexts : List (Ty × String) :=
  [(.MATH_ADDITION, "+"), (.MATH_SUBTRACT, "-"), (.MATH_MULTIPLY, "*"), (.MATH_DIVIDE, "/"), (.MATH_MODULO, "%"), (.OPERATOR_NOT, "!")]

/-- The comparisons. -/
def cmpOf : Ty → Option Interp.Cmp
  | .COMPARE_EQUAL => some .eq
  | .COMPARE_GREATER => some .gt
  | .COMPARE_GREATER_EQUAL => some .ge
  | .COMPARE_LESS => some .lt
  | .COMPARE_LESS_EQUAL => some .le
  | _ => none

/-- The logical operators. -/
def boolOf : Ty → Option Interp.BoolOp
  | .AND => some .and
  | .NAND => some .nand
  | .NOR => some .nor
  | .OR => some .or
  | _ => none

/-- A literal of `bool`, `string` or an integer type (AST/TreeInterpreter.cpp:245-266). -/
def literal : Expr.Lit → Option Val
  | .bool b => some (.bool b)
  | .int32 i => some (.int ⟨.w32, i⟩)
  | .int64 i => some (.int ⟨.w64, i⟩)
  | .string t => some (.str t)
  | _ => none

/-- `++` and `--` behind a variable (AST/TreeInterpreter.cpp:515-546). -/
def stepText : Ty → Option String
  | .OPERATOR_INCREMENT => some "++"
  | .OPERATOR_DECREMENT => some "--"
  | _ => none

mutual

/-- The tree of an expression (AST/Expression.h) as the interpreter's model has it. -/
def expr : Expr.Expr → Option (Interp.Expr Val)
  | .lit l => (literal l).map .lit
  | .sym n _ => some (.sym ⟨String.ofList n, []⟩)
  | .call f args _ => (exprs args).map (.call [] (String.ofList f))
  | .unary op false e => (opTexts.lookup op).bind fun o => (expr e).map (.unary o)
  | .unary op true (.sym n _) => (stepText op).map fun o => .incr o ⟨String.ofList n, []⟩
  | .not _ e => (expr e).map (.unary "!")
  | .binary op l r _ => (opTexts.lookup op).bind fun o => (expr l).bind fun x => (expr r).map (.binary o x)
  | .boolean op l r =>
    match cmpOf op with
    | some c => (expr l).bind fun x => (expr r).map (.compare c x)
    | none => (boolOf op).bind fun o => (expr l).bind fun x => (expr r).map (.bool o x)
  | .ternary c a b => (expr c).bind fun x => (expr a).bind fun y => (expr b).map (.ternary x y)
  | .assign n _ e _ => (expr e).map (.assign ⟨String.ofList n, []⟩)
  | _ => none

/-- Arguments. -/
def exprs : List Expr.Expr → Option (List (Interp.Expr Val))
  | [] => some []
  | e :: es => (expr e).bind fun x => (exprs es).map (x :: ·)

end

/-- An expression that may be missing. -/
def exprOpt : Option Expr.Expr → Option (Option (Interp.Expr Val))
  | none => some none
  | some e => (expr e).map some

/-- The types of variables in this model. -/
def plain (t : TName) : Bool := decide (t ∈ [TName.b .bool, .b .int16, .b .int32, .b .int64, .b .string])

mutual

/-- The tree of a statement (AST/Statement.h) as the interpreter's model has it. -/
def stmt : Stmt.Node → Option (Interp.Stmt Val)
  | .nop => some .nop
  | .expr e => (expr e).map .expr
  | .decl d e => if d.ref ∨ plain d.ty = false then none else (exprOpt e).map (.decl (String.ofList (typeText d.ty)) (String.ofList d.name))
  | .infer d e => if d.ref ∨ plain d.ty = false then none else (expr e).map fun x => .decl (String.ofList (typeText d.ty)) (String.ofList d.name) (some x)
  | .block b => (stmts b).map .block
  | .ite c t e => (expr c).bind fun x => (stmt t).bind fun y => (stmt e).map (.ite x y)
  | .while c b => (expr c).bind fun x => (stmt b).map (.while x)
  | .for i c s b => (stmt i).bind fun i => (exprOpt c).bind fun c => (stmt s).bind fun s => (stmt b).map (.for i c s)
  | .switch e cs d => (expr e).bind fun x => (stmtCases cs).bind fun cs => (stmtsOpt d).map (.switch x cs)
  | .ret e => (exprOpt e).map .ret
  | .throw e => (exprOpt e).map .throw
  | .brk => some .brk
  | .cont => some .cont
  | .assert c m => (expr c).bind fun x => (exprOpt m).map (.assert x)
  | .print e => (expr e).map .print
  | _ => none

/-- Statements. -/
def stmts : List Stmt.Node → Option (List (Interp.Stmt Val))
  | [] => some []
  | s :: b => (stmt s).bind fun x => (stmts b).map (x :: ·)

/-- The cases of a `switch` statement (AST/Statement.h:185-232). -/
def stmtCases : List (Expr.Expr × List Stmt.Node) → Option (List (Interp.Expr Val × List (Interp.Stmt Val)))
  | [] => some []
  | (e, b) :: cs => (expr e).bind fun x => (stmts b).bind fun y => (stmtCases cs).map ((x, y) :: ·)

/-- Its `default` block; none is an empty one. -/
def stmtsOpt : Option (List Stmt.Node) → Option (List (Interp.Stmt Val))
  | none => some []
  | some b => stmts b

end

/-! ## Values -/

/-- The value of an evaluation in `Verif.Calc`. -/
def result : Calc.Out → Option (Interp.Value Val)
  | .ok v => some (.atom v)
  | _ => none

/-- The operator with this text. -/
def opOfText (s : String) : Option Ty := (opTexts.find? (·.2 = s)).map (·.1)

/-- `operator_binary_assign` (Runtime/OperatorOverloading.cpp:28-62) on `bool`, `string` and integer variables, with the
conversions of Runtime/AtomicValue.cpp:197-293: `toBool` of a number or a text, `toInt` of a truth value, `toStdString`.  The conversion
of a text to a number is not modelled; the parser does not accept it (`Types.builtinTable`). -/
def assign : Interp.Value Val → Interp.Value Val → Option (Interp.Value Val)
  | .atom (.int a), .atom (.int b) => some (.atom (.int (a.assign b)))
  | .atom (.bool _), .atom (.bool b) => some (.atom (.bool b))
  | .atom (.int a), .atom (.bool b) => some (.atom (.int ⟨a.width, if b then 1 else 0⟩))
  | .atom (.bool _), .atom (.int b) => some (.atom (.bool (b.stored != 0)))
  | .atom (.bool _), .atom (.str t) => some (.atom (.bool (Str.stringToBool t)))
  | .atom (.str _), .atom v => some (.atom (.str v.text))
  | _, _ => none

/-- The token of a comparison. -/
def cmpTy : Interp.Cmp → Ty
  | .eq => .COMPARE_EQUAL
  | .gt => .COMPARE_GREATER
  | .ge => .COMPARE_GREATER_EQUAL
  | .lt => .COMPARE_LESS
  | .le => .COMPARE_LESS_EQUAL

/-- The comparisons on values (AST/TreeInterpreter.cpp:213-218). -/
def comparison (c : Interp.Cmp) (a b : Val) : Option Bool :=
  match Calc.compare (cmpTy c) a b with
  | .ok (.bool r) => some r
  | _ => none

/-- `operator_unary_increment` and `operator_unary_decrement` (Runtime/OperatorOverloading.cpp:922-1050) on an integer variable
(`Obj.increment`, `Obj.decrement`); `BoolType` and `StringType` have no such operators (Runtime/Object.cpp:460-475): an exception. -/
def step (up : Bool) : Interp.Value Val → Option (Interp.Value Val)
  | .atom (.int o) => (if up then o.increment else o.decrement).map fun v => .atom (.int v)
  | _ => none

/-- The operators on values: those of `Verif.Calc`.  A new return value takes what is assigned to it
(Runtime/OperatorOverloading.cpp:37-41); a new variable is 0, false or empty (VirtualMachine/Repository.cpp:180-206). -/
def prim : Interp.Prim Val where
  truth := Calc.isTrue
  unary := fun op v =>
    match opOfText op, v with
    | some o, .atom a => result (Calc.unary o a)
    | some _, _ => none
    | none, v => if op = "++" then step true v else if op = "--" then step false v else none
  binary := fun op v w =>
    match opOfText op, v, w with
    | some o, .atom a, .atom b => result (Calc.binary o a b)
    | _, _, _ => none
  compare := fun c v w =>
    match v, w with
    | .atom a, .atom b => comparison c a b
    | _, _ => none
  assign := assign
  ret := fun old v =>
    match old with
    | .null => some v
    | _ => assign old v
  bool := fun b => .atom (.bool b)
  default := fun ty =>
    if ty = "int" then .atom (.int ⟨.w32, 0⟩)
    else if ty = "bool" then .atom (.bool false)
    else if ty = "int16" then .atom (.int ⟨.w16, 0⟩)
    else if ty = "int64" then .atom (.int ⟨.w64, 0⟩)
    else if ty = "string" then .atom (.str [])
    else .null
  isA := fun _ _ => false
  npe := fun _ => .null

/-- The type of a value (`QualifiedOuterface`). -/
def valueType : Interp.Value Val → TName
  | .atom (.int o) => match o.width with
    | .w16 => .b .int16
    | .w32 => .b .int32
    | .w64 => .b .int64
  | .atom (.bool _) => .b .bool
  | .atom (.str _) => .b .string
  | _ => .b .void

/-- What is printed for a value. -/
def valueText : Interp.Value Val → Text
  | .atom v => v.text
  | _ => []

/-- `visitPrint` (AST/TreeInterpreter.cpp:1156-1162) with `Printer::print` (Utils/Tools/Printer.cpp:22-37): a line for every value. -/
def printed (out : List (Interp.Value Val)) : Text := out.reverse.flatMap fun v => valueText v ++ ['\n']

/-! ## Scripts -/

/-- A function as it is executed. -/
abbrev Loaded := List (Header × List (Interp.Stmt Val))

/-- A step that may fail. -/
inductive Load (α : Type) where
  | ok (a : α)
  | rejected
  | failed
  | outside
deriving Repr

/-- What comes of reading tokens. -/
def Load.ofRes {α : Type} : Expr.Res α → Load α
  | .ok a _ => .ok a
  | .error => .rejected
  | .undefined => .failed
  | .outside => .outside
  | .noFuel => .failed

/-- Outside of this model. -/
def Load.ofOption {α : Type} : Option α → Load α
  | some a => .ok a
  | none => .outside

/-- The next step. -/
def Load.bind {α β : Type} : Load α → (α → Load β) → Load β
  | .ok a, k => k a
  | .rejected, _ => .rejected
  | .failed, _ => .failed
  | .outside, _ => .outside

/-- `generateAST` (AST/TreeGenerator.cpp:154-169) for one function. -/
def tree (hs : List Header) (h : Header) : Load (List (Interp.Stmt Val)) :=
  (Load.ofRes (Stmt.method (site hs h) h.throws h.symbols h.body)).bind fun b => .ofOption (stmts b)

/-- `TreeGenerator::process` for all functions of the global scope (AST/TreeGenerator.cpp:600-673). -/
def trees (hs : List Header) : List Header → Load Loaded
  | [] => .ok []
  | h :: gs => (tree hs h).bind fun b => (trees hs gs).bind fun l => .ok ((h, b) :: l)

/-- `createScript` (VirtualMachine/VirtualMachine.cpp:142-208) with `Analyser::processTokens` (Designtime/Analyser.cpp:733-747),
which checks the brackets first. -/
def load (text : Text) : Load Loaded :=
  match Lex.tokenize text with
  | .ok ts =>
    if Brackets.sane ts then
      (Load.ofRes (Decl.analyse ts)).bind fun ds => (Load.ofOption (headers ds.1)).bind fun hs =>
        if definable hs then trees hs hs else .rejected
    else .rejected
  | .syntaxError => .rejected
  | .undefined => .failed

/-- A function for the interpreter. -/
def method (f : Header × List (Interp.Stmt Val)) : Interp.Method Val :=
  ⟨f.1.params.map fun p => (String.ofList p.1, none), f.1.ty = .b .void, .body f.2⟩

/-- The function that a call finds (AST/TreeInterpreter.cpp:268-300, Scope.cpp:360-401). -/
def callee (l : Loaded) (f : Text) (vs : List (Interp.Value Val)) : Option (Interp.Method Val) :=
  (l.find? fun g => g.1.name = f &&
    Scope.isSignatureValid g.1.signature (vs.map fun v => String.ofList (typeText (valueType v)))).map method

/-- The functions of the script; there are no classes. -/
def prog (l : Loaded) : Interp.Prog Val where
  method := fun c f vs => if c.isNone then callee l f.toList vs else none
  ctor := fun _ _ => none
  fields := fun _ => []

/-- `VirtualMachine::run` (VirtualMachine/VirtualMachine.cpp:424-445) without parameters: `fuel` steps of the interpreter. -/
def runLoaded (fuel : Nat) (l : Loaded) : Outcome :=
  match callee l "Main".toList [] with
  | none => .failed
  | some m =>
    match Interp.run prim (prog l) fuel m none [] (Interp.start []) with
    | .ok _ s => if s.cf = .throw then .thrown (printed s.out) else .ended (printed s.out)
    | .raise _ s => .thrown (printed s.out)
    | .fatal => .failed
    | .ub => .failed
    | .fuel => .running

/-- `runScriptFromString` (VirtualMachine/VirtualMachine.cpp:454-459). -/
def runScript (fuel : Nat) (text : Text) : Outcome :=
  match load text with
  | .ok l => runLoaded fuel l
  | .rejected => .rejected
  | .failed => .failed
  | .outside => .outside

end Verif.Whole
