import Verif.Expr.Model

/-!
# The statement parser (`Projects/Core/Core/AST/TreeGenerator.cpp`)

Models `process` (675-710), `generate` (125-152), `generateAST` (154-169), `finalize` (83-123), `collectScopeTokens` (47-60) and
the `process_...` functions for statements (905-948, 1041-1054, 1101-1114, 1159-1192, 1226-1375, 1380-1442, 1449-1476,
1512-1564, 1729-1782, 1818-1851, 1876-2157, 2179-2234), for a method outside of classes.  All line numbers are those of
`TreeGenerator.cpp` unless another file is named.

As in `Verif.Expr`, an iterator is the list of tokens from its position on.  The tokens of a block are copied to a list of their
own (`collectScopeTokens`), so that reading behind the last statement of a block is undefined behaviour.

Simplifications: what lies outside of the method is a parameter (`Site`); positions, messages, warnings and the unreachable code
hint are dropped; `nullptr` as a block is the empty block.  Expressions are those of `Verif.Expr`.
-/

namespace Verif.Stmt

open Verif.Str (Text)
open Verif.Lex (Tok Ty Cat)
open Verif.Types (TName)
open Verif.Expr (Env Sym Kind Res Expr resolve expect)

/-- `Runtime::ControlFlow` as used by `mControlFlow`. -/
inductive Flow where
  | normal | brk | cont | ret | throw | exit
deriving Repr, DecidableEq

/-- What surrounds the method: the names, types and methods of the program (`env`), the types whose instances are atomic
(`Object::isAtomicType`), the types of which `Repository::createInstance` makes an instance
(VirtualMachine/Repository.cpp:104-176), the expressions `foreach` can iterate over (1303-1362), the method calls with a constant
result (1679), the declared result type. -/
structure Site where
  env : Env
  atomic : TName → Bool
  creatable : TName → Bool
  iterates : Expr → Bool
  constCall : Expr → Bool
  result : TName

/-- A declaration (Statements.h, `TypeDeclaration`): type, name, `const`, `ref`. -/
structure DeclNode where
  ty : TName
  name : Text
  const : Bool
  ref : Bool
deriving Repr, DecidableEq

/-- The syntax tree (Statements.h).  `nop` is `nullptr`. -/
inductive Node where
  | nop
  | expr (e : Expr)
  | decl (d : DeclNode) (init : Option Expr)
  | infer (d : DeclNode) (init : Expr)
  | block (b : List Node)
  | ite (c : Expr) (t e : Node)
  | while (c : Expr) (b : Node)
  | for (i : Node) (c : Option Expr) (s b : Node)
  | foreach (d : DeclNode) (e : Expr) (b : Node)
  | switch (e : Expr) (cases : List (Expr × List Node)) (default : Option (List Node))
  | try (b : List Node) (catches : List (Option DeclNode × List Node)) (fin : Option (List Node))
  | ret (e : Option Expr)
  | throw (e : Option Expr)
  | brk
  | cont
  | assert (c : Expr) (msg : Option Expr)
  | print (e : Expr)
  | exit (e : Expr)
  | delete (e : Expr)
deriving Repr

/-- The state of the generator: the scopes of the method, innermost first, `mControlFlow` and `mThrownExceptions`. -/
structure St where
  scopes : List (List (Text × Sym))
  flow : Flow
  thrown : List TName
deriving Repr, DecidableEq

/-- The innermost scope that knows a name decides (`SymbolScope::resolve`, Scope.cpp:111-140). -/
def find (scopes : List (List (Text × Sym))) (n : Text) : Option Sym :=
  scopes.findSome? (·.lookup n)

/-- The surroundings of an expression at this point of the method. -/
def Site.at (w : Site) (s : St) : Env :=
  { w.env with lookup := fun n => (find s.scopes n).or (w.env.lookup n) }

/-- `SymbolScope::define` (Scope.cpp:33-46): a name can be defined once in a scope. -/
def St.define (s : St) (n : Text) (y : Sym) : Option St :=
  match s.scopes with
  | [] => none
  | sc :: scs => if (sc.lookup n).isSome then none else some { s with scopes := ((n, y) :: sc) :: scs }

/-- `pushScope` (2236-2245). -/
def St.push (s : St) : St := { s with scopes := [] :: s.scopes }

/-- `popScope` (StackFrame.cpp:55-64). -/
def St.pop (s : St) : St := { s with scopes := s.scopes.tail }

/-- The beginning of `generate` (125-136): a new scope, and the control flow is forgotten. -/
def St.enter (s : St) : St := { s.push with flow := .normal }

/-- The end of `generate` (143-152). -/
def leave (needs : Bool) (b : List Node × St) : Option (List Node × St) :=
  if needs ∧ b.2.flow = .normal then none else some (b.1, b.2.pop)

def St.setFlow (s : St) (f : Flow) : St := { s with flow := f }

/-- `Expression` parsed where the method stands. -/
def expression (w : Site) (s : St) (ts : List Tok) : Res Expr := Expr.parse (w.at s) ts

/-! ## Declarations -/

/-- `parseMutability` (Designtime/Parser/Parser.cpp:455-464) with `Mutability::convert` (Common/Attributes/Types.cpp:149-155) and
the check behind it (2118-2120, 2188-2190): is the variable constant? -/
def mutability : List Tok → Res Bool
  | [] => .undefined
  | t :: ts =>
    if t.ty = .MUTABILITY then
      if t.content = "const".toList then .ok true ts
      else if t.content = "modify".toList then .ok false ts
      else .error
    else .ok false (t :: ts)

/-- `parseAccessMode` (Designtime/Parser/Parser.cpp:402-411) with `AccessMode::convert` (Common/Attributes/Types.cpp:15-21): is it
a reference?  The word `default` is recognised whatever kind of token it is. -/
def accessMode (dflt : Bool) : List Tok → Res Bool
  | [] => .undefined
  | t :: ts =>
    if t.ty = .ACCESS_MODE ∨ t.content = "default".toList then .ok (t.content = "ref".toList) ts
    else .ok dflt (t :: ts)

/-- A variable that has been declared. -/
def varSym (w : Site) (ty : TName) (const : Bool) : Sym := ⟨.var, ty, w.atomic ty, const⟩

/-- The initialisation at the end of `process_type` (2131-2154): `init` is false in `foreach` and `catch`. -/
def initialisation (w : Site) (s : St) (init : Bool) (ty : TName) (ref : Bool) : List Tok → Res (Option Expr)
  | [] => .undefined
  | t :: ts =>
    if t.ty = .ASSIGN then
      if init = false then .error
      else (expression w s ts).bind fun e rest =>
        match Expr.typeOf w.env ty .ASSIGN e.ty with
        | some _ => .ok (some e) rest
        | none => .error
    else if init ∧ ref ∧ w.atomic ty then .error
    else .ok none (t :: ts)

/-- `process_type` (2095-2157): the declaration, its initialisation and the state with the new name; the name is defined before
the initialisation is read. -/
def declaration (w : Site) (s : St) (init : Bool) (ts : List Tok) : Res ((DeclNode × Option Expr) × St) :=
  (resolve (w.at s) ts).bind fun y ts =>
    if y.2.kind ≠ .type then .error
    else match ts with
      | [] => .undefined
      | x :: ts =>
        if x.ty ≠ .IDENTIFIER then .error
        else (mutability ts).bind fun const ts =>
          if w.creatable y.2.ty = false then .error
          else match s.define x.content (varSym w y.2.ty const) with
            | none => .error
            | some s => (accessMode (!w.atomic y.2.ty) ts).bind fun ref ts =>
              (initialisation w s init y.2.ty ref ts).bind fun e ts => .ok ((⟨y.2.ty, x.content, const, ref⟩, e), s) ts

/-- `isInnerConst` (Expression.h:76-97, 425-433, 553-562, 653-665). -/
def isConst (w : Site) : Expr → Bool
  | .sym _ y => y.const
  | .assign _ y _ _ => y.const
  | .call f args ty => w.constCall (.call f args ty)
  | .opCall o f args ty => w.constCall (.opCall o f args ty)
  | _ => false

/-- `process_var` (2179-2211) behind the keyword. -/
def inference (w : Site) (s : St) : List Tok → Res (Node × St)
  | [] => .undefined
  | x :: ts =>
    if x.ty ≠ .IDENTIFIER then .error
    else (mutability ts).bind fun const ts =>
      (accessMode false ts).bind fun ref ts =>
        (expect .ASSIGN ts).bind fun _ ts =>
          (expression w s ts).bind fun e ts =>
            if const = false ∧ isConst w e ∧ w.atomic e.ty = false then .error
            else if w.creatable e.ty = false then .error
            else match s.define x.content (varSym w e.ty const) with
              | none => .error
              | some s => .ok (.infer ⟨e.ty, x.content, const, ref⟩ e, s) ts

/-! ## Statements without statements in them -/

/-- `process_identifier` without type casts (1380-1442), when no declaration follows (1406-1417). -/
def nameUse (env : Env) (y : Text × Sym) : List Tok → Res Expr
  | [] => .undefined
  | u :: rest =>
    if u.cat = .assignment then
      (Expr.parse env rest).bind fun e rest => Res.ofOption (Expr.buildAssign env y.1 y.2 u.ty e) rest
    else if u.ty = .PARENTHESIS_OPEN then
      match Expr.closing rest with
      | none => .undefined
      | some k =>
        (Expr.parseArgs env (10 * rest.length + 10) (rest.length - k) rest []).bind fun args _ =>
          Res.ofOption (Expr.buildCall env y.1 args) (rest.drop (k + 1))
    else if u.ty = .BRACKET_OPEN then .outside
    else if u.ty = .OPERATOR_DECREMENT ∨ u.ty = .OPERATOR_INCREMENT then
      Res.ofOption (Expr.buildIncDec env y.1 y.2 u.ty) rest
    else .ok (.sym y.1 y.2) (u :: rest)

/-- The part of `process_statement` for identifiers (1827-1836) with `process_assignment` (931-948) and `process_identifier`
(1380-1442). -/
def identifier (w : Site) (s : St) : List Tok → Res (Node × St)
  | [] => .undefined
  | [_] => .undefined
  | t :: u :: ts =>
    if u.cat = .assignment then
      (expression w s (t :: u :: ts)).bind fun e ts => .ok (.expr e, s) ts
    else
      (resolve (w.at s) (t :: u :: ts)).bind fun y rest =>
        if u.ty = .IDENTIFIER then
          (declaration w s true (t :: u :: ts)).bind fun d ts => .ok (.decl d.1.1 d.1.2, d.2) ts
        else (nameUse (w.at s) y rest).bind fun e ts => .ok (.expr e, s) ts

/-- An expression in parentheses, as in `exit`, `if`, `print`, `switch` and `while`. -/
def inParens (w : Site) (s : St) (ts : List Tok) : Res Expr :=
  (expect .PARENTHESIS_OPEN ts).bind fun _ ts =>
    (expression w s ts).bind fun e ts => (expect .PARENTHESIS_CLOSE ts).bind fun _ ts => .ok e ts

/-- `process_assert` (905-925); the semicolon is left behind. -/
def assertion (w : Site) (s : St) (ts : List Tok) : Res (Node × St) :=
  (expect .PARENTHESIS_OPEN ts).bind fun _ ts =>
    (expression w s ts).bind fun e ts =>
      match ts with
      | [] => .undefined
      | t :: ts =>
        if t.ty = .COMMA then
          (expression w s ts).bind fun m ts => (expect .PARENTHESIS_CLOSE ts).bind fun _ ts => .ok (.assert e (some m), s) ts
        else (expect .PARENTHESIS_CLOSE (t :: ts)).bind fun _ ts => .ok (.assert e none, s) ts

/-- `process_break` (1041-1054) and `process_continue` (1101-1114). -/
def jump (allow : Bool) (f : Flow) (nd : Node) (s : St) (ts : List Tok) : Res (Node × St) :=
  if allow = false then .error
  else (expect .SEMICOLON ts).bind fun _ ts => .ok (nd, s.setFlow f) ts

/-- `process_delete` (1159-1169). -/
def deletion (w : Site) (s : St) (ts : List Tok) : Res (Node × St) :=
  (expression w s ts).bind fun e ts => (expect .SEMICOLON ts).bind fun _ ts => .ok (.delete e, s) ts

/-- `process_exit` (1175-1192). -/
def leaving (w : Site) (s : St) (ts : List Tok) : Res (Node × St) :=
  (inParens w s ts).bind fun e ts => (expect .SEMICOLON ts).bind fun _ ts => .ok (.exit e, s.setFlow .exit) ts

/-- `process_print` (1729-1745). -/
def printing (w : Site) (s : St) (ts : List Tok) : Res (Node × St) :=
  (inParens w s ts).bind fun e ts => (expect .SEMICOLON ts).bind fun _ ts => .ok (.print e, s) ts

/-- The optional expression of `return` and `throw`. -/
def optional (w : Site) (s : St) : List Tok → Res (Option Expr)
  | [] => .undefined
  | t :: ts =>
    if t.ty = .SEMICOLON then .ok none (t :: ts)
    else (expression w s (t :: ts)).bind fun e ts => .ok (some e) ts

/-- The type of what is returned (1757-1763). -/
def resultType : Option Expr → TName
  | none => .b .void
  | some e => e.ty

/-- `process_return` (1751-1772). -/
def returning (w : Site) (s : St) (ts : List Tok) : Res (Node × St) :=
  (optional w s ts).bind fun e ts =>
    if w.result ≠ resultType e then .error
    else (expect .SEMICOLON ts).bind fun _ ts => .ok (.ret e, s.setFlow .ret) ts

/-- `mThrownExceptions.insert`. -/
def insertType (l : List TName) (t : TName) : List TName := if t ∈ l then l else t :: l

/-- The exceptions known after a `throw` (1978-1982). -/
def afterThrow (l : List TName) : Option Expr → List TName
  | none => l
  | some e => insertType l e.ty

/-- `process_throw` (1969-1988). -/
def throwing (w : Site) (s : St) (ts : List Tok) : Res (Node × St) :=
  (optional w s ts).bind fun e ts =>
    (expect .SEMICOLON ts).bind fun _ ts => .ok (.throw e, { s with flow := .throw, thrown := afterThrow s.thrown e }) ts

/-- `process_foreach` up to the body (1281-1366), behind `pushScope`. -/
def foreachHead (w : Site) (s : St) (ts : List Tok) : Res ((DeclNode × Expr) × St) :=
  (expect .PARENTHESIS_OPEN ts).bind fun _ ts =>
    (declaration w s false ts).bind fun d ts =>
      (expect .COLON ts).bind fun _ ts =>
        (Expr.parseLevel (w.at d.2) (10 * ts.length + 10) .arith ts).bind fun e ts =>
          if w.iterates e = false then .error
          else (expect .PARENTHESIS_CLOSE ts).bind fun _ ts => .ok ((d.1.1, e), d.2) ts

/-- The condition of a `for` statement (1248-1258); whatever token follows is skipped. -/
def forCondition (w : Site) (s : St) : List Tok → Res (Option Expr)
  | [] => .undefined
  | t :: ts =>
    if t.ty = .SEMICOLON then .ok none ts
    else (expression w s (t :: ts)).bind fun e ts =>
      match ts with
      | [] => .undefined
      | _ :: ts => .ok (some e) ts

/-- The head of a `catch` block (2022-2047), behind the keyword and `pushScope`. -/
def catchHead (w : Site) (s : St) : List Tok → Res (Option DeclNode × St)
  | [] => .undefined
  | t :: ts =>
    if t.ty = .PARENTHESIS_OPEN then
      (declaration w s false ts).bind fun d ts =>
        (expect .PARENTHESIS_CLOSE ts).bind fun _ ts =>
          .ok (some d.1.1, { d.2 with thrown := d.2.thrown.erase d.1.1.ty }) ts
    else .ok (none, { s with thrown := [] }) (t :: ts)

/-- Skip a token, whatever it is. -/
def skip : List Tok → Res Unit
  | [] => .undefined
  | _ :: ts => .ok () ts

/-- `insert(begin, end)` of a set into another one (2082). -/
def mergeTypes (l : List TName) (more : List TName) : List TName := more.foldl insertType l

/-! ## Statements -/

/-- The word of a keyword token. -/
def isWord (t : Tok) (w : String) : Bool := t.ty = .KEYWORD ∧ t.content = w.toList

/-- `push_back` of a node that is not `nullptr` (695-697). -/
def addNode (a : Node) (b : List Node) : List Node :=
  match a with
  | .nop => b
  | _ => a :: b

/-- The parts of a `try` statement collected so far. -/
structure Clauses where
  catches : List (Option DeclNode × List Node)
  fin : Option (List Node)

mutual

/-- `process_statement` (1818-1851).  `allow` is the flag of the innermost scope, `inner` the argument. -/
def statement (w : Site) : Nat → Bool → Bool → St → List Tok → Res (Node × St)
  | 0, _, _, _, _ => .noFuel
  | _ + 1, _, _, _, [] => .undefined
  | n + 1, inner, allow, s, t :: ts =>
    if t.ty = .BRACKET_CURLY_OPEN then
      (block w n (inner || allow) false s (t :: ts)).bind fun b ts =>
        (expect .BRACKET_CURLY_CLOSE ts).bind fun _ ts => .ok (.block b.1, b.2) ts
    else if t.ty = .IDENTIFIER then identifier w s (t :: ts)
    else if t.ty = .KEYWORD then keyword w n allow s t ts
    else if t.ty = .PARENTHESIS_OPEN then (expression w s (t :: ts)).bind fun e ts => .ok (.expr e, s) ts
    else if t.ty = .SEMICOLON then .ok (.nop, s) ts
    else .error

/-- `process_keyword` (1512-1564). -/
def keyword (w : Site) : Nat → Bool → St → Tok → List Tok → Res (Node × St)
  | 0, _, _, _, _ => .noFuel
  | n + 1, allow, s, t, ts =>
    if t.content = "assert".toList then assertion w s ts
    else if t.content = "break".toList then jump allow .brk .brk s ts
    else if t.content = "continue".toList then jump allow .cont .cont s ts
    else if t.content = "delete".toList then deletion w s ts
    else if t.content = "exit".toList then leaving w s ts
    else if t.content = "for".toList then
      -- process_for (1226-1275)
      (expect .PARENTHESIS_OPEN ts).bind fun _ ts =>
        match ts with
        | [] => .undefined
        | u :: us =>
          (if u.ty = .SEMICOLON then .ok (.nop, s.push) (u :: us) else statement w n false allow s.push (u :: us)).bind fun i ts =>
            (skip ts).bind fun _ ts =>
              (forCondition w i.2 ts).bind fun c ts =>
                match ts with
                | [] => .undefined
                | v :: vs =>
                  (if v.ty = .PARENTHESIS_CLOSE then .ok (.nop, i.2) (v :: vs) else statement w n true allow i.2 (v :: vs)).bind fun p ts =>
                    (skip ts).bind fun _ ts =>
                      (statement w n true allow p.2 ts).bind fun b ts => .ok (.for i.1 c p.1 b.1, b.2.pop) ts
    else if t.content = "foreach".toList then
      -- process_foreach (1281-1375)
      (foreachHead w s.push ts).bind fun h ts =>
        (statement w n true allow h.2 ts).bind fun b ts => .ok (.foreach h.1.1 h.1.2 b.1, b.2.pop) ts
    else if t.content = "if".toList then
      -- process_if (1449-1476)
      (inParens w s ts).bind fun c ts =>
        (statement w n false allow s ts).bind fun b ts =>
          match ts with
          | [] => .ok (.ite c b.1 .nop, b.2) []
          | u :: us =>
            if isWord u "else" then (statement w n false allow b.2 us).bind fun e ts => .ok (.ite c b.1 e.1, e.2) ts
            else .ok (.ite c b.1 .nop, b.2) (u :: us)
    else if t.content = "print".toList then printing w s ts
    else if t.content = "return".toList then returning w s ts
    else if t.content = "switch".toList then
      -- process_switch (1876-1963)
      (inParens w s ts).bind fun e ts =>
        (expect .BRACKET_CURLY_OPEN ts).bind fun _ ts =>
          (cases w n s [] none ts).bind fun c ts =>
            if w.env.isType e.ty = false then .error
            else (expect .BRACKET_CURLY_CLOSE ts).bind fun _ ts => .ok (.switch e c.1.1 c.1.2, c.2) ts
    else if t.content = "throw".toList then throwing w s ts
    else if t.content = "try".toList then
      -- process_try (1996-2089); the first `expect` is the one of `collectScopeTokens`
      (block w n allow false { s with thrown := [] } ts).bind fun b ts =>
        (expect .BRACKET_CURLY_CLOSE ts).bind fun _ ts =>
          (clauses w n allow b.2 ⟨[], none⟩ ts).bind fun c ts =>
            let thrown := if c.1.catches.isEmpty then [] else c.2.thrown
            .ok (.try b.1 c.1.catches c.1.fin, { c.2 with thrown := mergeTypes thrown s.thrown }) ts
    else if t.content = "var".toList then inference w s ts
    else if t.content = "while".toList then
      -- process_while (2217-2234)
      (inParens w s ts).bind fun c ts => (statement w n true allow s ts).bind fun b ts => .ok (.while c b.1, b.2) ts
    else match ts with
      | [] => .undefined
      | _ :: _ => .error

/-- The loop of `process` (678-710): `nullptr`s are dropped. -/
def statements (w : Site) : Nat → Bool → St → List Tok → Res (List Node × St)
  | 0, _, _, _ => .noFuel
  | _ + 1, _, s, [] => .ok ([], s) []
  | n + 1, allow, s, t :: ts =>
    if t.ty = .ENDOFFILE then .ok ([], s) (t :: ts)
    else (statement w n false allow s (t :: ts)).bind fun a ts =>
      (statements w n allow a.2 ts).bind fun b ts =>
        .ok (addNode a.1 b.1, b.2) ts

/-- `process_scope` (1776-1782) with `collectScopeTokens` (47-60) and `generate` (125-152); the remaining tokens begin with the
closing bracket. -/
def block (w : Site) : Nat → Bool → Bool → St → List Tok → Res (List Node × St)
  | 0, _, _, _, _ => .noFuel
  | n + 1, allow, needs, s, ts =>
    match Brackets.collectTree ts with
    | .error => .error
    | .undefined => .undefined
    | .ok body rest =>
      (statements w n allow s.enter body).bind fun b _ => Res.ofOption (leave needs b) rest

/-- The loop of `process_switch` (1895-1935). -/
def cases (w : Site) : Nat → St → List (Expr × List Node) → Option (List Node) → List Tok →
    Res ((List (Expr × List Node) × Option (List Node)) × St)
  | 0, _, _, _, _ => .noFuel
  | _ + 1, _, _, _, [] => .undefined
  | n + 1, s, cs, d, t :: ts =>
    if t.ty = .BRACKET_CURLY_CLOSE then .ok ((cs, d), s) (t :: ts)
    else if isWord t "case" then
      (expression w s ts).bind fun e ts =>
        (expect .COLON ts).bind fun _ ts =>
          (block w n true true s ts).bind fun b ts =>
            (expect .BRACKET_CURLY_CLOSE ts).bind fun _ ts => cases w n b.2 (cs ++ [(e, b.1)]) d ts
    else if isWord t "default" then
      -- `defaultStatement` is not null: a block with a control statement is not empty
      if d.isSome then .error
      else (expect .COLON ts).bind fun _ ts =>
        (block w n true true s ts).bind fun b ts =>
          (expect .BRACKET_CURLY_CLOSE ts).bind fun _ ts => cases w n b.2 cs (some b.1) ts
    else .error

/-- The loop of `process_try` (2014-2075), from behind the closing bracket of the last block; only the text of the next token
counts. -/
def clauses (w : Site) : Nat → Bool → St → Clauses → List Tok → Res (Clauses × St)
  | 0, _, _, _, _ => .noFuel
  | _ + 1, _, s, c, [] => .ok (c, s) []
  | n + 1, allow, s, c, t :: ts =>
    if t.content = "catch".toList then
      (catchHead w s.push ts).bind fun h ts =>
        (block w n allow false h.2 ts).bind fun b ts =>
          (expect .BRACKET_CURLY_CLOSE ts).bind fun _ ts =>
            clauses w n allow b.2.pop { c with catches := c.catches ++ [(h.1, b.1)] } ts
    else if t.content = "finally".toList then
      -- an empty `finally` block is `nullptr`, so that another one may follow it
      if c.fin.any (!·.isEmpty) then .error
      else (block w n allow false s ts).bind fun b ts =>
        (expect .BRACKET_CURLY_CLOSE ts).bind fun _ ts => clauses w n allow b.2 { c with fin := some b.1 } ts
    else .ok (c, s) (t :: ts)

end

/-- `finalize` (83-123): the checks at the end of a method. -/
def complete (w : Site) (throws : Bool) (s : St) : Bool :=
  (throws || s.thrown.isEmpty) && (w.result == .b .void || s.flow == .ret || s.flow == .throw)

/-- `initialize` (200-233): the parameters are defined in the scope of the method. -/
def parameters : List (Text × Sym) → St → Option St
  | [], s => some s
  | (n, y) :: ps, s =>
    -- unnamed parameters are skipped
    if n = [] then parameters ps s else (s.define n y).bind (parameters ps)

/-- Enough fuel for every list of tokens of this length. -/
def fuel (ts : List Tok) : Nat := 4 * ts.length + 4

/-- `generateAST` (154-169): the syntax tree of a method. -/
def method (w : Site) (throws : Bool) (params : List (Text × Sym)) (ts : List Tok) : Res (List Node) :=
  match parameters params ⟨[[]], .normal, []⟩ with
  | none => .error
  | some s =>
    (statements w (fuel ts) false s.enter ts).bind fun b rest =>
      if complete w throws b.2.pop then .ok b.1 rest else .error

end Verif.Stmt
