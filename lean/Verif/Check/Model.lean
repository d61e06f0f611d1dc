import Verif.Interp.Model

/-!
# The compiler's control flow checks

Model of the checks `Projects/Core/Core/AST/TreeGenerator.cpp` (all line numbers refer to it)
makes while it turns the tokens of a method into the syntax tree of `Verif.Interp.Model`:

* `break` and `continue` are only allowed where a loop or a `switch` surrounds them,
* a block of a `switch` needs a control flow statement,
* a method with a result needs a `return` or `throw`,
* a method that is not marked with `throws` must not throw.

The generator checks while it parses; here the checks are functions of the resulting tree.
Simplifications: `default` comes after all cases and `finally` after all `catch` blocks (the parser
accepts every order), and a missing `default` is an empty block, as in the interpreter model.
-/

namespace Verif
namespace Check

open Interp

variable {A : Type}

/-! ## `break` and `continue` -/

mutual

/-- `process_break`, `process_continue` (1041-1056, 1101-1116): whether a statement contains no
misplaced `break` or `continue`.  `allow` is the flag of the innermost scope
(`StackFrame.cpp:19-22`), `inner` the argument of `process_statement` (1818-1823): a block in braces
is opened with `inner || allow` (`pushScope`, 2236-2245), all other statements ignore it. -/
def jumps (allow inner : Bool) : Stmt A → Bool
  | .brk => allow
  | .cont => allow
  -- process_if (1449-1477)
  | .ite _ t e => jumps allow false t && jumps allow false e
  -- process_while (2217-2234)
  | .while _ b => jumps allow true b
  -- process_for (1226-1275): the iteration statement is parsed like the body (1265)
  | .for i _ s b => jumps allow false i && jumps allow true s && jumps allow true b
  -- process_foreach (1281-1440)
  | .foreach _ _ _ b => jumps allow true b
  | .foreachIt _ _ _ _ _ b => jumps allow true b
  -- process_switch (1876-1963)
  | .switch _ cases d => jumpsCases cases && jumpsList true d
  -- process_try (1996-2089)
  | .try b cs f => jumpsList allow b && jumpsCatches allow cs && jumpsOpt allow f
  | .block b => jumpsList (inner || allow) b
  | _ => true

/-- The statements of a block (`process`, 678-710). -/
def jumpsList (allow : Bool) : List (Stmt A) → Bool
  | [] => true
  | st :: b => jumps allow false st && jumpsList allow b

/-- The blocks of a `switch` allow both (1908, 1925). -/
def jumpsCases : List (Expr A × List (Stmt A)) → Bool
  | [] => true
  | (_, b) :: cs => jumpsList true b && jumpsCases cs

/-- The `catch` blocks (2049-2051). -/
def jumpsCatches (allow : Bool) : List (Option (Name × Name) × List (Stmt A)) → Bool
  | [] => true
  | (_, b) :: cs => jumpsList allow b && jumpsCatches allow cs

/-- The `finally` block (2066). -/
def jumpsOpt (allow : Bool) : Option (List (Stmt A)) → Bool
  | none => true
  | some b => jumpsList allow b

end

/-! ## The compile time control flow -/

mutual

/-- The generator's `mControlFlow` behind a statement, given its value in front of it: every control
flow statement overwrites it, wherever it stands. -/
def flow (c : CF) : Stmt A → CF
  -- process_break, process_continue, process_exit, process_return, process_throw
  | .brk => .brk
  | .cont => .cont
  | .exit _ => .exit
  | .ret _ => .ret
  | .throw _ => .throw
  | .ite _ t e => flow (flow c t) e
  | .while _ b => flow c b
  | .for i _ s b => flow (flow (flow c i) s) b
  | .foreach _ _ _ b => flow c b
  | .foreachIt _ _ _ _ _ b => flow c b
  | .switch _ cases d => flowDefault (flowCases c cases) d
  | .try b cs f => flowOpt (flowCatches (flowList .normal b) cs) f
  -- generate (128-151) starts every block in braces with a normal control flow
  | .block b => flowList .normal b
  | _ => c

def flowList (c : CF) : List (Stmt A) → CF
  | [] => c
  | st :: b => flowList (flow c st) b

def flowCases (c : CF) : List (Expr A × List (Stmt A)) → CF
  | [] => c
  | (_, b) :: cs => flowCases (flowList .normal b) cs

/-- The `default` block of a `switch`; the empty list is a missing one. -/
def flowDefault (c : CF) : List (Stmt A) → CF
  | [] => c
  | st :: b => flowList (flow .normal st) b

def flowCatches (c : CF) : List (Option (Name × Name) × List (Stmt A)) → CF
  | [] => c
  | (_, b) :: cs => flowCatches (flowList .normal b) cs

def flowOpt (c : CF) : Option (List (Stmt A)) → CF
  | none => c
  | some b => flowList .normal b

end

mutual

/-- The blocks of every `switch` in a statement have a control flow statement
(`needsControlStatement`, 144-146). -/
def controls : Stmt A → Bool
  | .ite _ t e => controls t && controls e
  | .while _ b => controls b
  | .for i _ s b => controls i && controls s && controls b
  | .foreach _ _ _ b => controls b
  | .foreachIt _ _ _ _ _ b => controls b
  | .switch _ cases d => controlsCases cases && controlsList d && (d.isEmpty || flowDefault .normal d != .normal)
  | .try b cs f => controlsList b && controlsCatches cs && controlsOpt f
  | .block b => controlsList b
  | _ => true

def controlsList : List (Stmt A) → Bool
  | [] => true
  | st :: b => controls st && controlsList b

def controlsCases : List (Expr A × List (Stmt A)) → Bool
  | [] => true
  | (_, b) :: cs => controlsList b && flowList .normal b != .normal && controlsCases cs

def controlsCatches : List (Option (Name × Name) × List (Stmt A)) → Bool
  | [] => true
  | (_, b) :: cs => controlsList b && controlsCatches cs

def controlsOpt : Option (List (Stmt A)) → Bool
  | none => true
  | some b => controlsList b

end

/-! ## Thrown exceptions -/

mutual

/-- `mThrownExceptions` behind a statement, given its value in front of it.  `ty` is the static
result type of an expression. -/
def thrown (ty : Expr A → Name) (T : List Name) : Stmt A → List Name
  -- process_throw (1969-1990)
  | .throw (some e) => ty e :: T
  | .ite _ t e => thrown ty (thrown ty T t) e
  | .while _ b => thrown ty T b
  | .for i _ s b => thrown ty (thrown ty (thrown ty T i) s) b
  | .foreach _ _ _ b => thrown ty T b
  | .foreachIt _ _ _ _ _ b => thrown ty T b
  | .switch _ cases d => thrownList ty (thrownCases ty T cases) d
  -- process_try (1996-2089): 2003, 2077-2083
  | .try b cs f =>
    (if cs.isEmpty then [] else thrownOpt ty (thrownCatches ty (thrownList ty [] b) cs) f) ++ T
  | .block b => thrownList ty T b
  | _ => T

def thrownList (ty : Expr A → Name) (T : List Name) : List (Stmt A) → List Name
  | [] => T
  | st :: b => thrownList ty (thrown ty T st) b

def thrownCases (ty : Expr A → Name) (T : List Name) : List (Expr A × List (Stmt A)) → List Name
  | [] => T
  | (_, b) :: cs => thrownCases ty (thrownList ty T b) cs

/-- The `catch` blocks (2013-2059): a block with a type removes this type, a block without a type
removes everything; then the block itself is processed. -/
def thrownCatches (ty : Expr A → Name) (T : List Name) :
    List (Option (Name × Name) × List (Stmt A)) → List Name
  | [] => T
  | (some (t, _), b) :: cs => thrownCatches ty (thrownList ty (T.filter (· != t)) b) cs
  | (none, b) :: cs => thrownCatches ty (thrownList ty [] b) cs

def thrownOpt (ty : Expr A → Name) (T : List Name) : Option (List (Stmt A)) → List Name
  | none => T
  | some b => thrownList ty T b

end

/-! ## Returned types -/

mutual

/-- `process_return` (1751-1772): the static type of every returned expression is the declared one. -/
def returns (ty : Expr A → Name) (r : Name) : Stmt A → Bool
  | .ret none => r == "void"
  | .ret (some e) => ty e == r
  | .ite _ t e => returns ty r t && returns ty r e
  | .while _ b => returns ty r b
  | .for i _ s b => returns ty r i && returns ty r s && returns ty r b
  | .foreach _ _ _ b => returns ty r b
  | .foreachIt _ _ _ _ _ b => returns ty r b
  | .switch _ cases d => returnsCases ty r cases && returnsList ty r d
  | .try b cs f => returnsList ty r b && returnsCatches ty r cs && returnsOpt ty r f
  | .block b => returnsList ty r b
  | _ => true

def returnsList (ty : Expr A → Name) (r : Name) : List (Stmt A) → Bool
  | [] => true
  | st :: b => returns ty r st && returnsList ty r b

def returnsCases (ty : Expr A → Name) (r : Name) : List (Expr A × List (Stmt A)) → Bool
  | [] => true
  | (_, b) :: cs => returnsList ty r b && returnsCases ty r cs

def returnsCatches (ty : Expr A → Name) (r : Name) : List (Option (Name × Name) × List (Stmt A)) → Bool
  | [] => true
  | (_, b) :: cs => returnsList ty r b && returnsCatches ty r cs

def returnsOpt (ty : Expr A → Name) (r : Name) : Option (List (Stmt A)) → Bool
  | none => true
  | some b => returnsList ty r b

end

/-! ## Methods -/

/-- What the checks need to know about a method: its declared result type, whether it is marked
with `throws` (`MethodAttributes`), and the static types of the expressions in it. -/
structure Sig (A : Type) where
  result : Name
  throws : Bool
  ty : Expr A → Name

/-- `generateAST` (156-168) with `finalize` (83-123): the checks the body of a method has to pass. -/
def accepts (g : Sig A) (b : List (Stmt A)) : Bool :=
  jumpsList false b && controlsList b && returnsList g.ty g.result b &&
    (g.throws || (thrownList g.ty [] b).isEmpty) &&
    (g.result == "void" || flowList .normal b == .ret || flowList .normal b == .throw)

end Check
end Verif
