import Verif.AMap

/-!
# The tree interpreter

Model of `Projects/Core/Core/AST/TreeInterpreter.cpp` (all line numbers without a
file name refer to it) together with the thread's frame stack
(`VirtualMachine/Threads.cpp`, `VirtualMachine/StackFrame.cpp`).

What is kept:

* the interpreter's `mControlFlow`, which every statement inspects and changes,
* the C++ exceptions of type `Runtime::ControlFlow::E` that leave an expression
  (`Res.raise`), and the `tryControl` macro that turns them back into `mControlFlow`,
* the frames of the thread, the scope stack of every frame, and which scopes are
  still allocated: using a destroyed scope is the outcome `Res.ub`,
* the thread's exception data, which is shared by all frames,
* one interpreter object per constructor call (`Thread::execute`).

What is simplified:

* the atomic values `A` and everything computed from values alone (operators,
  conversions, truth, type tests, default values) are parameters (`Prim`),
* classes are a parameter (`Prog`): the members of an object are its own and the
  inherited ones together, and overload resolution is a function of the argument values,
* destructors of script objects are not run (see `Verif.Memory`, `Verif.Heap`),
* native methods do not call back into the script and do not print,
* there is one thread (`thread(0)` is hard wired in `Object::Constructor`).
-/

namespace Verif
namespace Interp

abbrev Name := String

/-- A runtime object: invalid (uninitialised or null), an atomic value, or a reference to an
instance of a class (`Object.h`, `Runtime/AtomicValue.h`). -/
inductive Value (A : Type) where
  | null
  | atom (a : A)
  | obj (cls : Name) (o : Nat)
  deriving DecidableEq

/-- `Runtime/ControlFlow.h`: the states of `mControlFlow`. -/
inductive CF where
  | normal | brk | cont | ret | throw | exit
  deriving DecidableEq

/-- The logical operators (169-225). -/
inductive BoolOp where
  | and | nand | nor | or
  deriving DecidableEq

/-- The comparisons; `!=` is parsed as `!(==)` (`TreeGenerator.cpp:266-275, 318-320`). -/
inductive Cmp where
  | eq | gt | ge | lt | le
  deriving DecidableEq

/-- A symbol expression: a name and the members selected from it (`AST/Expression.h`). -/
structure Path where
  head : Name
  tail : List Name
  deriving DecidableEq

/-- `AST/Expression.h`: the expression nodes.  `typeid`, `is`, casts and the operators on r-values are
`unary`, see `Prim.unary`. -/
inductive Expr (A : Type) where
  | lit (a : A)
  | sym (p : Path)
  | assign (p : Path) (e : Expr A)
  | incr (op : Name) (p : Path)
  | unary (op : Name) (e : Expr A)
  | validate (e : Expr A)
  | binary (op : Name) (l r : Expr A)
  | compare (c : Cmp) (l r : Expr A)
  | bool (op : BoolOp) (l r : Expr A)
  | ternary (c t e : Expr A)
  | elvis (c e : Expr A)
  | call (path : List Name) (f : Name) (args : List (Expr A))
  | new (cls : Name) (args : List (Expr A))
  | dot (l r : Expr A)

/-- `AST/Statement.h`: the statement nodes.  `nop` is the null node of an empty statement or
block, which `visit` skips (936-940). -/
inductive Stmt (A : Type) where
  | nop
  | expr (e : Expr A)
  | assign (p : Path) (e : Expr A)
  | decl (ty x : Name) (init : Option (Expr A))
  | print (e : Expr A)
  | assert (e : Expr A) (msg : Option (Expr A))
  | delete (e : Expr A)
  | exit (e : Expr A)
  | ret (e : Option (Expr A))
  | throw (e : Option (Expr A))
  | brk
  | cont
  | ite (c : Expr A) (t e : Stmt A)
  | while (c : Expr A) (b : Stmt A)
  | for (init : Stmt A) (c : Option (Expr A)) (iter b : Stmt A)
  | foreach (ty x : Name) (coll : Expr A) (b : Stmt A)
  | foreachIt (ty x : Name) (path : List Name) (f : Name) (args : List (Expr A)) (b : Stmt A)
  | switch (e : Expr A) (cases : List (Expr A × List (Stmt A))) (dflt : List (Stmt A))
  | try (b : List (Stmt A)) (catches : List (Option (Name × Name) × List (Stmt A)))
      (fin : Option (List (Stmt A)))
  | block (b : List (Stmt A))

/-- What a method does: run statements, run native code (a value or the text of the
`std::exception` it throws, as an exception value), or nothing because it is abstract. -/
inductive Code (A : Type) where
  | body (b : List (Stmt A))
  | native (f : List (Value A) → Except (Value A) (Value A))
  | abstract

/-- `Common/Method.h`: the parameters with their default values, whether the return type is
`void`, and the code. -/
structure Method (A : Type) where
  params : List (Name × Option (Value A))
  isVoid : Bool
  code : Code A

/-- The loaded program: the methods of a class (or of the global scope, `none`) by name and
arguments, the constructors, and the members of a fresh instance. -/
structure Prog (A : Type) where
  method : Option Name → Name → List (Value A) → Option (Method A)
  ctor : Name → List (Value A) → Option (Method A)
  fields : Name → AMap Name (Value A)

/-- Everything computed from values alone; `none` is a C++ exception that no script can catch
(`InvalidOperation`, `TypeCastException`, ...). -/
structure Prim (A : Type) where
  /-- `AtomicValue::toBool`. -/
  truth : A → Bool
  /-- `Runtime/OperatorOverloading.cpp`, `TypeCast.cpp`: operators with one operand. -/
  unary : Name → Value A → Option (Value A)
  /-- `Runtime/OperatorOverloading.cpp`: operators with two operands. -/
  binary : Name → Value A → Value A → Option (Value A)
  /-- The comparisons when the left operand is not an instance of a class. -/
  compare : Cmp → Value A → Value A → Option Bool
  /-- `operator_binary_assign`: the old value (it determines the type) and the assigned one. -/
  assign : Value A → Value A → Option (Value A)
  /-- `operator_binary_assign` on the frame's return value. -/
  ret : Value A → Value A → Option (Value A)
  /-- `BoolType(b)`. -/
  bool : Bool → Value A
  /-- `Repository::createInstance`: the value of a variable that has just been declared. -/
  default : Name → Value A
  /-- `Object::isInstanceOf`. -/
  isA : Name → Value A → Bool
  /-- The text of a NullPointerException. -/
  npe : Name → Value A

/-- A scope: the symbols and the enclosing scope of a block or method scope, or a C++ object on
the native stack that has been pushed as a scope and stands for the object it refers to. -/
inductive SRef where
  | blk (i : Nat)
  | obj (cls : Name) (o : Nat)
  | glob
  deriving DecidableEq

inductive Scope (A : Type) where
  | scope (vars : AMap Name (Value A)) (parent : SRef)
  | alias (v : Value A)

/-- `StackFrame.h`: the scope stack (innermost first) with the `mAllowDelete` flags, and the
return value. -/
structure Frame (A : Type) where
  stack : List (Nat × Bool)
  ret : Value A

/-- The state of the interpreter and its thread: `cf` is `mControlFlow`, `cur` is the index of
`mFrame` in the thread's frames (oldest first), `scopes` are the scopes that are allocated (`none`:
destroyed or not yet created), `next` is the next unused scope, `exc` the thread's exception
data, `out` what has been printed (latest first). -/
structure St (A : Type) where
  cf : CF
  cur : Nat
  frames : List (Frame A)
  scopes : Nat → Option (Scope A)
  next : Nat
  objs : List (AMap Name (Value A))
  globals : AMap Name (Value A)
  exc : Option (Value A)
  out : List (Value A)

/-- How a piece of interpreter code ends: it returns, it throws a C++ exception of type
`ControlFlow::E`, it throws another C++ exception (which ends the script), it has undefined
behaviour, or the fuel of this model is used up. -/
inductive Res (A : Type) (α : Type) where
  | ok (a : α) (s : St A)
  | raise (c : CF) (s : St A)
  | fatal
  | ub
  | fuel

variable {A : Type}

def Res.bind {α β : Type} (r : Res A α) (k : α → St A → Res A β) : Res A β :=
  match r with
  | .ok a s => k a s
  | .raise c s => .raise c s
  | .fatal => .fatal
  | .ub => .ub
  | .fuel => .fuel

/-- The macro `tryControl` (37-44): a `ControlFlow::E` exception becomes the control flow and the
statement ends. -/
def Res.tryControl {α : Type} (r : Res A α) (k : α → St A → Res A Unit) : Res A Unit :=
  match r with
  | .ok a s => k a s
  | .raise c s => .ok () { s with cf := c }
  | .fatal => .fatal
  | .ub => .ub
  | .fuel => .fuel

/-- `Runtime/Utils.cpp:15-22`: `isTrue`. -/
def isTrue (P : Prim A) : Value A → Bool
  | .null => false
  | .atom a => P.truth a
  | .obj _ _ => true

/-! ## Scopes -/

def upd {α : Type} (f : Nat → Option α) (i : Nat) (v : Option α) : Nat → Option α :=
  fun j => if j = i then v else f j

/-- `mFrame->getScope()` (`StackFrame.cpp:43-46`): `back()` of the scope stack; undefined if the
frame has been deleted or its scope stack is empty. -/
def getScope (s : St A) : Option Nat :=
  match s.frames[s.cur]? with
  | none => none
  | some fr =>
    match fr.stack with
    | [] => none
    | (i, _) :: _ => some i

/-- Replace the current frame. -/
def setFrame (s : St A) (fr : Frame A) : St A :=
  { s with frames := s.frames.set s.cur fr }

/-- `StackFrame::pushScope` (`StackFrame.cpp:69-72`). -/
def pushEntry (e : Nat × Bool) (s : St A) : Res A Unit :=
  match s.frames[s.cur]? with
  | none => .ub
  | some fr => .ok () (setFrame s { fr with stack := e :: fr.stack })

/-- `pushScope()` without an argument (836-844): a fresh block scope inside the current one. -/
def pushScope (s : St A) : Res A Unit :=
  match getScope s with
  | none => .ub
  | some p =>
    pushEntry (s.next, true)
      { s with scopes := upd s.scopes s.next (some (.scope [] (.blk p))), next := s.next + 1 }

/-- `popScope` (717-720, `StackFrame.cpp:53-62`): remove the innermost entry and destroy the scope
if the frame owns it. -/
def popScope (s : St A) : Res A Unit :=
  match s.frames[s.cur]? with
  | none => .ub
  | some fr =>
    match fr.stack with
    | [] => .ub
    | (i, del) :: rest =>
      let s' := setFrame s { fr with stack := rest }
      .ok () (if del then { s' with scopes := upd s'.scopes i none } else s')

/-- What a symbol lookup finds: a symbol and where it is stored, nothing, or it runs into a
destroyed scope. -/
inductive Look (A : Type) where
  | found (w : SRef) (v : Value A)
  | missing
  | dangling

/-- `Namespace::resolve` on the global scope. -/
def lookGlobal (s : St A) (x : Name) : Look A :=
  match s.globals.find x with
  | some v => .found .glob v
  | none => .missing

/-- `Object::resolve` (`Object.cpp:485-507`): the object's own symbols, then the enclosing scope.
Objects are never destroyed in this model, so every reference is valid. -/
def lookObj (s : St A) (cls : Name) (o : Nat) (x : Name) : Look A :=
  match (s.objs[o]?.getD []).find x with
  | some v => .found (.obj cls o) v
  | none => lookGlobal s x

/-- A symbol of whatever a value refers to: an invalid or atomic object has no symbols. -/
def lookVal (s : St A) (v : Value A) (x : Name) : Look A :=
  match v with
  | .obj cls o => lookObj s cls o x
  | _ => .missing

/-- `SymbolScope::resolve` (`Scope.cpp`): this scope, then the enclosing ones.  The first argument
bounds the number of scopes; it is started above the scope's number, and enclosing scopes have
smaller numbers. -/
def look : Nat → St A → SRef → Name → Look A
  | _, s, .glob, x => lookGlobal s x
  | _, s, .obj cls o, x => lookObj s cls o x
  | 0, _, .blk _, _ => .dangling
  | n + 1, s, .blk i, x =>
    match s.scopes i with
    | none => .dangling
    | some (.alias v) => lookVal s v x
    | some (.scope vars parent) =>
      match vars.find x with
      | some v => .found (.blk i) v
      | none => look n s parent x

/-- The members of a symbol expression, one after the other (439-463, 856-884). -/
def lookTail (s : St A) : Look A → List Name → Look A
  | r, [] => r
  | .found _ v, x :: xs => lookTail s (lookVal s v x) xs
  | r, _ :: _ => r

/-- `resolveRValue` (856-889) from the current scope. -/
def lookPath (s : St A) (p : Path) : Look A :=
  match getScope s with
  | none => .dangling
  | some i => lookTail s (look (i + 1) s (.blk i) p.head) p.tail

/-- Change the value of a symbol. -/
def store (s : St A) (w : SRef) (x : Name) (v : Value A) : St A :=
  match w with
  | .glob => { s with globals := s.globals.set x v }
  | .obj _ o => { s with objs := s.objs.modify o fun fs => fs.set x v }
  | .blk i =>
    match s.scopes i with
    | some (.scope vars parent) => { s with scopes := upd s.scopes i (some (.scope (vars.set x v) parent)) }
    | _ => s

/-- The name under which the symbol found by `lookPath` is stored. -/
def Path.last (p : Path) : Name := p.tail.getLast?.getD p.head

/-- `getScope()->define(name, object)` (1389, `Scope.cpp`): a second symbol with the same name in
the same scope is an error. -/
def define (s : St A) (x : Name) (v : Value A) : Res A Unit :=
  match getScope s with
  | none => .ub
  | some i =>
    match s.scopes i with
    | none => .ub
    | some (.alias (.obj _ o)) => .ok () { s with objs := s.objs.modify o fun fs => fs.set x v }
    | some (.alias _) => .fatal
    | some (.scope vars parent) =>
      match vars.find x with
      | some _ => .fatal
      | none => .ok () { s with scopes := upd s.scopes i (some (.scope (vars.set x v) parent)) }

/-! ## Methods -/

/-- Where a method call starts to search: an object, the global scope, or a destroyed scope. -/
inductive Target where
  | obj (cls : Name) (o : Nat)
  | glob
  | nothing
  | dangling

/-- `getEnclosingMethodScope` (622-640): the nearest object or namespace around a scope.  An object
that has been pushed as a scope is one itself. -/
def methodScope : Nat → St A → SRef → Target
  | _, _, .glob => .glob
  | _, _, .obj cls o => .obj cls o
  | 0, _, .blk _ => .dangling
  | n + 1, s, .blk i =>
    match s.scopes i with
    | none => .dangling
    | some (.alias (.obj cls o)) => .obj cls o
    | some (.alias _) => .nothing
    | some (.scope _ parent) => methodScope n s parent

/-- A method together with the object it belongs to (`method->getEnclosingScope()`, 309). -/
abbrev Bound (A : Type) := Method A × Option (Name × Nat)

/-- `MethodScope::resolveMethod` / `Object::resolveMethod` (`Object.cpp:509-541`): the methods of
the object's class, then those of the enclosing scope. -/
def findMethod (G : Prog A) (t : Target) (f : Name) (vs : List (Value A)) : Option (Bound A) :=
  match t with
  | .obj cls o =>
    match G.method (some cls) f vs with
    | some m => some (m, some (cls, o))
    | none => (G.method none f vs).map fun m => (m, none)
  | .glob => (G.method none f vs).map fun m => (m, none)
  | _ => none

/-- The members selected before the method name: only the object itself is searched
(`onlyCurrentScope = true`, 903-926). -/
def lookMembers (s : St A) : Value A → List Name → Option (Value A)
  | v, [] => some v
  | .obj _ o, x :: xs =>
    match (s.objs[o]?.getD []).find x with
    | none => none
    | some v => lookMembers s v xs
  | _, _ :: _ => none

/-- What `resolveMethod` (891-934) finds: a method, nothing, or a destroyed scope. -/
inductive MLook (A : Type) where
  | found (m : Bound A)
  | missing
  | dangling

def MLook.ofOption : Option (Bound A) → MLook A
  | some m => .found m
  | none => .missing

/-- `resolveMethod` (891-934) with at least one member before the method name, starting in a
given scope. -/
def resolveFrom (G : Prog A) (s : St A) (n : Nat) (w : SRef) (x : Name) (xs : List Name) (f : Name)
    (vs : List (Value A)) : MLook A :=
  match look n s w x with
  | .dangling => .dangling
  | .missing => .missing
  | .found _ v =>
    match lookMembers s v xs with
    | some (.obj cls o) => .ofOption (findMethod G (.obj cls o) f vs)
    | _ => .missing

def Target.ref : Target → SRef
  | .obj cls o => .obj cls o
  | _ => .glob

/-- The two attempts of `evaluateMethodExpression` (283-288): from the current scope, then from the
enclosing object or namespace.  Without a member before the method name the first attempt
succeeds only if the current scope itself is an object, so both together search the nearest
object or namespace. -/
def resolveCall (G : Prog A) (s : St A) (path : List Name) (f : Name) (vs : List (Value A)) : MLook A :=
  match getScope s with
  | none => .dangling
  | some i =>
    match methodScope (i + 1) s (.blk i) with
    | .dangling => .dangling
    | t =>
      match path with
      | [] => .ofOption (findMethod G t f vs)
      | x :: xs =>
        match resolveFrom G s (i + 1) (.blk i) x xs f vs with
        | .missing => resolveFrom G s 1 t.ref x xs f vs
        | r => r

/-- `Method::mergeParameters` and `initialize` (688-709): the arguments, then default values;
unnamed parameters are skipped.  Simplification: a default value used after an argument that is an object is
the default value here; the code takes the object (`Methods.mergeFrom`, `Methods.parameter_binding_refuted`). -/
def bindParams : List (Name × Option (Value A)) → List (Value A) → AMap Name (Value A)
  | [], _ => []
  | (x, d) :: ps, [] => if x = "" then bindParams ps [] else (x, d.getD .null) :: bindParams ps []
  | (x, _) :: ps, v :: vs => if x = "" then bindParams ps vs else (x, v) :: bindParams ps vs

/-- The symbols of a method scope (583-590): `this` and the parameters. -/
def methodVars (self : Option (Name × Nat)) (m : Method A) (vs : List (Value A)) : AMap Name (Value A) :=
  (match self with
    | some (cls, o) => [("this", .obj cls o)]
    | none => []) ++ bindParams m.params vs

def selfRef : Option (Name × Nat) → SRef
  | some (cls, o) => .obj cls o
  | none => .glob

/-- Throw a NullPointerException from an expression (289-299, 432-442). -/
def throwNpe {α : Type} (P : Prim A) (x : Name) (s : St A) : Res A α :=
  .raise .throw { s with exc := some (P.npe x) }

/-- `Object::operator==` / `execute(&tmp, "operator<", ...)` (`OperatorOverloading.cpp`): the name
of the method that is called. -/
def Cmp.method : Cmp → Name
  | .eq => "operator=="
  | .gt => "operator>"
  | .ge => "operator>="
  | .lt => "operator<"
  | .le => "operator<="

/-- The value of a logical operator once both operands are known (206-210). -/
def BoolOp.result : BoolOp → Bool → Bool → Bool
  | .and, l, r => l && r
  | .nand, l, r => !l && !r
  | .nor, l, r => !l || !r
  | .or, l, r => l || r

/-- Incomplete evaluation (179-195): the value if the left operand decides it. -/
def BoolOp.short : BoolOp → Bool → Option Bool
  | .and, false => some false
  | .nand, false => some true
  | .nor, true => some false
  | .or, true => some true
  | _, _ => none

/-- `resolveLValue` (846-854): a symbol that does not exist is an `AccessViolation`. -/
def lvalue (s : St A) (p : Path) : Res A (SRef × Value A) :=
  match lookPath s p with
  | .dangling => .ub
  | .missing => .fatal
  | .found w v => .ok (w, v) s

/-- `operator_binary_assign(&lvalue, ...)`: the new value of the symbol. -/
def assignTo (s : St A) (w : SRef) (x : Name) : Option (Value A) → Res A (Value A)
  | none => .fatal
  | some v => .ok v (store s w x v)

def ofOption {α : Type} (s : St A) : Option α → Res A α
  | none => .fatal
  | some v => .ok v s

/-- `evaluateSymbolExpression` (426-470). -/
def evalSym (P : Prim A) (p : Path) (s : St A) : Res A (Value A) :=
  match lookPath s p with
  | .dangling => .ub
  | .missing => throwNpe P p.head s
  | .found _ v => .ok v s

/-- Push a C++ object as a scope (`pushScope(&left)`, 361-363, 1071, 1089, 1110).  It lives on
the native stack: `dropAlias` destroys it, also when an exception passes by. -/
def pushAlias (v : Value A) (s : St A) : Res A Nat :=
  (pushEntry (s.next, false)
    { s with scopes := upd s.scopes s.next (some (.alias v)), next := s.next + 1 }).bind
    fun _ s' => .ok s.next s'

def dropAlias (i : Nat) (s : St A) : St A := { s with scopes := upd s.scopes i none }

/-- A piece of code run while a C++ object is the current scope:
`pushScope(&v); ...; popScope();`.  If the code throws, `popScope` is skipped, but the object is
destroyed. -/
def withAlias {α : Type} (v : Value A) (s : St A) (k : St A → Res A α) : Res A α :=
  match pushAlias v s with
  | .ok i s₁ =>
    match k s₁ with
    | .ok a s₂ => (popScope s₂).bind fun _ s₃ => .ok a (dropAlias i s₃)
    | .raise c s₂ => .raise c (dropAlias i s₂)
    | .fatal => .fatal
    | .ub => .ub
    | .fuel => .fuel
  | .raise c s₁ => .raise c s₁
  | .fatal => .fatal
  | .ub => .ub
  | .fuel => .fuel

/-- `Thread::pushFrame` with the method's scope (710-713, `Threads.cpp:139-150`). -/
def pushFrame (s : St A) (self : Option (Name × Nat)) (m : Method A) (vs : List (Value A)) : St A :=
  { s with
    scopes := upd s.scopes s.next (some (.scope (methodVars self m vs) (selfRef self)))
    next := s.next + 1
    frames := s.frames ++ [{ stack := [(s.next, false)], ret := .null }]
    cur := s.frames.length }

/-- `finalize` (613-620) and `Thread::popFrame` (`Threads.cpp:121-130`): pop one scope of the
thread's newest frame and delete the frame; `mFrame` becomes the new newest frame. -/
def popFrame (s : St A) : Res A Unit :=
  match s.frames.getLast? with
  | none => .ub
  | some fr =>
    match fr.stack with
    | [] => .ub
    | (i, del) :: _ =>
      .ok () { s with
        frames := s.frames.dropLast
        cur := s.frames.length - 2
        scopes := if del then upd s.scopes i none else s.scopes }

/-- What the current frame would return. -/
def returnValue (s : St A) : Value A :=
  match s.frames[s.cur]? with
  | some fr => fr.ret
  | none => .null

/-- What comes after the loop body (1034-1042, 1120-1128, 1424-1432): `some` means another round. -/
def afterBody (s : St A) : Option (St A) :=
  match s.cf with
  | .normal | .cont => some { s with cf := .normal }
  | _ => none

/-- The control flow with which a loop is left. -/
def leaveLoop (s : St A) : St A :=
  match s.cf with
  | .brk => { s with cf := .normal }
  | _ => s

/-- `evaluateMethodExpression` after the call (322-326): exceptions and `exit` leave the expression,
everything else is reset. -/
def afterCall (v : Value A) (s : St A) : Res A (Value A) :=
  match s.cf with
  | .exit => .raise .exit s
  | .throw => .raise .throw s
  | _ => .ok v { s with cf := .normal }

/-- The catch block that handles the current exception (1330-1336): the first one without a type
or with a type the exception is an instance of. -/
def findCatch (P : Prim A) (exc : Option (Value A)) :
    List (Option (Name × Name) × List (Stmt A)) → Option (Option (Name × Name) × List (Stmt A))
  | [] => none
  | (none, b) :: _ => some (none, b)
  | (some (ty, x), b) :: rest =>
    match exc with
    | some v => if P.isA ty v then some (some (ty, x), b) else findCatch P exc rest
    | none => findCatch P exc rest

/-- A new interpreter object with its own `mControlFlow` and `mFrame` (`Threads.cpp:54-69`); the
result is its final control flow. -/
def nested (s : St A) (r : Res A (Value A)) : Res A (CF × Value A) :=
  match r with
  | .ok v s' => .ok (s'.cf, v) { s' with cf := s.cf, cur := s.cur }
  | .raise c s' => .raise c { s' with cf := s.cf, cur := s.cur }
  | .fatal => .fatal
  | .ub => .ub
  | .fuel => .fuel

/-- `visitTypeDeclaration` before the initialisation (1386-1389). -/
def declare (P : Prim A) (ty x : Name) (s : St A) : Res A Unit := define s x (P.default ty)

/-- Assign to a symbol of the current scope that has just been declared. -/
def assignDeclared (P : Prim A) (x : Name) (v : Value A) (s : St A) : Res A Unit :=
  match getScope s with
  | none => .ub
  | some i =>
    match look (i + 1) s (.blk i) x with
    | .found w old => (assignTo s w x (P.assign old v)).bind fun _ s => .ok () s
    | _ => .ub

/-- Replace a symbol of the current scope (`*result = mFrame->returnValue()` on the loop variable,
604-606): no conversion. -/
def overwriteDeclared (x : Name) (v : Value A) (s : St A) : Res A Unit :=
  match getScope s with
  | none => .ub
  | some i =>
    match look (i + 1) s (.blk i) x with
    | .found w _ => .ok () (store s w x v)
    | _ => .ub

/-- The exception variable of a catch block (1341-1347). -/
def bindException (P : Prim A) (d : Option (Name × Name)) (s : St A) : Res A Unit :=
  match d with
  | none => .ok () s
  | some (ty, x) =>
    (declare P ty x s).bind fun _ s =>
      match s.exc with
      | some v => assignDeclared P x v s
      | none => .ub

/-- `Utils::Printer::print`. -/
def printed (v : Value A) (s : St A) : St A := { s with out := v :: s.out }

mutual

/-- `evaluate` (79-104) and the `evaluate...` functions. -/
def eval (P : Prim A) (G : Prog A) : Nat → Expr A → St A → Res A (Value A)
  | 0, _, _ => .fuel
  | n + 1, e, s =>
    match e with
    -- evaluateLiteral (245-266)
    | .lit a => .ok (.atom a) s
    | .sym p => evalSym P p s
    -- evaluateAssignmentExpression (106-119)
    | .assign p e =>
      (lvalue s p).bind fun w s =>
        match eval P G n e s with
        | .ok v s => assignTo s w.1 p.last (P.assign w.2 v)
        | .raise c s => .ok .null { s with cf := c }
        | r => r
    -- evaluateUnaryExpression (515-546), l-values
    | .incr op p =>
      (lvalue s p).bind fun w s => assignTo s w.1 p.last (P.unary op w.2)
    -- evaluateUnaryExpression (547-568), and the expressions 227-243, 493-513
    | .unary op e => (eval P G n e s).bind fun v s => ofOption s (P.unary op v)
    -- operator_unary_validate (OperatorOverloading.cpp:1223-1232)
    | .validate e => (eval P G n e s).bind fun v s => if isTrue P v then .ok v s else .raise .throw s
    -- evaluateBinaryExpression (121-167)
    | .binary op l r =>
      (eval P G n l s).bind fun v s => (eval P G n r s).bind fun w s => ofOption s (P.binary op v w)
    -- evaluateBooleanBinaryExpression (169-225), comparisons; the result is a truth value
    | .compare c l r =>
      (eval P G n l s).bind fun v s => (eval P G n r s).bind fun w s =>
        (compareVals P G n c v w s).bind fun b s => .ok (P.bool b) s
    -- evaluateBooleanBinaryExpression (169-225), logical operators
    | .bool op l r =>
      (eval P G n l s).bind fun v s =>
        match op.short (isTrue P v) with
        | some b => .ok (P.bool b) s
        | none =>
          (eval P G n r s).bind fun w s =>
            .ok (P.bool (op.result (isTrue P v) (isTrue P w))) s
    -- evaluateTernaryExpression (472-491)
    | .ternary c t e =>
      (eval P G n c s).bind fun v s => if isTrue P v then eval P G n t s else eval P G n e s
    | .elvis c e =>
      (eval P G n c s).bind fun v s => if isTrue P v then .ok v s else eval P G n e s
    -- evaluateMethodExpression (268-328)
    | .call path f args =>
      (evalArgs P G n args s).bind fun vs s => call P G n path f vs s
    -- evaluateNewExpression (330-355), Object::Constructor (Object.cpp:158-193)
    | .new cls args =>
      (evalArgs P G n args s).bind fun vs s =>
        match G.ctor cls vs with
        | none => .fatal
        | some m =>
          let o := s.objs.length
          let s := { s with objs := s.objs ++ [G.fields cls] }
          (nested s (run P G n m (some (cls, o)) vs { s with cf := .normal })).bind fun r s =>
            .ok (.obj cls o) { s with cf := r.1 }
    -- evaluateScopeExpression (357-370)
    | .dot l r =>
      (eval P G n l s).bind fun v s => withAlias v s fun s => eval P G n r s

/-- The arguments of a call, from left to right (273-281). -/
def evalArgs (P : Prim A) (G : Prog A) : Nat → List (Expr A) → St A → Res A (List (Value A))
  | 0, _, _ => .fuel
  | n + 1, es, s =>
    match es with
    | [] => .ok [] s
    | e :: es => (eval P G n e s).bind fun v s => (evalArgs P G n es s).bind fun vs s => .ok (v :: vs) s

/-- The comparison operators of `OperatorOverloading.cpp:309-620`: instances of classes are
compared by their operator method, which is run by a new interpreter whose control flow is
ignored; equality falls back to the identity of the objects. -/
def compareVals (P : Prim A) (G : Prog A) : Nat → Cmp → Value A → Value A → St A → Res A Bool
  | 0, _, _, _, _ => .fuel
  | n + 1, c, v, w, s =>
    match v with
    | .obj cls o =>
      match findMethod G (.obj cls o) c.method [w] with
      | some m => (nested s (run P G n m.1 m.2 [w] { s with cf := .normal })).bind fun r s => .ok (isTrue P r.2) s
      | none =>
        if c = .eq then
          .ok (match w with | .obj _ o' => decide (o = o') | _ => false) s
        else .fatal
    | v => ofOption s (P.compare c v w)

/-- `evaluateMethodExpression` (283-328) once the arguments are known. -/
def call (P : Prim A) (G : Prog A) : Nat → List Name → Name → List (Value A) → St A → Res A (Value A)
  | 0, _, _, _, _ => .fuel
  | n + 1, path, f, vs, s =>
    match resolveCall G s path f vs with
    | .dangling => .ub
    | .missing => throwNpe P f s
    | .found m =>
      match m.1.code with
      | .native g =>
        match g vs with
        | .ok v => .ok v { s with cf := .normal }
        | .error x => .raise .throw { s with exc := some x, cf := .throw }
      | _ => (run P G n m.1 m.2 vs s).bind afterCall

/-- `execute` (571-611).  The method's scope is a C++ object on the native stack, so it is destroyed
in any case; the frame is popped only if no C++ exception passes by. -/
def run (P : Prim A) (G : Prog A) : Nat → Method A → Option (Name × Nat) → List (Value A) → St A →
    Res A (Value A)
  | 0, _, _, _, _ => .fuel
  | n + 1, m, self, vs, s =>
    match m.code with
    | .abstract => .fatal
    | .native _ => .fatal
    | .body b =>
      match execList P G n b (pushFrame s self m vs) with
      | .ok _ s₁ =>
        let v := if m.isVoid then .null else returnValue s₁
        (popFrame s₁).bind fun _ s₂ => .ok v (dropAlias s.next s₂)
      | .raise c s₁ => .raise c (dropAlias s.next s₁)
      | .fatal => .fatal
      | .ub => .ub
      | .fuel => .fuel

/-- `process` (821-834): stops as soon as the control flow is not normal. -/
def execList (P : Prim A) (G : Prog A) : Nat → List (Stmt A) → St A → Res A Unit
  | 0, _, _ => .fuel
  | n + 1, b, s =>
    match b with
    | [] => .ok () s
    | st :: b => if s.cf = .normal then (exec P G n st s).bind fun _ s => execList P G n b s else .ok () s

/-- `visitStatements` (1241-1251). -/
def execBlock (P : Prim A) (G : Prog A) : Nat → List (Stmt A) → St A → Res A Unit
  | 0, _, _ => .fuel
  | n + 1, b, s =>
    (pushScope s).bind fun _ s => (execList P G n b s).bind fun _ s => popScope s

/-- `visit` (936-953), `visitStatement` (1177-1239) and the `visit...` functions. -/
def exec (P : Prim A) (G : Prog A) : Nat → Stmt A → St A → Res A Unit
  | 0, _, _ => .fuel
  | n + 1, st, s =>
    match st with
    | .nop => .ok () s
    -- visitExpression (1012-1016)
    | .expr e => (eval P G n e s).tryControl fun _ s => .ok () s
    -- visitAssignment (972-982)
    | .assign p e =>
      (lvalue s p).bind fun w s =>
        (eval P G n e s).tryControl fun v s => (assignTo s w.1 p.last (P.assign w.2 v)).bind fun _ s => .ok () s
    -- visitTypeDeclaration (1384-1402)
    | .decl ty x none => declare P ty x s
    | .decl ty x (some e) =>
      (declare P ty x s).bind fun _ s =>
        (eval P G n e s).tryControl fun v s => assignDeclared P x v s
    -- visitPrint (1156-1162)
    | .print e => (eval P G n e s).tryControl fun v s => .ok () (printed v s)
    -- visitAssert (955-970)
    | .assert e msg =>
      (eval P G n e s).tryControl fun v s =>
        if isTrue P v then .ok () s
        else
          match msg with
          | none => .fatal
          | some m => (eval P G n m s).tryControl fun _ _ => .fatal
    -- visitDelete (994-1000)
    | .delete e => (eval P G n e s).tryControl fun _ s => .ok () s
    -- visitExit (1002-1010)
    | .exit e =>
      (eval P G n e s).tryControl fun v s => .raise .exit { s with exc := some v }
    -- visitReturn (1164-1175)
    | .ret none => .ok () { s with cf := .ret }
    | .ret (some e) =>
      (eval P G n e s).tryControl fun v s =>
        match s.frames[s.cur]? with
        | none => .ub
        | some fr =>
          match P.ret fr.ret v with
          | none => .fatal
          | some v => .ok () { setFrame s { fr with ret := v } with cf := .ret }
    -- visitThrow (1298-1313)
    | .throw none => .ok () { s with cf := .throw }
    | .throw (some e) =>
      (eval P G n e s).tryControl fun v s => .ok () { s with exc := some v, cf := .throw }
    -- visitBreak, visitContinue (984-992)
    | .brk => .ok () { s with cf := .brk }
    | .cont => .ok () { s with cf := .cont }
    -- visitIf (1133-1149)
    | .ite c t e =>
      (eval P G n c s).tryControl fun v s => if isTrue P v then exec P G n t s else exec P G n e s
    | .while c b => execWhile P G n c b s
    -- visitFor (1018-1056)
    | .for init c iter b =>
      (pushScope s).bind fun _ s => (exec P G n init s).bind fun _ s => execFor P G n c iter b s
    -- visitForeach (1058-1131)
    | .foreach ty x coll b =>
      (eval P G n coll s).tryControl fun v s =>
        (withAlias v s fun s => call P G n [] "getIterator" [] s).bind fun it s =>
          execForeach P G n ty x it b s
    | .foreachIt ty x path f args b =>
      (evalArgs P G n args s).bind fun vs s => (call P G n path f vs s).bind fun it s =>
        execForeach P G n ty x it b s
    | .switch e cases dflt => execSwitch P G n e cases dflt s
    -- visitTry (1315-1382)
    | .try b catches fin =>
      (execBlock P G n b s).bind fun _ s =>
        (if s.cf = .throw then handle P G n catches s else .ok () s).bind fun _ s =>
          match fin with
          | none => .ok () s
          | some f =>
            (execBlock P G n f { s with cf := .normal }).bind fun _ s' =>
              .ok () (if s'.cf = .normal then { s' with cf := s.cf } else s')
    | .block b => execBlock P G n b s

/-- The exception handling of `visitTry` (1320-1365). -/
def handle (P : Prim A) (G : Prog A) : Nat → List (Option (Name × Name) × List (Stmt A)) → St A → Res A Unit
  | 0, _, _ => .fuel
  | n + 1, catches, s =>
    match catches with
    | [] => .ok () { s with cf := .normal }
    | _ =>
      match findCatch P s.exc catches with
      | none => .ok () s
      | some (d, b) =>
        (pushScope s).bind fun _ s =>
          (bindException P d s).bind fun _ s =>
            (execBlock P G n b { s with cf := .normal }).bind fun _ s => popScope s

/-- `visitWhile` (1409-1435). -/
def execWhile (P : Prim A) (G : Prog A) : Nat → Expr A → Stmt A → St A → Res A Unit
  | 0, _, _, _ => .fuel
  | n + 1, c, b, s =>
    (eval P G n c s).tryControl fun v s =>
      if isTrue P v then
        (exec P G n b s).bind fun _ s =>
          match afterBody s with
          | some s => execWhile P G n c b s
          | none => .ok () (leaveLoop s)
      else .ok () s

/-- The loop of `visitFor` (1026-1055).  Note that the scope of the loop variable is popped only if the
condition becomes false. -/
def execFor (P : Prim A) (G : Prog A) : Nat → Option (Expr A) → Stmt A → Stmt A → St A → Res A Unit
  | 0, _, _, _, _ => .fuel
  | n + 1, c, iter, b, s =>
    match c with
    | none => forBody P G n c iter b s
    | some e => (eval P G n e s).tryControl fun v s => if isTrue P v then forBody P G n c iter b s else popScope s

/-- The body of `visitFor` (1036-1051). -/
def forBody (P : Prim A) (G : Prog A) : Nat → Option (Expr A) → Stmt A → Stmt A → St A → Res A Unit
  | 0, _, _, _, _ => .fuel
  | n + 1, c, iter, b, s =>
    (exec P G n b s).bind fun _ s =>
      match afterBody s with
      | some s => (exec P G n iter s).bind fun _ s => execFor P G n c iter b s
      | none => .ok () (leaveLoop s)

/-- The loop of `visitForeach` (1081-1130). -/
def execForeach (P : Prim A) (G : Prog A) : Nat → Name → Name → Value A → Stmt A → St A → Res A Unit
  | 0, _, _, _, _, _ => .fuel
  | n + 1, ty, x, it, b, s =>
    (withAlias it s fun s => call P G n [] "hasNext" [] s).bind fun c s =>
      if isTrue P c then
        (pushScope s).bind fun _ s =>
          (declare P ty x s).bind fun _ s =>
            (withAlias it s fun s => call P G n [] "next" [] s).bind fun v s =>
              (overwriteDeclared x v s).bind fun _ s =>
                (exec P G n b s).bind fun _ s =>
                  (popScope s).bind fun _ s =>
                    match afterBody s with
                    | some s => execForeach P G n ty x it b s
                    | none => .ok () (leaveLoop s)
      else .ok () s

/-- `visitSwitch` (1253-1296). -/
def execSwitch (P : Prim A) (G : Prog A) : Nat → Expr A → List (Expr A × List (Stmt A)) → List (Stmt A) →
    St A → Res A Unit
  | 0, _, _, _, _ => .fuel
  | n + 1, e, cases, dflt, s =>
    match cases with
    | [] => (execBlock P G n dflt s).bind fun _ s => switchEnd P G n e cases dflt s
    | _ =>
      (eval P G n e s).tryControl fun v s =>
        match execCases P G n v cases dflt s with
        | .ok true s => switchEnd P G n e cases dflt s
        | .ok false s => .ok () s
        | .raise c s => .raise c s
        | .fatal => .fatal
        | .ub => .ub
        | .fuel => .fuel

/-- The end of one round of `visitSwitch` (1283-1294). -/
def switchEnd (P : Prim A) (G : Prog A) : Nat → Expr A → List (Expr A × List (Stmt A)) → List (Stmt A) →
    St A → Res A Unit
  | 0, _, _, _, _ => .fuel
  | n + 1, e, cases, dflt, s =>
    match s.cf with
    | .brk | .normal => .ok () { s with cf := .normal }
    | .cont => execSwitch P G n e cases dflt { s with cf := .normal }
    | _ => .ok () s

/-- The cases of one round (1266-1281); `false` if `tryControl` leaves the switch statement. -/
def execCases (P : Prim A) (G : Prog A) : Nat → Value A → List (Expr A × List (Stmt A)) → List (Stmt A) →
    St A → Res A Bool
  | 0, _, _, _, _ => .fuel
  | n + 1, v, cases, dflt, s =>
    match cases with
    | [] => (execBlock P G n dflt s).bind fun _ s => .ok true s
    | (e, b) :: cases =>
      match eval P G n e s with
      | .ok w s =>
        (compareVals P G n .eq v w s).bind fun same s =>
          if same then (execBlock P G n b s).bind fun _ s => .ok true s
          else execCases P G n v cases dflt s
      | .raise c s => .ok false { s with cf := c }
      | .fatal => .fatal
      | .ub => .ub
      | .fuel => .fuel

end

/-- `VirtualMachine::run` (`VirtualMachine.cpp:424-445`): the state before `main`. -/
def start (globals : AMap Name (Value A)) : St A :=
  { cf := .normal, cur := 0, frames := [], scopes := fun _ => none, next := 0, objs := []
    globals := globals, exc := none, out := [] }

end Interp
end Verif
