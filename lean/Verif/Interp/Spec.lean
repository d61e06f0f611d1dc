import Verif.Interp.Model

/-!
# What a script means

A reference semantics of statements and expressions, in the usual style of a language manual: an
environment of nested blocks, expressions that yield a value or throw, and statements that
complete normally or by `break`, `continue`, `return` or an exception.  It knows nothing of
frames, scope stacks, control flow registers or C++ exceptions.

The relation has a parameter `U`, the set of *events* that may happen during the execution.  With
`U := fun _ => True` it is the complete semantics.  With `U := fun _ => False` it only covers the
executions in which no such event happens; `Verif.Interp.Props` shows that these executions are
carried out faithfully by the interpreter, and that each event leads to a wrong result.

`exit` is not part of this semantics, see `Props`.
-/

namespace Verif
namespace Interp
namespace Spec

variable {A : Type}

/-- The situations in which the interpreter departs from the reference semantics. -/
inductive Event where
  /-- `a !& b` or `a !| b` where only the right operand decides. -/
  | nand | nor
  /-- A `for` statement is left by `break`, `return` or an exception. -/
  | forLeft
  /-- The member of an expression result (`f().g()`) throws. -/
  | dotThrow
  /-- An argument of a method of an expression result (`f().g(x)`) is not a literal. -/
  | dotArgs
  /-- A constructor ends with `return` or with an exception. -/
  | ctorReturn | ctorThrow
  /-- The right side of an assignment inside an expression throws. -/
  | assignThrow
  /-- A method of the iterator of a `foreach` statement throws. -/
  | foreachThrow
  /-- A comparison operator of a class throws. -/
  | operatorThrow
  /-- `throw;` after another exception has been thrown and caught. -/
  | rethrowOther
  /-- A `finally` block completes normally, but another exception or return value came up in it. -/
  | pendingReplaced
  /-- The postfix operator `!` is applied to an invalid value. -/
  | validateNull
  /-- A call through a local variable fails while a member of the same name has such a method. -/
  | shadowed
  /-- A return value is converted to the type of an earlier one. -/
  | returnConverted

/-- The state of a running method: its blocks (innermost first, the last one holds the
parameters), the object it was called on, the objects and globals of the program, and what has
been printed (latest first).  `last` and `rv` are the last exception thrown in the program and the
last value returned in the method; they only serve to describe events. -/
structure State (A : Type) where
  blocks : List (AMap Name (Value A))
  self : Option (Name × Nat)
  objs : List (AMap Name (Value A))
  globals : AMap Name (Value A)
  out : List (Value A)
  last : Option (Value A)
  rv : Value A

/-- Where a variable is stored. -/
inductive Place where
  | loc (k : Nat)
  | field (cls : Name) (o : Nat)
  | glob

def State.global (σ : State A) (x : Name) : Option (Place × Value A) :=
  (σ.globals.find x).map fun v => (.glob, v)

/-- A member of an object, or else a global. -/
def State.member (σ : State A) (v : Value A) (x : Name) : Option (Place × Value A) :=
  match v with
  | .obj cls o =>
    match (σ.objs[o]?.getD []).find x with
    | some v => some (.field cls o, v)
    | none => σ.global x
  | _ => none

/-- The innermost block that declares a name. -/
def findBlock (x : Name) : List (AMap Name (Value A)) → Option (Nat × Value A)
  | [] => none
  | b :: bs =>
    match b.find x with
    | some v => some (0, v)
    | none => (findBlock x bs).map fun kv => (kv.1 + 1, kv.2)

/-- What a name means outside of the blocks: a member of the object, or a global. -/
def State.outer (σ : State A) (x : Name) : Option (Place × Value A) :=
  match σ.self with
  | some (cls, o) => σ.member (.obj cls o) x
  | none => σ.global x

/-- What a name means: the innermost block that declares it, else a member, else a global. -/
def State.name (σ : State A) (x : Name) : Option (Place × Value A) :=
  match findBlock x σ.blocks with
  | some (k, v) => some (.loc k, v)
  | none => σ.outer x

def State.members (σ : State A) : Option (Place × Value A) → List Name → Option (Place × Value A)
  | r, [] => r
  | some (_, v), x :: xs => σ.members (σ.member v x) xs
  | none, _ :: _ => none

def State.locate (σ : State A) (p : Path) : Option (Place × Value A) :=
  σ.members (σ.name p.head) p.tail

def State.write (σ : State A) (w : Place) (x : Name) (v : Value A) : State A :=
  match w with
  | .loc k => { σ with blocks := σ.blocks.modify k fun b => b.set x v }
  | .field _ o => { σ with objs := σ.objs.modify o fun fs => fs.set x v }
  | .glob => { σ with globals := σ.globals.set x v }

/-- A method of an object (or, without one, a global method). -/
def methodOf (G : Prog A) (recv : Option (Name × Nat)) (f : Name) (vs : List (Value A)) : Option (Bound A) :=
  match recv with
  | some (cls, o) =>
    match G.method (some cls) f vs with
    | some m => some (m, some (cls, o))
    | none => (G.method none f vs).map fun m => (m, none)
  | none => (G.method none f vs).map fun m => (m, none)

/-- The object behind `v.x.y...`. -/
def State.fieldPath (σ : State A) : Value A → List Name → Option (Value A)
  | v, [] => some v
  | .obj _ o, x :: xs =>
    match (σ.objs[o]?.getD []).find x with
    | some v => σ.fieldPath v xs
    | none => none
  | _, _ :: _ => none

/-- The method `f` of the object behind `r.x.y...`. -/
def State.calleeVia (σ : State A) (G : Prog A) (r : Option (Place × Value A)) (xs : List Name) (f : Name)
    (vs : List (Value A)) : Option (Bound A) :=
  match r with
  | none => none
  | some (_, v) =>
    match σ.fieldPath v xs with
    | some (.obj cls o) => methodOf G (some (cls, o)) f vs
    | _ => none

/-- The method that `f(...)` or `x.y.f(...)` calls. -/
def State.callee (σ : State A) (G : Prog A) (path : List Name) (f : Name) (vs : List (Value A)) : Option (Bound A) :=
  match path with
  | [] => methodOf G σ.self f vs
  | x :: xs => σ.calleeVia G (σ.name x) xs f vs

/-- The method that `x.y.f(...)` would call if local variables did not exist. -/
def State.calleeOuter (σ : State A) (G : Prog A) (path : List Name) (f : Name) (vs : List (Value A)) :
    Option (Bound A) :=
  match path with
  | [] => none
  | x :: xs => σ.calleeVia G (σ.outer x) xs f vs

/-- The truth tables of the logical operators. -/
def value : BoolOp → Bool → Bool → Bool
  | .and, l, r => l && r
  | .nand, l, r => !(l && r)
  | .nor, l, r => !(l || r)
  | .or, l, r => l || r

/-- Which values count as true: objects, and the atomic values that are true themselves. -/
def truthy (P : Prim A) (v : Value A) : Bool :=
  match v with
  | .obj _ _ => true
  | .atom a => P.truth a
  | .null => false

/-- The methods behind the comparison operators. -/
def operatorMethods : List (Cmp × Name) :=
  [(.lt, "operator<"), (.le, "operator<="), (.eq, "operator=="), (.ge, "operator>="), (.gt, "operator>")]

def operatorMethod (c : Cmp) : Name := (operatorMethods.lookup c).getD ""

/-- The name that an assignment to `x.y.z` changes in its object: `z`. -/
def _root_.Verif.Interp.Path.target (p : Path) : Name := (p.head :: p.tail).getLast (List.cons_ne_nil _ _)

/-- The variables a method starts with: `this` and its parameters; the i-th parameter is the i-th
argument, or its default value.  A parameter without a name cannot be referred to. -/
def parameters (self : Option (Name × Nat)) (m : Method A) (vs : List (Value A)) : AMap Name (Value A) :=
  (self.map fun co => ("this", .obj co.1 co.2)).toList ++
    (m.params.zipIdx.filter fun p => p.1.1 != "").map fun p => (p.1.1, vs[p.2]?.getD (p.1.2.getD .null))

/-- An expression yields a value or throws an exception. -/
inductive Out (A : Type) (α : Type) where
  | val (v : α)
  | thr (x : Value A)

/-- How a statement completes. -/
inductive Comp (A : Type) where
  | normal | brk | cont
  | ret (v : Option (Value A))
  | thr (x : Value A)

/-- The first catch clause without a type or with a matching type. -/
def clause (P : Prim A) (x : Value A) (catches : List (Option (Name × Name) × List (Stmt A))) :
    Option (Option (Name × Name) × List (Stmt A)) :=
  catches.find? fun c => match c.1 with
    | none => true
    | some (ty, _) => P.isA ty x

/-- The block a catch clause is executed in: it holds the exception variable. -/
inductive Caught (P : Prim A) (x : Value A) : Option (Name × Name) → AMap Name (Value A) → Prop where
  | untyped : Caught P x none []
  | typed {ty y : Name} {v : Value A} : P.assign (P.default ty) x = some v → Caught P x (some (ty, y)) [(y, v)]

variable (P : Prim A) (G : Prog A) (U : Event → Prop)

mutual

/-- `Eval σ e o σ'`: in state `σ` the expression `e` yields `o` and leaves the state `σ'`. -/
inductive Eval : State A → Expr A → Out A (Value A) → State A → Prop where
  | lit {σ : State A} {a : A} : Eval σ (.lit a) (.val (.atom a)) σ
  | sym {σ : State A} {p : Path} {w : Place} {v : Value A} : σ.locate p = some (w, v) → Eval σ (.sym p) (.val v) σ
  | symNull {σ : State A} {p : Path} : σ.locate p = none →
      Eval σ (.sym p) (.thr (P.npe p.head)) { σ with last := some (P.npe p.head) }
  | assign {σ σ' : State A} {p : Path} {e : Expr A} {w : Place} {old v v' : Value A} :
      σ.locate p = some (w, old) → Eval σ e (.val v) σ' → P.assign old v = some v' →
      Eval σ (.assign p e) (.val v') (σ'.write w p.target v')
  | assignThr {σ σ' : State A} {p : Path} {e : Expr A} {w : Place} {old x : Value A} :
      σ.locate p = some (w, old) → Eval σ e (.thr x) σ' → U .assignThrow → Eval σ (.assign p e) (.thr x) σ'
  | incr {σ : State A} {op : Name} {p : Path} {w : Place} {old v : Value A} :
      σ.locate p = some (w, old) → P.unary op old = some v →
      Eval σ (.incr op p) (.val v) (σ.write w p.target v)
  | unary {σ σ' : State A} {op : Name} {e : Expr A} {v w : Value A} :
      Eval σ e (.val v) σ' → P.unary op v = some w → Eval σ (.unary op e) (.val w) σ'
  | unaryThr {σ σ' : State A} {op : Name} {e : Expr A} {x : Value A} :
      Eval σ e (.thr x) σ' → Eval σ (.unary op e) (.thr x) σ'
  | validate {σ σ' : State A} {e : Expr A} {v : Value A} :
      Eval σ e (.val v) σ' → truthy P v = true → Eval σ (.validate e) (.val v) σ'
  | validateNull {σ σ' : State A} {e : Expr A} {v : Value A} :
      Eval σ e (.val v) σ' → truthy P v = false → U .validateNull →
      Eval σ (.validate e) (.thr (P.npe "")) { σ' with last := some (P.npe "") }
  | validateThr {σ σ' : State A} {e : Expr A} {x : Value A} :
      Eval σ e (.thr x) σ' → Eval σ (.validate e) (.thr x) σ'
  | binary {σ σ₁ σ₂ : State A} {op : Name} {l r : Expr A} {v w u : Value A} :
      Eval σ l (.val v) σ₁ → Eval σ₁ r (.val w) σ₂ → P.binary op v w = some u →
      Eval σ (.binary op l r) (.val u) σ₂
  | binaryThrL {σ σ₁ : State A} {op : Name} {l r : Expr A} {x : Value A} :
      Eval σ l (.thr x) σ₁ → Eval σ (.binary op l r) (.thr x) σ₁
  | binaryThrR {σ σ₁ σ₂ : State A} {op : Name} {l r : Expr A} {v x : Value A} :
      Eval σ l (.val v) σ₁ → Eval σ₁ r (.thr x) σ₂ → Eval σ (.binary op l r) (.thr x) σ₂
  | compare {σ σ₁ σ₂ σ₃ : State A} {c : Cmp} {l r : Expr A} {v w : Value A} {b : Bool} :
      Eval σ l (.val v) σ₁ → Eval σ₁ r (.val w) σ₂ → Compare σ₂ c v w (.val b) σ₃ →
      Eval σ (.compare c l r) (.val (P.bool b)) σ₃
  | compareThrL {σ σ₁ : State A} {c : Cmp} {l r : Expr A} {x : Value A} :
      Eval σ l (.thr x) σ₁ → Eval σ (.compare c l r) (.thr x) σ₁
  | compareThrR {σ σ₁ σ₂ : State A} {c : Cmp} {l r : Expr A} {v x : Value A} :
      Eval σ l (.val v) σ₁ → Eval σ₁ r (.thr x) σ₂ → Eval σ (.compare c l r) (.thr x) σ₂
  | compareThr {σ σ₁ σ₂ σ₃ : State A} {c : Cmp} {l r : Expr A} {v w x : Value A} :
      Eval σ l (.val v) σ₁ → Eval σ₁ r (.val w) σ₂ → Compare σ₂ c v w (.thr x) σ₃ →
      Eval σ (.compare c l r) (.thr x) σ₃
  /-- The left operand decides: the right one is not evaluated. -/
  | boolShort {σ σ₁ : State A} {op : BoolOp} {l r : Expr A} {v : Value A} {b : Bool} :
      Eval σ l (.val v) σ₁ → (∀ x, value op (truthy P v) x = b) → Eval σ (.bool op l r) (.val (P.bool b)) σ₁
  | bool {σ σ₁ σ₂ : State A} {op : BoolOp} {l r : Expr A} {v w : Value A} :
      Eval σ l (.val v) σ₁ → value op (truthy P v) true ≠ value op (truthy P v) false →
      Eval σ₁ r (.val w) σ₂ → (op = .nand → truthy P w = false → U .nand) →
      (op = .nor → truthy P w = true → U .nor) →
      Eval σ (.bool op l r) (.val (P.bool (value op (truthy P v) (truthy P w)))) σ₂
  | boolThrL {σ σ₁ : State A} {op : BoolOp} {l r : Expr A} {x : Value A} :
      Eval σ l (.thr x) σ₁ → Eval σ (.bool op l r) (.thr x) σ₁
  | boolThrR {σ σ₁ σ₂ : State A} {op : BoolOp} {l r : Expr A} {v x : Value A} :
      Eval σ l (.val v) σ₁ → value op (truthy P v) true ≠ value op (truthy P v) false →
      Eval σ₁ r (.thr x) σ₂ → Eval σ (.bool op l r) (.thr x) σ₂
  | ternaryT {σ σ₁ σ₂ : State A} {c t e : Expr A} {v : Value A} {o : Out A (Value A)} :
      Eval σ c (.val v) σ₁ → truthy P v = true → Eval σ₁ t o σ₂ → Eval σ (.ternary c t e) o σ₂
  | ternaryF {σ σ₁ σ₂ : State A} {c t e : Expr A} {v : Value A} {o : Out A (Value A)} :
      Eval σ c (.val v) σ₁ → truthy P v = false → Eval σ₁ e o σ₂ → Eval σ (.ternary c t e) o σ₂
  | ternaryThr {σ σ₁ : State A} {c t e : Expr A} {x : Value A} :
      Eval σ c (.thr x) σ₁ → Eval σ (.ternary c t e) (.thr x) σ₁
  | elvisT {σ σ₁ : State A} {c e : Expr A} {v : Value A} :
      Eval σ c (.val v) σ₁ → truthy P v = true → Eval σ (.elvis c e) (.val v) σ₁
  | elvisF {σ σ₁ σ₂ : State A} {c e : Expr A} {v : Value A} {o : Out A (Value A)} :
      Eval σ c (.val v) σ₁ → truthy P v = false → Eval σ₁ e o σ₂ → Eval σ (.elvis c e) o σ₂
  | elvisThr {σ σ₁ : State A} {c e : Expr A} {x : Value A} :
      Eval σ c (.thr x) σ₁ → Eval σ (.elvis c e) (.thr x) σ₁
  | call {σ σ₁ σ₂ : State A} {path : List Name} {f : Name} {args : List (Expr A)} {vs : List (Value A)}
      {o : Out A (Value A)} :
      EvalArgs σ args (.val vs) σ₁ → Call σ₁ path f vs o σ₂ → Eval σ (.call path f args) o σ₂
  | callThr {σ σ₁ : State A} {path : List Name} {f : Name} {args : List (Expr A)} {x : Value A} :
      EvalArgs σ args (.thr x) σ₁ → Eval σ (.call path f args) (.thr x) σ₁
  /-- A constructor is a method of the new object; `return` ends it like its last statement. -/
  | new {σ σ₁ σ₂ : State A} {cls : Name} {args : List (Expr A)} {vs : List (Value A)} {m : Method A} {c : Comp A} :
      EvalArgs σ args (.val vs) σ₁ → G.ctor cls vs = some m →
      Run { σ₁ with objs := σ₁.objs ++ [G.fields cls] } m (some (cls, σ₁.objs.length)) vs c σ₂ →
      (c = .normal ∨ ∃ r, c = .ret r ∧ U .ctorReturn) →
      Eval σ (.new cls args) (.val (.obj cls σ₁.objs.length)) σ₂
  | newThr {σ σ₁ σ₂ : State A} {cls : Name} {args : List (Expr A)} {vs : List (Value A)} {m : Method A} {x : Value A} :
      EvalArgs σ args (.val vs) σ₁ → G.ctor cls vs = some m →
      Run { σ₁ with objs := σ₁.objs ++ [G.fields cls] } m (some (cls, σ₁.objs.length)) vs (.thr x) σ₂ →
      U .ctorThrow → Eval σ (.new cls args) (.thr x) σ₂
  | newArgs {σ σ₁ : State A} {cls : Name} {args : List (Expr A)} {x : Value A} :
      EvalArgs σ args (.thr x) σ₁ → Eval σ (.new cls args) (.thr x) σ₁
  | dotSym {σ σ₁ : State A} {l : Expr A} {p : Path} {v u : Value A} {w : Place} :
      Eval σ l (.val v) σ₁ → σ₁.members (σ₁.member v p.head) p.tail = some (w, u) →
      Eval σ (.dot l (.sym p)) (.val u) σ₁
  | dotSymNull {σ σ₁ : State A} {l : Expr A} {p : Path} {v : Value A} :
      Eval σ l (.val v) σ₁ → σ₁.members (σ₁.member v p.head) p.tail = none → U .dotThrow →
      Eval σ (.dot l (.sym p)) (.thr (P.npe p.head)) { σ₁ with last := some (P.npe p.head) }
  /-- The arguments of `l.f(...)` are evaluated after `l`, in the environment of the expression. -/
  | dotCall {σ σ₁ σ₂ σ₃ : State A} {l : Expr A} {f : Name} {args : List (Expr A)} {cls : Name} {i : Nat}
      {vs : List (Value A)} {m : Bound A} {o : Out A (Value A)} :
      Eval σ l (.val (.obj cls i)) σ₁ → EvalArgs σ₁ args (.val vs) σ₂ →
      ((∃ as : List A, args = as.map .lit) ∨ U .dotArgs) →
      methodOf G (some (cls, i)) f vs = some m → Invoke σ₂ m vs o σ₃ → (∀ x, o = .thr x → U .dotThrow) →
      Eval σ (.dot l (.call [] f args)) o σ₃
  | dotThr {σ σ₁ : State A} {l r : Expr A} {x : Value A} :
      Eval σ l (.thr x) σ₁ → Eval σ (.dot l r) (.thr x) σ₁

/-- Arguments, from left to right. -/
inductive EvalArgs : State A → List (Expr A) → Out A (List (Value A)) → State A → Prop where
  | nil {σ : State A} : EvalArgs σ [] (.val []) σ
  | cons {σ σ₁ σ₂ : State A} {e : Expr A} {es : List (Expr A)} {v : Value A} {vs : List (Value A)} :
      Eval σ e (.val v) σ₁ → EvalArgs σ₁ es (.val vs) σ₂ → EvalArgs σ (e :: es) (.val (v :: vs)) σ₂
  | consThr {σ σ₁ : State A} {e : Expr A} {es : List (Expr A)} {x : Value A} :
      Eval σ e (.thr x) σ₁ → EvalArgs σ (e :: es) (.thr x) σ₁
  | consThrTail {σ σ₁ σ₂ : State A} {e : Expr A} {es : List (Expr A)} {v x : Value A} :
      Eval σ e (.val v) σ₁ → EvalArgs σ₁ es (.thr x) σ₂ → EvalArgs σ (e :: es) (.thr x) σ₂

/-- Comparisons: instances of a class by its operator, and by identity if it has none for `==`. -/
inductive Compare : State A → Cmp → Value A → Value A → Out A Bool → State A → Prop where
  | prim {σ : State A} {c : Cmp} {v w : Value A} {b : Bool} :
      (∀ cls o, v ≠ .obj cls o) → P.compare c v w = some b → Compare σ c v w (.val b) σ
  | method {σ σ' : State A} {c : Cmp} {cls : Name} {i : Nat} {w u : Value A} {m : Bound A} :
      methodOf G (some (cls, i)) (operatorMethod c) [w] = some m → m.1.isVoid = false →
      Run σ m.1 m.2 [w] (.ret (some u)) σ' → Compare σ c (.obj cls i) w (.val (truthy P u)) σ'
  | methodThr {σ σ' : State A} {c : Cmp} {cls : Name} {i : Nat} {w x : Value A} {m : Bound A} :
      methodOf G (some (cls, i)) (operatorMethod c) [w] = some m → Run σ m.1 m.2 [w] (.thr x) σ' → U .operatorThrow →
      Compare σ c (.obj cls i) w (.thr x) σ'
  | same {σ : State A} {cls cls' : Name} {i j : Nat} :
      methodOf G (some (cls, i)) (operatorMethod .eq) [.obj cls' j] = none →
      Compare σ .eq (.obj cls i) (.obj cls' j) (.val (decide (i = j))) σ
  | other {σ : State A} {cls : Name} {i : Nat} {w : Value A} :
      methodOf G (some (cls, i)) (operatorMethod .eq) [w] = none → (∀ cls' j, w ≠ .obj cls' j) →
      Compare σ .eq (.obj cls i) w (.val false) σ

/-- A call, once the arguments are known. -/
inductive Call : State A → List Name → Name → List (Value A) → Out A (Value A) → State A → Prop where
  | found {σ σ' : State A} {path : List Name} {f : Name} {vs : List (Value A)} {m : Bound A} {o : Out A (Value A)} :
      σ.callee G path f vs = some m → Invoke σ m vs o σ' → Call σ path f vs o σ'
  | missing {σ : State A} {path : List Name} {f : Name} {vs : List (Value A)} :
      σ.callee G path f vs = none → (σ.calleeOuter G path f vs = none ∨ U .shadowed) →
      Call σ path f vs (.thr (P.npe f)) { σ with last := some (P.npe f) }

/-- A call of a given method: native code, or a body.  A method that returns a value has to do so. -/
inductive Invoke : State A → Bound A → List (Value A) → Out A (Value A) → State A → Prop where
  | native {σ : State A} {m : Bound A} {vs : List (Value A)} {g : List (Value A) → Except (Value A) (Value A)} {v : Value A} :
      m.1.code = .native g → g vs = .ok v → Invoke σ m vs (.val v) σ
  | nativeThr {σ : State A} {m : Bound A} {vs : List (Value A)} {g : List (Value A) → Except (Value A) (Value A)} {x : Value A} :
      m.1.code = .native g → g vs = .error x → Invoke σ m vs (.thr x) { σ with last := some x }
  | value {σ σ' : State A} {m : Bound A} {vs : List (Value A)} {v : Value A} :
      Run σ m.1 m.2 vs (.ret (some v)) σ' → m.1.isVoid = false → Invoke σ m vs (.val v) σ'
  | void {σ σ' : State A} {m : Bound A} {vs : List (Value A)} {c : Comp A} :
      Run σ m.1 m.2 vs c σ' → (∀ x, c ≠ .thr x) → m.1.isVoid = true → Invoke σ m vs (.val .null) σ'
  | thr {σ σ' : State A} {m : Bound A} {vs : List (Value A)} {x : Value A} :
      Run σ m.1 m.2 vs (.thr x) σ' → Invoke σ m vs (.thr x) σ'

/-- The body of a method: it sees its parameters, the members of its object and the globals, but not
the variables of its caller. -/
inductive Run : State A → Method A → Option (Name × Nat) → List (Value A) → Comp A → State A → Prop where
  | body {σ σ' : State A} {m : Method A} {self : Option (Name × Nat)} {vs : List (Value A)} {b : List (Stmt A)} {c : Comp A} :
      m.code = .body b →
      ExecList none { σ with blocks := [parameters self m vs], self := self, rv := .null } b c σ' →
      Run σ m self vs c { σ' with blocks := σ.blocks, self := σ.self, rv := σ.rv }

/-- `ExecList h σ b c σ'`: the statements `b` complete with `c`; `h` is the exception that is being
handled.  Nothing is executed after a statement that does not complete normally. -/
inductive ExecList : Option (Value A) → State A → List (Stmt A) → Comp A → State A → Prop where
  | nil {h : Option (Value A)} {σ : State A} : ExecList h σ [] .normal σ
  | cons {h : Option (Value A)} {σ σ₁ σ₂ : State A} {st : Stmt A} {b : List (Stmt A)} {c : Comp A} :
      Exec h σ st .normal σ₁ → ExecList h σ₁ b c σ₂ → ExecList h σ (st :: b) c σ₂
  | jump {h : Option (Value A)} {σ σ₁ : State A} {st : Stmt A} {b : List (Stmt A)} {c : Comp A} :
      Exec h σ st c σ₁ → c ≠ .normal → ExecList h σ (st :: b) c σ₁

/-- A block: its variables exist until it completes, in whichever way. -/
inductive ExecBlock : Option (Value A) → State A → List (Stmt A) → Comp A → State A → Prop where
  | block {h : Option (Value A)} {σ σ₁ : State A} {b : List (Stmt A)} {c : Comp A} :
      ExecList h { σ with blocks := [] :: σ.blocks } b c σ₁ →
      ExecBlock h σ b c { σ₁ with blocks := σ₁.blocks.tail }

inductive Exec : Option (Value A) → State A → Stmt A → Comp A → State A → Prop where
  | nop {h : Option (Value A)} {σ : State A} : Exec h σ .nop .normal σ
  | expr {h : Option (Value A)} {σ σ' : State A} {e : Expr A} {v : Value A} :
      Eval σ e (.val v) σ' → Exec h σ (.expr e) .normal σ'
  | exprThr {h : Option (Value A)} {σ σ' : State A} {e : Expr A} {x : Value A} :
      Eval σ e (.thr x) σ' → Exec h σ (.expr e) (.thr x) σ'
  | exprAssignThr {h : Option (Value A)} {σ σ' : State A} {p : Path} {e : Expr A} {w : Place} {old x : Value A} :
      σ.locate p = some (w, old) → Eval σ e (.thr x) σ' → Exec h σ (.expr (.assign p e)) (.thr x) σ'
  | assign {h : Option (Value A)} {σ σ' : State A} {p : Path} {e : Expr A} {w : Place} {old v v' : Value A} :
      σ.locate p = some (w, old) → Eval σ e (.val v) σ' → P.assign old v = some v' →
      Exec h σ (.assign p e) .normal (σ'.write w p.target v')
  | assignThr {h : Option (Value A)} {σ σ' : State A} {p : Path} {e : Expr A} {w : Place} {old x : Value A} :
      σ.locate p = some (w, old) → Eval σ e (.thr x) σ' → Exec h σ (.assign p e) (.thr x) σ'
  | decl {h : Option (Value A)} {σ : State A} {ty x : Name} {b : AMap Name (Value A)} {bs : List (AMap Name (Value A))} :
      σ.blocks = b :: bs → b.find x = none →
      Exec h σ (.decl ty x none) .normal { σ with blocks := b.set x (P.default ty) :: bs }
  | declInit {h : Option (Value A)} {σ σ' : State A} {ty x : Name} {e : Expr A} {b : AMap Name (Value A)}
      {bs : List (AMap Name (Value A))} {w : Place} {old v v' : Value A} :
      σ.blocks = b :: bs → b.find x = none → Eval { σ with blocks := b.set x (P.default ty) :: bs } e (.val v) σ' →
      σ'.name x = some (w, old) → P.assign old v = some v' →
      Exec h σ (.decl ty x (some e)) .normal (σ'.write w x v')
  | declThr {h : Option (Value A)} {σ σ' : State A} {ty x : Name} {e : Expr A} {b : AMap Name (Value A)}
      {bs : List (AMap Name (Value A))} {y : Value A} :
      σ.blocks = b :: bs → b.find x = none → Eval { σ with blocks := b.set x (P.default ty) :: bs } e (.thr y) σ' →
      Exec h σ (.decl ty x (some e)) (.thr y) σ'
  | print {h : Option (Value A)} {σ σ' : State A} {e : Expr A} {v : Value A} :
      Eval σ e (.val v) σ' → Exec h σ (.print e) .normal { σ' with out := v :: σ'.out }
  | printThr {h : Option (Value A)} {σ σ' : State A} {e : Expr A} {x : Value A} :
      Eval σ e (.thr x) σ' → Exec h σ (.print e) (.thr x) σ'
  /-- A failed assertion ends the program, so only assertions that hold complete. -/
  | assert {h : Option (Value A)} {σ σ' : State A} {e : Expr A} {msg : Option (Expr A)} {v : Value A} :
      Eval σ e (.val v) σ' → truthy P v = true → Exec h σ (.assert e msg) .normal σ'
  | assertThr {h : Option (Value A)} {σ σ' : State A} {e : Expr A} {msg : Option (Expr A)} {x : Value A} :
      Eval σ e (.thr x) σ' → Exec h σ (.assert e msg) (.thr x) σ'
  | delete {h : Option (Value A)} {σ σ' : State A} {e : Expr A} {v : Value A} :
      Eval σ e (.val v) σ' → Exec h σ (.delete e) .normal σ'
  | deleteThr {h : Option (Value A)} {σ σ' : State A} {e : Expr A} {x : Value A} :
      Eval σ e (.thr x) σ' → Exec h σ (.delete e) (.thr x) σ'
  | retNone {h : Option (Value A)} {σ : State A} : Exec h σ (.ret none) (.ret none) σ
  | ret {h : Option (Value A)} {σ σ' : State A} {e : Expr A} {v : Value A} :
      Eval σ e (.val v) σ' → (P.ret σ'.rv v = some v ∨ U .returnConverted) →
      Exec h σ (.ret (some e)) (.ret (some v)) { σ' with rv := v }
  | retThr {h : Option (Value A)} {σ σ' : State A} {e : Expr A} {x : Value A} :
      Eval σ e (.thr x) σ' → Exec h σ (.ret (some e)) (.thr x) σ'
  | throw {h : Option (Value A)} {σ σ' : State A} {e : Expr A} {v : Value A} :
      Eval σ e (.val v) σ' → Exec h σ (.throw (some e)) (.thr v) { σ' with last := some v }
  | throwThr {h : Option (Value A)} {σ σ' : State A} {e : Expr A} {x : Value A} :
      Eval σ e (.thr x) σ' → Exec h σ (.throw (some e)) (.thr x) σ'
  | rethrow {σ : State A} {x : Value A} : (σ.last = some x ∨ U .rethrowOther) →
      Exec (some x) σ (.throw none) (.thr x) { σ with last := some x }
  | brk {h : Option (Value A)} {σ : State A} : Exec h σ .brk .brk σ
  | cont {h : Option (Value A)} {σ : State A} : Exec h σ .cont .cont σ
  | iteT {h : Option (Value A)} {σ σ₁ σ₂ : State A} {c : Expr A} {t e : Stmt A} {v : Value A} {d : Comp A} :
      Eval σ c (.val v) σ₁ → truthy P v = true → Exec h σ₁ t d σ₂ → Exec h σ (.ite c t e) d σ₂
  | iteF {h : Option (Value A)} {σ σ₁ σ₂ : State A} {c : Expr A} {t e : Stmt A} {v : Value A} {d : Comp A} :
      Eval σ c (.val v) σ₁ → truthy P v = false → Exec h σ₁ e d σ₂ → Exec h σ (.ite c t e) d σ₂
  | iteThr {h : Option (Value A)} {σ σ₁ : State A} {c : Expr A} {t e : Stmt A} {x : Value A} :
      Eval σ c (.thr x) σ₁ → Exec h σ (.ite c t e) (.thr x) σ₁
  | whileF {h : Option (Value A)} {σ σ₁ : State A} {c : Expr A} {b : Stmt A} {v : Value A} :
      Eval σ c (.val v) σ₁ → truthy P v = false → Exec h σ (.while c b) .normal σ₁
  | whileThr {h : Option (Value A)} {σ σ₁ : State A} {c : Expr A} {b : Stmt A} {x : Value A} :
      Eval σ c (.thr x) σ₁ → Exec h σ (.while c b) (.thr x) σ₁
  | whileNext {h : Option (Value A)} {σ σ₁ σ₂ σ₃ : State A} {c : Expr A} {b : Stmt A} {v : Value A} {d d' : Comp A} :
      Eval σ c (.val v) σ₁ → truthy P v = true → Exec h σ₁ b d σ₂ → d = .normal ∨ d = .cont →
      Exec h σ₂ (.while c b) d' σ₃ → Exec h σ (.while c b) d' σ₃
  | whileBrk {h : Option (Value A)} {σ σ₁ σ₂ : State A} {c : Expr A} {b : Stmt A} {v : Value A} :
      Eval σ c (.val v) σ₁ → truthy P v = true → Exec h σ₁ b .brk σ₂ → Exec h σ (.while c b) .normal σ₂
  | whileLeave {h : Option (Value A)} {σ σ₁ σ₂ : State A} {c : Expr A} {b : Stmt A} {v : Value A} {d : Comp A} :
      Eval σ c (.val v) σ₁ → truthy P v = true → Exec h σ₁ b d σ₂ → (∃ r, d = .ret r) ∨ (∃ x, d = .thr x) →
      Exec h σ (.while c b) d σ₂
  /-- The loop variable lives in a block around the loop. -/
  | for {h : Option (Value A)} {σ σ₁ σ₂ : State A} {init : Stmt A} {c : Option (Expr A)} {iter b : Stmt A} {d : Comp A} :
      Exec h { σ with blocks := [] :: σ.blocks } init .normal σ₁ → ForLoop h σ₁ c iter b d σ₂ →
      Exec h σ (.for init c iter b) d { σ₂ with blocks := σ₂.blocks.tail }
  | forInit {h : Option (Value A)} {σ σ₁ : State A} {init : Stmt A} {c : Option (Expr A)} {iter b : Stmt A} {d : Comp A} :
      Exec h { σ with blocks := [] :: σ.blocks } init d σ₁ → d ≠ .normal → U .forLeft →
      Exec h σ (.for init c iter b) d { σ₁ with blocks := σ₁.blocks.tail }
  | foreach {h : Option (Value A)} {σ σ₁ σ₂ σ₃ : State A} {ty x : Name} {coll : Expr A} {b : Stmt A} {cls : Name} {i : Nat}
      {it : Value A} {m : Bound A} {d : Comp A} :
      Eval σ coll (.val (.obj cls i)) σ₁ → methodOf G (some (cls, i)) "getIterator" [] = some m →
      Invoke σ₁ m [] (.val it) σ₂ → EachLoop h σ₂ ty x it b d σ₃ → Exec h σ (.foreach ty x coll b) d σ₃
  | foreachThr {h : Option (Value A)} {σ σ₁ : State A} {ty x : Name} {coll : Expr A} {b : Stmt A} {y : Value A} :
      Eval σ coll (.thr y) σ₁ → Exec h σ (.foreach ty x coll b) (.thr y) σ₁
  | foreachIterThr {h : Option (Value A)} {σ σ₁ σ₂ : State A} {ty x : Name} {coll : Expr A} {b : Stmt A} {cls : Name} {i : Nat}
      {m : Bound A} {y : Value A} :
      Eval σ coll (.val (.obj cls i)) σ₁ → methodOf G (some (cls, i)) "getIterator" [] = some m →
      Invoke σ₁ m [] (.thr y) σ₂ → U .foreachThrow → Exec h σ (.foreach ty x coll b) (.thr y) σ₂
  | foreachIt {h : Option (Value A)} {σ σ₁ σ₂ : State A} {ty x : Name} {path : List Name} {f : Name} {args : List (Expr A)}
      {b : Stmt A} {it : Value A} {d : Comp A} :
      Eval σ (.call path f args) (.val it) σ₁ → EachLoop h σ₁ ty x it b d σ₂ →
      Exec h σ (.foreachIt ty x path f args b) d σ₂
  | foreachItThr {h : Option (Value A)} {σ σ₁ : State A} {ty x : Name} {path : List Name} {f : Name} {args : List (Expr A)}
      {b : Stmt A} {y : Value A} :
      Eval σ (.call path f args) (.thr y) σ₁ → U .foreachThrow →
      Exec h σ (.foreachIt ty x path f args b) (.thr y) σ₁
  | switch {h : Option (Value A)} {σ σ₁ : State A} {e : Expr A} {cases : List (Expr A × List (Stmt A))}
      {dflt : List (Stmt A)} {d : Comp A} :
      Round h σ e cases dflt d σ₁ → (∃ r, d = .ret r) ∨ (∃ x, d = .thr x) → Exec h σ (.switch e cases dflt) d σ₁
  | switchEnd {h : Option (Value A)} {σ σ₁ : State A} {e : Expr A} {cases : List (Expr A × List (Stmt A))}
      {dflt : List (Stmt A)} {d : Comp A} :
      Round h σ e cases dflt d σ₁ → d = .normal ∨ d = .brk → Exec h σ (.switch e cases dflt) .normal σ₁
  /-- `continue` in a switch statement executes the statement again. -/
  | switchAgain {h : Option (Value A)} {σ σ₁ σ₂ : State A} {e : Expr A} {cases : List (Expr A × List (Stmt A))}
      {dflt : List (Stmt A)} {d : Comp A} :
      Round h σ e cases dflt .cont σ₁ → Exec h σ₁ (.switch e cases dflt) d σ₂ →
      Exec h σ (.switch e cases dflt) d σ₂
  | tryOnly {h : Option (Value A)} {σ σ₁ : State A} {b : List (Stmt A)}
      {catches : List (Option (Name × Name) × List (Stmt A))} {d : Comp A} :
      Guarded h σ b catches d σ₁ → Exec h σ (.try b catches none) d σ₁
  /-- The `finally` block completes normally: the statement completes as it would have without it. -/
  | tryFinally {h : Option (Value A)} {σ σ₁ σ₂ : State A} {b f : List (Stmt A)}
      {catches : List (Option (Name × Name) × List (Stmt A))} {d : Comp A} :
      Guarded h σ b catches d σ₁ → ExecBlock h σ₁ f .normal σ₂ →
      (∀ x, d = .thr x → σ₂.last = some x ∨ U .pendingReplaced) →
      (∀ v, d = .ret (some v) → σ₂.rv = v ∨ U .pendingReplaced) →
      Exec h σ (.try b catches (some f)) d σ₂
  /-- Otherwise it completes like the `finally` block. -/
  | tryFinallyJump {h : Option (Value A)} {σ σ₁ σ₂ : State A} {b f : List (Stmt A)}
      {catches : List (Option (Name × Name) × List (Stmt A))} {d d' : Comp A} :
      Guarded h σ b catches d σ₁ → ExecBlock h σ₁ f d' σ₂ → d' ≠ .normal →
      Exec h σ (.try b catches (some f)) d' σ₂
  | block {h : Option (Value A)} {σ σ₁ : State A} {b : List (Stmt A)} {d : Comp A} :
      ExecBlock h σ b d σ₁ → Exec h σ (.block b) d σ₁

/-- A try block and its handlers, without the `finally` block. -/
inductive Guarded : Option (Value A) → State A → List (Stmt A) → List (Option (Name × Name) × List (Stmt A)) →
    Comp A → State A → Prop where
  | quiet {h : Option (Value A)} {σ σ₁ : State A} {b : List (Stmt A)}
      {catches : List (Option (Name × Name) × List (Stmt A))} {d : Comp A} :
      ExecBlock h σ b d σ₁ → (∀ x, d ≠ .thr x) → Guarded h σ b catches d σ₁
  /-- Without catch clauses every exception is caught. -/
  | noClause {h : Option (Value A)} {σ σ₁ : State A} {b : List (Stmt A)} {x : Value A} :
      ExecBlock h σ b (.thr x) σ₁ → Guarded h σ b [] .normal σ₁
  | uncaught {h : Option (Value A)} {σ σ₁ : State A} {b : List (Stmt A)}
      {catches : List (Option (Name × Name) × List (Stmt A))} {x : Value A} :
      ExecBlock h σ b (.thr x) σ₁ → catches ≠ [] → clause P x catches = none → Guarded h σ b catches (.thr x) σ₁
  | caught {h : Option (Value A)} {σ σ₁ σ₂ : State A} {b b' : List (Stmt A)}
      {catches : List (Option (Name × Name) × List (Stmt A))} {x : Value A} {decl : Option (Name × Name)}
      {vars : AMap Name (Value A)} {d : Comp A} :
      ExecBlock h σ b (.thr x) σ₁ → clause P x catches = some (decl, b') → Caught P x decl vars →
      ExecBlock (some x) { σ₁ with blocks := vars :: σ₁.blocks } b' d σ₂ →
      Guarded h σ b catches d { σ₂ with blocks := σ₂.blocks.tail }

/-- `for`: while the condition holds, the body, then the iteration. -/
inductive ForLoop : Option (Value A) → State A → Option (Expr A) → Stmt A → Stmt A → Comp A → State A → Prop where
  | stop {h : Option (Value A)} {σ σ₁ : State A} {c : Expr A} {iter b : Stmt A} {v : Value A} :
      Eval σ c (.val v) σ₁ → truthy P v = false → ForLoop h σ (some c) iter b .normal σ₁
  | condThr {h : Option (Value A)} {σ σ₁ : State A} {c : Expr A} {iter b : Stmt A} {x : Value A} :
      Eval σ c (.thr x) σ₁ → U .forLeft → ForLoop h σ (some c) iter b (.thr x) σ₁
  | next {h : Option (Value A)} {σ σ₁ σ₂ σ₃ σ₄ : State A} {c : Option (Expr A)} {iter b : Stmt A} {d d' : Comp A} :
      Holds σ c σ₁ → Exec h σ₁ b d σ₂ → d = .normal ∨ d = .cont → Exec h σ₂ iter .normal σ₃ →
      ForLoop h σ₃ c iter b d' σ₄ → ForLoop h σ c iter b d' σ₄
  | iterJump {h : Option (Value A)} {σ σ₁ σ₂ σ₃ : State A} {c : Option (Expr A)} {iter b : Stmt A} {d d' : Comp A} :
      Holds σ c σ₁ → Exec h σ₁ b d σ₂ → d = .normal ∨ d = .cont → Exec h σ₂ iter d' σ₃ → d' ≠ .normal →
      U .forLeft → ForLoop h σ c iter b d' σ₃
  | brk {h : Option (Value A)} {σ σ₁ σ₂ : State A} {c : Option (Expr A)} {iter b : Stmt A} :
      Holds σ c σ₁ → Exec h σ₁ b .brk σ₂ → U .forLeft → ForLoop h σ c iter b .normal σ₂
  | leave {h : Option (Value A)} {σ σ₁ σ₂ : State A} {c : Option (Expr A)} {iter b : Stmt A} {d : Comp A} :
      Holds σ c σ₁ → Exec h σ₁ b d σ₂ → (∃ r, d = .ret r) ∨ (∃ x, d = .thr x) → U .forLeft →
      ForLoop h σ c iter b d σ₂

/-- The condition of a `for` statement: a missing one holds. -/
inductive Holds : State A → Option (Expr A) → State A → Prop where
  | none {σ : State A} : Holds σ none σ
  | some {σ σ₁ : State A} {c : Expr A} {v : Value A} :
      Eval σ c (.val v) σ₁ → truthy P v = true → Holds σ (some c) σ₁

/-- `foreach`: while the iterator has a next element, the body with the loop variable set to it. -/
inductive EachLoop : Option (Value A) → State A → Name → Name → Value A → Stmt A → Comp A → State A → Prop where
  | stop {h : Option (Value A)} {σ σ₁ : State A} {ty x : Name} {cls : Name} {i : Nat} {b : Stmt A} {m : Bound A} {v : Value A} :
      methodOf G (some (cls, i)) "hasNext" [] = some m → Invoke σ m [] (.val v) σ₁ → truthy P v = false →
      EachLoop h σ ty x (.obj cls i) b .normal σ₁
  | hasNextThr {h : Option (Value A)} {σ σ₁ : State A} {ty x : Name} {cls : Name} {i : Nat} {b : Stmt A} {m : Bound A} {y : Value A} :
      methodOf G (some (cls, i)) "hasNext" [] = some m → Invoke σ m [] (.thr y) σ₁ → U .foreachThrow →
      EachLoop h σ ty x (.obj cls i) b (.thr y) σ₁
  | nextThr {h : Option (Value A)} {σ σ₁ σ₂ : State A} {ty x : Name} {cls : Name} {i : Nat} {b : Stmt A} {y : Value A} :
      HasNext σ (.obj cls i) σ₁ → Next σ₁ (.obj cls i) (.thr y) σ₂ → U .foreachThrow →
      EachLoop h σ ty x (.obj cls i) b (.thr y) σ₂
  | next {h : Option (Value A)} {σ σ₁ σ₂ σ₃ σ₄ : State A} {ty x : Name} {it v : Value A} {b : Stmt A} {d d' : Comp A} :
      HasNext σ it σ₁ → Next σ₁ it (.val v) σ₂ → Exec h { σ₂ with blocks := [(x, v)] :: σ₂.blocks } b d σ₃ →
      d = .normal ∨ d = .cont → EachLoop h { σ₃ with blocks := σ₃.blocks.tail } ty x it b d' σ₄ →
      EachLoop h σ ty x it b d' σ₄
  | brk {h : Option (Value A)} {σ σ₁ σ₂ σ₃ : State A} {ty x : Name} {it v : Value A} {b : Stmt A} :
      HasNext σ it σ₁ → Next σ₁ it (.val v) σ₂ → Exec h { σ₂ with blocks := [(x, v)] :: σ₂.blocks } b .brk σ₃ →
      EachLoop h σ ty x it b .normal { σ₃ with blocks := σ₃.blocks.tail }
  | leave {h : Option (Value A)} {σ σ₁ σ₂ σ₃ : State A} {ty x : Name} {it v : Value A} {b : Stmt A} {d : Comp A} :
      HasNext σ it σ₁ → Next σ₁ it (.val v) σ₂ → Exec h { σ₂ with blocks := [(x, v)] :: σ₂.blocks } b d σ₃ →
      (∃ r, d = .ret r) ∨ (∃ y, d = .thr y) → EachLoop h σ ty x it b d { σ₃ with blocks := σ₃.blocks.tail }

/-- The iterator says that there is a next element. -/
inductive HasNext : State A → Value A → State A → Prop where
  | intro {σ σ₁ : State A} {cls : Name} {i : Nat} {m : Bound A} {v : Value A} :
      methodOf G (some (cls, i)) "hasNext" [] = some m → Invoke σ m [] (.val v) σ₁ → truthy P v = true →
      HasNext σ (.obj cls i) σ₁

/-- The next element of the iterator. -/
inductive Next : State A → Value A → Out A (Value A) → State A → Prop where
  | intro {σ σ₁ : State A} {cls : Name} {i : Nat} {m : Bound A} {o : Out A (Value A)} :
      methodOf G (some (cls, i)) "next" [] = some m → Invoke σ m [] o σ₁ → Next σ (.obj cls i) o σ₁

/-- One execution of a switch statement: the block of the first case whose value equals the value of the
expression, or the default block.  The expression is not needed if there is no case. -/
inductive Round : Option (Value A) → State A → Expr A → List (Expr A × List (Stmt A)) → List (Stmt A) → Comp A →
    State A → Prop where
  | noCase {h : Option (Value A)} {σ σ₁ : State A} {e : Expr A} {dflt : List (Stmt A)} {d : Comp A} :
      ExecBlock h σ dflt d σ₁ → Round h σ e [] dflt d σ₁
  | cases {h : Option (Value A)} {σ σ₁ σ₂ : State A} {e : Expr A} {c : Expr A × List (Stmt A)}
      {cases : List (Expr A × List (Stmt A))} {dflt : List (Stmt A)} {v : Value A} {d : Comp A} :
      Eval σ e (.val v) σ₁ → Cases h σ₁ v (c :: cases) dflt d σ₂ → Round h σ e (c :: cases) dflt d σ₂
  | thr {h : Option (Value A)} {σ σ₁ : State A} {e : Expr A} {c : Expr A × List (Stmt A)}
      {cases : List (Expr A × List (Stmt A))} {dflt : List (Stmt A)} {x : Value A} :
      Eval σ e (.thr x) σ₁ → Round h σ e (c :: cases) dflt (.thr x) σ₁

inductive Cases : Option (Value A) → State A → Value A → List (Expr A × List (Stmt A)) → List (Stmt A) → Comp A →
    State A → Prop where
  | dflt {h : Option (Value A)} {σ σ₁ : State A} {v : Value A} {dflt : List (Stmt A)} {d : Comp A} :
      ExecBlock h σ dflt d σ₁ → Cases h σ v [] dflt d σ₁
  | hit {h : Option (Value A)} {σ σ₁ σ₂ σ₃ : State A} {v w : Value A} {e : Expr A} {b : List (Stmt A)}
      {cases : List (Expr A × List (Stmt A))} {dflt : List (Stmt A)} {d : Comp A} :
      Eval σ e (.val w) σ₁ → Compare σ₁ .eq v w (.val true) σ₂ → ExecBlock h σ₂ b d σ₃ →
      Cases h σ v ((e, b) :: cases) dflt d σ₃
  | skip {h : Option (Value A)} {σ σ₁ σ₂ σ₃ : State A} {v w : Value A} {e : Expr A} {b : List (Stmt A)}
      {cases : List (Expr A × List (Stmt A))} {dflt : List (Stmt A)} {d : Comp A} :
      Eval σ e (.val w) σ₁ → Compare σ₁ .eq v w (.val false) σ₂ → Cases h σ₂ v cases dflt d σ₃ →
      Cases h σ v ((e, b) :: cases) dflt d σ₃
  | thr {h : Option (Value A)} {σ σ₁ : State A} {v x : Value A} {e : Expr A} {b : List (Stmt A)}
      {cases : List (Expr A × List (Stmt A))} {dflt : List (Stmt A)} :
      Eval σ e (.thr x) σ₁ → Cases h σ v ((e, b) :: cases) dflt (.thr x) σ₁
  | opThr {h : Option (Value A)} {σ σ₁ σ₂ : State A} {v w x : Value A} {e : Expr A} {b : List (Stmt A)}
      {cases : List (Expr A × List (Stmt A))} {dflt : List (Stmt A)} :
      Eval σ e (.val w) σ₁ → Compare σ₁ .eq v w (.thr x) σ₂ → Cases h σ v ((e, b) :: cases) dflt (.thr x) σ₂

end

end Spec
end Interp
end Verif
