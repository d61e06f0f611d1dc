import Verif.AMap

/-!
# Variables, references and assignment at run time

Model of how run-time variables, members and parameters hold objects, how they are assigned,
cast, compared and handed to functions.

Left out throughout: enumerations, generic classes, methods of classes (also `operator=`,
`=operator`, `operator==`, constructors), static members, `base` and `this`, `const`,
exceptions, arithmetic, and the destruction of objects (objects live for ever here; C01-C05).
What the conversions between the atomic types do is a parameter (C24-C28).
-/

namespace Verif.Vars

/-- The atomic types: Core/Consts.h:101-112. -/
inductive Atom
  | bool | double | float | int16 | int32 | int64 | string
  deriving DecidableEq, Repr

/-- A type name: `<anonymous>` (Core/Consts.h:98-99), an atomic type or a class. -/
inductive Ty
  | anon
  | atom (a : Atom)
  | cls (n : String)
  deriving DecidableEq, Repr

/-- The fields of `Runtime::Object` that matter here: Core/Object.h. `outer` is
`mQualifiedOuterface`, `type` is `mQualifiedTypename`, `ref` the address in `mReference` (0 is
null; `mThis` is the object at `ref` if there is one), `value` is `mValue` (all atomic values
are coded as integers) and `ups` holds the names in the tree of ancestor objects `mInheritance`,
which is only ever searched for a name. `mIsAtomicType` is copied wherever `mQualifiedTypename`
is, so it is read off `type`. -/
structure Cell where
  outer : Ty
  type : Ty
  isRef : Bool
  ref : Nat
  value : Int
  ups : List String
  deriving DecidableEq, Repr

/-- An object in memory: its own cell and the cells of its members. Members of base classes live
in the `base` object in the code, here in the same list. -/
structure Obj where
  cell : Cell
  fields : List (String × Cell)
  deriving DecidableEq, Repr

/-- Local variables of the running function, innermost first, and the memory; the object at
address `n + 1` is the `n`-th in the list. -/
structure State where
  vars : List (String × Cell)
  heap : List Obj
  deriving DecidableEq, Repr

/-- `extends` or `implements`: Core/Designtime/Ancestor.h. -/
structure Anc where
  extends_ : Bool
  name : String
  deriving DecidableEq, Repr

/-- A class: its ancestors, and its members with type and `ref`. A class that extends nothing
extends `Object` (Designtime/Analyser.cpp:172-175); that is already in the list. -/
structure ClassDecl where
  name : String
  iface : Bool
  anc : List Anc
  fields : List (String × Ty × Bool)
  deriving DecidableEq, Repr

/-- Expressions. A place is a variable followed by member names. -/
inductive Expr
  | lit (a : Atom) (v : Int)
  | null
  | place (x : String) (fs : List String)
  | newObj (c : String)
  | newAtom (a : Atom) (e : Expr)
  | cast (t : Ty) (e : Expr)
  | ccast (t : Ty) (e : Expr)
  | call (f : String) (e : Expr)
  | is (e : Expr) (c : String)
  | eq (l r : Expr)
  | assign (x : String) (fs : List String) (e : Expr)
  deriving DecidableEq, Repr

/-- Statements: `T x [ref] [= e];`, `var x [ref] = e;`, `e;`, `if`, `while`. With `var` the type
is the one the compiler finds for `e` and puts into the tree (`process_var`,
AST/TreeGenerator.cpp:2179-2212). -/
inductive Stmt
  | decl (t : Ty) (x : String) (byRef : Bool) (init : Option Expr)
  | inferred (t : Ty) (x : String) (byRef : Bool) (e : Expr)
  | expr (e : Expr)
  | ite (e : Expr) (s t : List Stmt)
  | while (e : Expr) (s : List Stmt)
  deriving Repr

/-- A function with one parameter, whose body ends with its only `return`. -/
structure Fn where
  name : String
  param : String
  ptype : Ty
  ret : Ty
  body : List Stmt
  result : Expr

/-- A program. Classes are listed with derived classes before their ancestors (cyclic ones are
rejected, C49). -/
structure Program where
  classes : List ClassDecl
  fns : List Fn

/-- What the model leaves open about the atomic types: which assignments, casts and comparisons
the type table has, the conversions, the comparison and the truth of a value. -/
structure World where
  assigns : Atom → Atom → Bool
  casts : Atom → Atom → Bool
  equals : Atom → Atom → Bool
  convert : Atom → Int → Int
  equal : Atom → Int → Int → Bool
  truth : Int → Bool

/-- Ways for an evaluation not to arrive: `InvalidOperation` is a C++ exception that scripts
cannot catch; the name of a member of null is looked up elsewhere (C103), which is not followed
here; a call for whose run-time argument type there is no function. -/
inductive Err
  | invalidOperation
  | memberOfNull
  | noFunction
  | unknownName
  | outOfFuel
  deriving DecidableEq, Repr

inductive Res (α : Type)
  | ok (a : α) (σ : State)
  | err (e : Err)
  deriving DecidableEq, Repr

def Res.bind {α β : Type} (r : Res α) (k : α → State → Res β) : Res β :=
  match r with
  | .ok a σ => k a σ
  | .err e => .err e

/-! ## Classes -/

/-- `Repository::findBluePrintObject`: VirtualMachine/Repository.cpp:380-390. -/
def findClass (cs : List ClassDecl) (n : String) : Option ClassDecl :=
  cs.find? (fun c => c.name == n)

/-- The names in the tree of ancestor objects of a new object: `Repository::createUserType`,
VirtualMachine/Repository.cpp:277-318. Ancestors that are extended are created with theirs,
those that are implemented without (`InitilizationType::None`, line 304). -/
def upsOf : List ClassDecl → String → List String
  | [], _ => []
  | c :: cs, n =>
    if c.name = n then
      c.anc.flatMap (fun a => a.name :: (if a.extends_ then upsOf cs a.name else []))
    else upsOf cs n

/-- The members of a new object, its own first: VirtualMachine/Repository.cpp:320-354 and the
creation of `base` at 288-297. -/
def fieldsOf : List ClassDecl → String → List (String × Ty × Bool)
  | [], _ => []
  | c :: cs, n =>
    if c.name = n then
      c.fields ++ c.anc.flatMap (fun a => if a.extends_ then fieldsOf cs a.name else [])
    else fieldsOf cs n

/-! ## Objects -/

/-- `Repository::createInstance` with `InitilizationType::None` and then `setIsReference`:
VirtualMachine/Repository.cpp:178-233. A class variable starts without ancestors. -/
def create (t : Ty) (isRef : Bool) : Cell :=
  { outer := t, type := t, isRef := isRef, ref := 0, value := 0, ups := [] }

/-- `Repository::createReference` with `InitilizationType::Final`:
VirtualMachine/Repository.cpp:250-264, Memory::newObject: VirtualMachine/Memory.cpp:98-108 and
`Object::setReference`: Object.cpp:558-562. -/
def newObject (cs : List ClassDecl) (c : String) (σ : State) : Cell × State :=
  let cell : Cell :=
    { outer := .cls c, type := .cls c, isRef := true, ref := σ.heap.length + 1, value := 0,
      ups := upsOf cs c }
  let fields := (fieldsOf cs c).map (fun f => (f.1, create f.2.1 f.2.2))
  (cell, { σ with heap := σ.heap ++ [⟨cell, fields⟩] })

/-- `new` of an atomic type with its value: as above and `Object::Constructor`,
Object.cpp:155-166. -/
def newAtomic (a : Atom) (v : Int) (σ : State) : Cell × State :=
  let cell : Cell :=
    { outer := .atom a, type := .atom a, isRef := true, ref := σ.heap.length + 1, value := v,
      ups := [] }
  (cell, { σ with heap := σ.heap ++ [⟨cell, []⟩] })

/-- `Memory::get`: VirtualMachine/Memory.cpp:84-96. -/
def objAt (h : List Obj) (r : Nat) : Option Obj :=
  if r = 0 then none else h[r - 1]?

/-- `Object::getValue`: Object.cpp:289-296. -/
def getValue (h : List Obj) (c : Cell) : Int :=
  match objAt h c.ref with
  | some o => o.cell.value
  | none => c.value

/-- The value of the object at an address is replaced. -/
def setHeapValue (h : List Obj) (r : Nat) (v : Int) : List Obj :=
  h.modify (r - 1) (fun o => { o with cell := { o.cell with value := v } })

/-- `Object::isInstanceOf`: Object.cpp:323-340. -/
def isInstanceOf (c : Cell) (n : String) : Bool :=
  decide (c.type = .cls n) || c.ups.contains n

/-- `Object::isValid`: Object.cpp:342-349; also `isTrue`: Runtime/Utils.cpp:17-24. -/
def isValid (W : World) (h : List Obj) (c : Cell) : Bool :=
  match c.type with
  | .atom _ => W.truth (getValue h c)
  | _ => decide (c.ref ≠ 0)

/-- An atomic value: the constructors in Runtime/BuildInTypes. -/
def atomic (a : Atom) (v : Int) : Cell :=
  { outer := .atom a, type := .atom a, isRef := false, ref := 0, value := v, ups := [] }

/-! ## Places -/

/-- Where a cell is: a local variable or a member of the object at an address. -/
inductive Loc
  | var (x : String)
  | field (r : Nat) (f : String)
  deriving DecidableEq, Repr

def getL (l : List (String × Cell)) (x : String) : Option Cell :=
  (l.find? (fun p => p.1 == x)).map (·.2)

def setL (x : String) (c : Cell) : List (String × Cell) → List (String × Cell)
  | [] => []
  | p :: l => if p.1 == x then (p.1, c) :: l else p :: setL x c l

def readLoc (σ : State) : Loc → Option Cell
  | .var x => getL σ.vars x
  | .field r f => (objAt σ.heap r).bind (fun o => getL o.fields f)

def writeLoc (σ : State) (c : Cell) : Loc → State
  | .var x => { σ with vars := setL x c σ.vars }
  | .field r f =>
    { σ with heap := σ.heap.modify (r - 1) (fun o => { o with fields := setL f c o.fields }) }

/-- Members are looked up in the object a cell refers to: `TreeInterpreter::resolveRValue`,
AST/TreeInterpreter.cpp:857-893. -/
def resolveFields (σ : State) : Loc → List String → Except Err Loc
  | l, [] => match readLoc σ l with
    | some _ => .ok l
    | none => .error .unknownName
  | l, f :: fs => match readLoc σ l with
    | none => .error .unknownName
    | some c => if c.ref = 0 then .error .memberOfNull else resolveFields σ (.field c.ref f) fs

/-- `TreeInterpreter::resolveLValue`: AST/TreeInterpreter.cpp:847-855. -/
def resolve (σ : State) (x : String) (fs : List String) : Except Err Loc :=
  resolveFields σ (.var x) fs

/-! ## Assignment -/

/-- `Object::assign`: Object.cpp:88-115. Only if the other object is a reference is the
reference taken over; otherwise the value is set, which happens in the object referred to if
there is one (`Object::setValue`: Object.cpp:564-571). -/
def objAssign (σ : State) (l : Loc) (c r : Cell) : State :=
  let c1 : Cell :=
    { c with type := r.type, ups := r.ups, isRef := r.isRef,
             outer := if c.outer = .anon then r.outer else c.outer }
  let v := getValue σ.heap r
  if r.isRef then writeLoc σ { c1 with ref := r.ref } l
  else if c.ref ≠ 0 then
    let σ1 := writeLoc σ c1 l
    { σ1 with heap := setHeapValue σ1.heap c.ref v }
  else writeLoc σ { c1 with value := v } l

/-- `Object::assign` to a fresh anonymous object. -/
def anonAssign (h : List Obj) (r : Cell) : Cell :=
  { outer := r.outer, type := r.type, isRef := r.isRef, ups := r.ups,
    ref := if r.isRef then r.ref else 0, value := if r.isRef then 0 else getValue h r }

/-- `operator_binary_assign`: Runtime/OperatorOverloading.cpp:30-98. -/
def binAssign (W : World) (σ : State) (l : Loc) (r : Cell) : Res Unit :=
  match readLoc σ l with
  | none => .err .unknownName
  | some c =>
    if c.type = .anon ∨ r.type = c.type then .ok () (objAssign σ l c r)
    else match c.type with
      | .anon => .ok () (objAssign σ l c r)
      | .atom a => .ok () (objAssign σ l c (atomic a (W.convert a (getValue σ.heap r))))
      | .cls n =>
        if isValid W σ.heap r = false then .ok () (objAssign σ l c r)
        else if isInstanceOf r n then .ok () (objAssign σ l c r)
        else .err .invalidOperation

/-- `Runtime::typecast`: Runtime/TypeCast.cpp:26-95, on a temporary that refers to the object of
the expression. Atomic types: the constructors from an object, for example
Runtime/BuildInTypes/BoolType.cpp:46-70 and Int32Type.cpp:48-74; then `assign`, whose value goes
to the object referred to. -/
def typecast (W : World) (t : Ty) (c : Cell) (σ : State) : Res Cell :=
  match t with
  | .atom a =>
    let put (v : Int) : Res Cell :=
      let c1 : Cell := { c with outer := t, type := t, ups := [], isRef := false }
      if c.ref ≠ 0 then .ok c1 { σ with heap := setHeapValue σ.heap c.ref v }
      else .ok { c1 with value := v } σ
    match c.type with
    | .atom _ => put (W.convert a (getValue σ.heap c))
    | _ => if a = .bool then put (if isValid W σ.heap c then 1 else 0)
           else .err .invalidOperation
  | _ => .ok { c with outer := t } σ

/-- `operator_binary_equal`: Runtime/OperatorOverloading.cpp:313-363 and
`Object::operator_equal`: Object.cpp:395-408. `toInt` of a value never set is 0 (Runtime/
AtomicValue.cpp:246-260; builds with assertions stop there). -/
def equal (W : World) (h : List Obj) (l r : Cell) : Bool :=
  match l.type with
  | .atom a => W.equal a (getValue h l) (getValue h r)
  | _ =>
    if l.isRef && r.isRef then decide (l.ref = r.ref)
    else decide (W.convert .int64 l.value = W.convert .int64 r.value) && decide (l.ref = r.ref)

/-- A parameter: `TreeInterpreter::evaluateMethodExpression`, AST/TreeInterpreter.cpp:281
and `initialize`: 686-712. Only the value and the reference of the argument arrive. -/
def bindParam (h : List Obj) (t : Ty) (arg : Cell) : Cell :=
  match objAt h arg.ref with
  | some o => { create t true with type := o.cell.type, ups := o.cell.ups, isRef := o.cell.isRef,
                                   ref := o.cell.ref }
  | none => { create t false with value := getValue h arg }

/-- The predefined symbol `null`: VirtualMachine/Repository.cpp:461-471. -/
def nullCell : Cell := create (.cls "Object") true

/-- The function called: same name and parameter type (Methods, C45). -/
def findFn (P : Program) (f : String) (t : Ty) : Option Fn :=
  P.fns.find? (fun d => d.name == f && decide (d.ptype = t))

/-! ## Evaluation -/

/-- A block ends and its variables go: `TreeInterpreter::popScope`. -/
def leave (σ τ : State) : State :=
  { τ with vars := τ.vars.drop (τ.vars.length - σ.vars.length) }

mutual

/-- `TreeInterpreter::evaluate` and the functions it calls: AST/TreeInterpreter.cpp:79-513. -/
def eval (W : World) (P : Program) : Nat → Expr → State → Res Cell
  | 0, _, _ => .err .outOfFuel
  | n + 1, e, σ => match e with
    | .lit a v => .ok (atomic a v) σ
    | .null => .ok nullCell σ
    | .place x fs => match resolve σ x fs with
      | .error er => .err er
      | .ok l => match readLoc σ l with
        | none => .err .unknownName
        | some c => .ok c σ
    | .newObj c => let r := newObject P.classes c σ; .ok r.1 r.2
    | .newAtom a e =>
      (eval W P n e σ).bind fun c τ =>
        let r := newAtomic a (getValue τ.heap c) τ; .ok r.1 r.2
    | .cast t e =>
      (eval W P n e σ).bind fun c τ => (typecast W t c τ).bind fun d υ =>
        .ok (anonAssign υ.heap d) υ
    | .ccast t e =>
      (eval W P n e σ).bind fun c τ => (typecast W t c τ).bind fun d υ =>
        .ok (anonAssign υ.heap d) υ
    | .call f e =>
      (eval W P n e σ).bind fun c τ => match findFn P f c.outer with
        | none => .err .noFunction
        | some d =>
          (exec W P n d.body { τ with vars := [(d.param, bindParam τ.heap d.ptype c)] }).bind
            fun _ υ => (eval W P n d.result υ).bind fun r ω =>
              .ok (anonAssign ω.heap r) { ω with vars := τ.vars }
    | .is e t =>
      (eval W P n e σ).bind fun c τ => .ok (atomic .bool (if isInstanceOf c t then 1 else 0)) τ
    | .eq l r =>
      (eval W P n l σ).bind fun c τ => (eval W P n r τ).bind fun d υ =>
        .ok (atomic .bool (if equal W υ.heap c d then 1 else 0)) υ
    | .assign x fs e => match resolve σ x fs with
      | .error er => .err er
      | .ok l => (eval W P n e σ).bind fun r τ => (binAssign W τ l r).bind fun _ υ =>
        match readLoc υ l with
        | none => .err .unknownName
        | some c => .ok (anonAssign υ.heap c) υ

/-- The statements: AST/TreeInterpreter.cpp:1012-1016, 1133-1149, 1384-1407, 1409-1440. A
variable is defined before its initialiser is evaluated. -/
def execStmt (W : World) (P : Program) : Nat → Stmt → State → Res Unit
  | 0, _, _ => .err .outOfFuel
  | n + 1, s, σ => match s with
    | .decl t x byRef none => .ok () { σ with vars := (x, create t byRef) :: σ.vars }
    | .decl t x byRef (some e) =>
      (eval W P n e { σ with vars := (x, create t byRef) :: σ.vars }).bind
        fun r τ => binAssign W τ (.var x) r
    | .inferred t x byRef e =>
      (eval W P n e { σ with vars := (x, create t byRef) :: σ.vars }).bind
        fun r τ => binAssign W τ (.var x) r
    | .expr e => (eval W P n e σ).bind fun _ τ => .ok () τ
    | .ite e s t =>
      (eval W P n e σ).bind fun c τ =>
        (exec W P n (if isValid W τ.heap c then s else t) τ).bind fun _ υ => .ok () (leave τ υ)
    | .while e s =>
      (eval W P n e σ).bind fun c τ =>
        if isValid W τ.heap c then
          (exec W P n s τ).bind fun _ υ => execStmt W P n (.while e s) (leave τ υ)
        else .ok () τ

/-- `TreeInterpreter::process`: AST/TreeInterpreter.cpp:821-834. -/
def exec (W : World) (P : Program) : Nat → List Stmt → State → Res Unit
  | 0, _, _ => .err .outOfFuel
  | _ + 1, [], σ => .ok () σ
  | n + 1, s :: rest, σ => (execStmt W P n s σ).bind fun _ τ => exec W P n rest τ

end

/-! ## The compiler's checks -/

/-- The variables in scope with their types. -/
abbrev Env := List (String × Ty)

def Env.get (Γ : Env) (x : String) : Option Ty :=
  (Γ.find? (fun p => p.1 == x)).map (·.2)

/-- `Repository::prepareType`: VirtualMachine/Repository.cpp:755-775; the type exists. -/
def known (P : Program) : Ty → Bool
  | .anon => false
  | .atom _ => true
  | .cls n => n == "Object" || (findClass P.classes n).isSome

/-- Entries of the type table for classes: `Repository::initTypeSystem`,
VirtualMachine/Repository.cpp:734-754. A class can be assigned and cast to itself and to its
direct ancestors. -/
def classTo (P : Program) (target source : String) : Bool :=
  target == source || match findClass P.classes source with
    | some c => c.anc.any (fun a => a.name == target)
    | none => false

/-- `resolveType` for `=`. -/
def assignable (W : World) (P : Program) : Ty → Ty → Bool
  | .atom a, .atom b => W.assigns a b
  | .cls m, .cls n => classTo P m n
  | _, _ => false

/-- `resolveType` for casts: AST/TreeGenerator.cpp:1087. -/
def castable (W : World) (P : Program) : Ty → Ty → Bool
  | .atom a, .atom b => W.casts a b
  | .cls m, .cls n => classTo P m n
  | _, _ => false

/-- `resolveType` for `==`: VirtualMachine/Repository.cpp:730-741. -/
def comparable (W : World) : Ty → Ty → Bool
  | .atom a, .atom b => W.equals a b
  | .cls m, .cls n => m == n || m == "Object" || n == "Object"
  | _, _ => false

/-- The type of a member of a class. -/
def fieldType (P : Program) (c f : String) : Option Ty :=
  ((fieldsOf P.classes c).find? (fun p => p.1 == f)).map (·.2.1)

def pathType (P : Program) : Ty → List String → Option Ty
  | t, [] => some t
  | .cls c, f :: fs => (fieldType P c f).bind (fun t => pathType P t fs)
  | _, _ :: _ => none

/-- The type the compiler gives to an expression, if it accepts it: `process_cast` 1060-1095,
`process_identifier` 1388-1408 (C-style casts are not checked), `process_method` 1603-1680,
`process_new` 1686-1722, `process_assignment_expression` 954-1034 in AST/TreeGenerator.cpp. -/
def typeOf (W : World) (P : Program) (Γ : Env) : Expr → Option Ty
  | .lit a _ => some (.atom a)
  | .null => some (.cls "Object")
  | .place x fs => (Γ.get x).bind (fun t => pathType P t fs)
  | .newObj c => match findClass P.classes c with
    | some d => if d.iface then none else some (.cls c)
    | none => if c = "Object" then some (.cls c) else none
  | .newAtom a e => if typeOf W P Γ e = some (.atom a) then some (.atom a) else none
  | .cast t e => match typeOf W P Γ e with
    | some s => if known P t && castable W P t s then some t else none
    | none => none
  | .ccast t e => match typeOf W P Γ e with
    | some _ => if known P t then some t else none
    | none => none
  | .call f e => match typeOf W P Γ e with
    | some s => (findFn P f s).map (·.ret)
    | none => none
  | .is e c => match typeOf W P Γ e with
    | some _ => if known P (.cls c) then some (.atom .bool) else none
    | none => none
  | .eq l r => match typeOf W P Γ l, typeOf W P Γ r with
    | some s, some t => if comparable W s t then some (.atom .bool) else none
    | _, _ => none
  | .assign x fs e => match (Γ.get x).bind (fun t => pathType P t fs), typeOf W P Γ e with
    | some (.atom a), some s => if assignable W P (.atom a) s then some (.atom a) else none
    | some t, some s => if t = s then some t else none
    | _, _ => none

mutual

/-- The variables after a statement, if the compiler accepts it: `process_type` 2095-2155,
`process_var` 2179-2212. -/
def checkStmt (W : World) (P : Program) (Γ : Env) : Stmt → Option Env
  | .decl t x byRef init =>
    if known P t = false then none
    else match init with
      | some e => match typeOf W P ((x, t) :: Γ) e with
        | some s => if assignable W P t s then some ((x, t) :: Γ) else none
        | none => none
      | none => match t, byRef with
        | .atom _, true => none
        | _, _ => some ((x, t) :: Γ)
  | .inferred t x _ e =>
    if typeOf W P Γ e = some t then some ((x, t) :: Γ) else none
  | .expr e => (typeOf W P Γ e).map (fun _ => Γ)
  | .ite e s t => match typeOf W P Γ e, check W P Γ s, check W P Γ t with
    | some _, some _, some _ => some Γ
    | _, _, _ => none
  | .while e s => match typeOf W P Γ e, check W P Γ s with
    | some _, some _ => some Γ
    | _, _ => none

/-- The same for a sequence of statements. -/
def check (W : World) (P : Program) (Γ : Env) : List Stmt → Option Env
  | [] => some Γ
  | s :: rest => match checkStmt W P Γ s with
    | some Δ => check W P Δ rest
    | none => none

end

/-- A function is accepted: its body, and the type of what it returns (`process_return`
1751-1770) is exactly the declared one. -/
def checkFn (W : World) (P : Program) (d : Fn) : Bool :=
  known P d.ptype && known P d.ret && match check W P [(d.param, d.ptype)] d.body with
    | some Δ => decide (typeOf W P Δ d.result = some d.ret)
    | none => false

/-- The ancestors of every class are declared, with kinds that fit, after it; the types of its
members exist; no class is declared twice. -/
def checkClasses : List ClassDecl → Bool
  | [] => true
  | c :: cs =>
    c.name != "Object" && (findClass cs c.name).isNone &&
    c.anc.all (fun a => a.name == "Object" || (findClass cs a.name).isSome) && checkClasses cs

def checkProgram (W : World) (P : Program) : Bool :=
  checkClasses P.classes &&
  P.classes.all (fun c => c.fields.all (fun f => known P f.2.1)) &&
  P.fns.all (checkFn W P)

end Verif.Vars
