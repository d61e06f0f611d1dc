/-!
# Integer types (`Projects/Core/Core/Runtime/BuildInTypes/Int{16,32,64}Type.cpp`, `Runtime/AtomicValue.cpp`)

An integer object stores an `int64_t` (`AtomicValue`, AtomicValue.h:60-66) whatever its type is; every operation casts
what it reads to the width of its type.  C++ undefined behaviour (signed overflow, division by zero) is the outcome `none`.
-/

namespace Verif.Ints

/-- The three integer types. -/
inductive Width where
  | w16 | w32 | w64
deriving Repr, DecidableEq

/-- Number of values of the type. -/
def Width.modulus : Width → Nat
  | .w16 => 65536
  | .w32 => 4294967296
  | .w64 => 18446744073709551616

/-- `static_cast<intN_t>( int64_t )`. -/
def Width.cast (w : Width) (i : Int) : Int := Int.bmod i w.modulus

/-- The type in which C++ computes: 16-bit operands are promoted to `int`. -/
def Width.promoted : Width → Width
  | .w16 => .w32
  | w => w

/-- Is the number a value of the type? -/
def Width.inRange (w : Width) (i : Int) : Prop := -((w.modulus / 2 : Nat) : Int) ≤ i ∧ i < ((w.modulus / 2 : Nat) : Int)

instance (w : Width) (i : Int) : Decidable (w.inRange i) := by unfold Width.inRange; infer_instance

/-- A computed value, or undefined if it does not fit the type in which it is computed. -/
def Width.fit (w : Width) (i : Int) : Option Int := if w.inRange i then some i else none

/-- Binary arithmetic operators. -/
inductive Op where
  | add | sub | mul | div | mod
deriving Repr, DecidableEq

/-- C++ arithmetic on two values of type `w`.  Division and remainder truncate towards zero; a zero divisor and a
quotient that does not fit are undefined, the latter for `%` as well ([expr.mul]). -/
def Width.cpp (w : Width) (op : Op) (x y : Int) : Option Int :=
  match op with
  | .add => w.fit (x + y)
  | .sub => w.fit (x - y)
  | .mul => w.fit (x * y)
  | .div => if y = 0 then none else w.fit (x.tdiv y)
  | .mod => if y = 0 then none else if w.inRange (x.tdiv y) then some (x.tmod y) else none

/-- An integer object: its type and the stored `int64_t`. -/
structure Obj where
  width : Width
  stored : Int
deriving Repr, DecidableEq

/-- `operator_plus`, `operator_subtract`, `operator_multiply`, `operator_divide`, `operator_modulo` of the integer types
(Int16Type.cpp:140-158, 255-333; the other two files have the same lines) with an integer operand of any width.
The result replaces the stored value and is not cast again. -/
def Obj.arith (a : Obj) (op : Op) (b : Obj) : Option Obj :=
  (a.width.promoted.cpp op (a.width.cast a.stored) (a.width.cast b.stored)).map fun v => { a with stored := v }

/-- `operator_assign` (Int16Type.cpp:77-95; the other two files have the same lines). -/
def Obj.assign (a : Obj) (b : Obj) : Obj := { a with stored := a.width.cast b.stored }

/-- `operator_unary_increment` (Int16Type.cpp:340-343). -/
def Obj.increment (a : Obj) : Option Obj :=
  (a.width.promoted.cpp .add (a.width.cast a.stored) 1).map fun v => { a with stored := v }

/-- `operator_unary_decrement` (Int16Type.cpp:335-338). -/
def Obj.decrement (a : Obj) : Option Obj :=
  (a.width.promoted.cpp .sub (a.width.cast a.stored) 1).map fun v => { a with stored := v }

/-- `operator_unary_minus` (Int16Type.cpp:345-348). -/
def Obj.minus (a : Obj) : Option Obj :=
  (a.width.promoted.cpp .mul (a.width.cast a.stored) (-1)).map fun v => { a with stored := v }

/-- `operator_unary_not` (Int16Type.cpp:350-353). -/
def Obj.not (a : Obj) : Obj := { a with stored := if a.stored = 0 then 1 else 0 }

/-- `operator_equal` and `operator_less` (Int16Type.cpp:160-177, 217-234). -/
def Obj.equal (a b : Obj) : Bool := a.width.cast a.stored == a.width.cast b.stored
def Obj.less (a b : Obj) : Bool := decide (a.width.cast a.stored < a.width.cast b.stored)
/-- `operator_lessequal`, `operator_greater`, `operator_greater_equal` (Int16Type.cpp:179-215, 236-253). -/
def Obj.lessEqual (a b : Obj) : Bool := decide (a.width.cast a.stored ≤ a.width.cast b.stored)
def Obj.greater (a b : Obj) : Bool := decide (a.width.cast a.stored > a.width.cast b.stored)
def Obj.greaterEqual (a b : Obj) : Bool := decide (a.width.cast a.stored ≥ a.width.cast b.stored)

/-- Arithmetic expressions over variables of one integer type.  A binary operation works on a copy of its left operand
(TreeInterpreter.cpp:121-167), so the result has the type of the left operand. -/
inductive Expr where
  | lit (i : Int)
  | var (n : Nat)
  | neg (e : Expr)
  | bin (op : Op) (l r : Expr)
deriving Repr

/-- Evaluation of an expression. -/
def Expr.eval (w : Width) (env : Nat → Int) : Expr → Option Obj
  | .lit i => some ⟨w, i⟩
  | .var n => some ⟨w, env n⟩
  | .neg e => (e.eval w env).bind Obj.minus
  | .bin op l r => (l.eval w env).bind fun a => (r.eval w env).bind fun b => a.arith op b

/-- Statements on integer variables of one type. -/
inductive Stmt where
  /-- `x = e` -/
  | assign (x : Nat) (e : Expr)
  /-- `x++` -/
  | inc (x : Nat)
  /-- `x--` -/
  | dec (x : Nat)
deriving Repr

/-- Variables: stored value per variable. -/
def Stmt.exec (w : Width) (env : Nat → Int) : Stmt → Option (Nat → Int)
  | .assign x e => (e.eval w env).map fun v n => if n = x then ((Obj.mk w (env x)).assign v).stored else env n
  | .inc x => (Obj.mk w (env x)).increment.map fun v n => if n = x then v.stored else env n
  | .dec x => (Obj.mk w (env x)).decrement.map fun v n => if n = x then v.stored else env n

/-- A sequence of statements. -/
def execAll (w : Width) (env : Nat → Int) : List Stmt → Option (Nat → Int)
  | [] => some env
  | s :: ss => (s.exec w env).bind fun env' => execAll w env' ss

end Verif.Ints
