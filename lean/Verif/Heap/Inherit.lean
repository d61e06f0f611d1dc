import Verif.Heap.World
import Mathlib.Data.Nat.Pairing

/-!
# Objects with inherited members

The members that a class inherits are not stored in the object itself but in a second object, the base object
(`Projects/Core/Core/VirtualMachine/Repository.cpp:291-299`: `createReference(…, AllowAbstract)`, then
`object->define(IDENTIFIER_BASE, ancestor)`).  Only objects created with `Final` are entered into the memory
(`Repository.cpp:255-256`), so no reference to a base object is ever counted, and `Memory::remove` never sees it.
When the object is destroyed `MethodScope::deinit` deletes its members but skips the symbol `base`
(`Projects/Core/Core/Scope.cpp:245-249`), and `Object::garbageCollector` (`Object.cpp:251-277`), which handles it, is called by
`Object::free` only, which nothing calls.  So each inherited member is a reference slot of its own that is
created with the object and is never destroyed.

An inherited member is therefore modelled as a variable that no program text can name, and that is
reached only through the object it belongs to.
Simplification: the members of the base object and of its own base object are numbered through.
-/

namespace Verif.Heap

open Verif.Memory

/-- The variable `x` of the program. -/
def user (x : Nat) : Nat := 2 * x

/-- The inherited member `i` of the object at address `r`. -/
def slot (r i : Nat) : Nat := 2 * Nat.pair r i + 1

/-- What a program can do with references, inherited members included. -/
inductive IOp where
  /-- declare a variable, initially null -/
  | declare (x : Nat)
  /-- the variable goes out of scope -/
  | destroy (x : Nat)
  /-- `x = new T()`, where `T` declares `k` members and inherits `j` members, all null -/
  | setNew (x k j : Nat)
  /-- `x = null` -/
  | setNull (x : Nat)
  /-- `x = y` -/
  | assign (x y : Nat)
  /-- `x.f_i = y` for a member that the class of the object declares -/
  | setField (x i y : Nat)
  /-- `x = y.f_i` for a member that the class of the object declares -/
  | getField (x y i : Nat)
  /-- `x.f_i = y` for an inherited member -/
  | setBase (x i y : Nat)
  /-- `x = y.f_i` for an inherited member -/
  | getBase (x y i : Nat)

/-- The operations that create the inherited members of the object at `r`. -/
def declareBase (r j : Nat) : List HOp := (List.range j).map fun i => .declare (slot r i)

/-- An operation on variables and own members: what `step` does. -/
def plain (op : HOp) (w : World) : Option (Bool × World) :=
  match step op w with
  | .ok w' => some (true, w')
  | .throw w' => some (false, w')
  | .ub => none
  | .fuel => none

/-- One operation; `false` is an exception, `none` is undefined behaviour.
`new`: `Repository.cpp:251-263`; in the code the base object is built before the object gets its address.  The inherited members are
read and written like every member (`Object::resolve`, `Object.cpp:495-500`, asks the base object). -/
def istep (op : IOp) (w : World) : Option (Bool × World) :=
  match op with
  | .declare x => plain (.declare (user x)) w
  | .destroy x => plain (.destroy (user x)) w
  | .setNew x k j =>
    match plain (.setNew (user x) k) w with
    | some (true, w') =>
      match w'.vars.find (user x) with
      | some r => (run (declareBase r j) w').map fun p => (true, p.2)
      | none => none
    | r => r
  | .setNull x => plain (.setNull (user x)) w
  | .assign x y => plain (.assign (user x) (user y)) w
  | .setField x i y => plain (.setField (user x) i (user y)) w
  | .getField x y i => plain (.getField (user x) (user y) i) w
  | .setBase x i y =>
    match w.vars.find (user x) with
    | none => some (false, w)
    | some r =>
      match w.mem.cells.find r with
      | none => some (false, w)
      | some _ => plain (.assign (slot r i) (user y)) w
  | .getBase x y i =>
    match w.vars.find (user y) with
    | none => some (false, w)
    | some r =>
      match w.mem.cells.find r with
      | none => some (false, w)
      | some _ => plain (.assign (user x) (slot r i)) w

/-- A program; exceptions are caught and reported. -/
def irun : List IOp → World → Option (List Bool × World)
  | [], w => some ([], w)
  | op :: ops, w =>
    match istep op w with
    | none => none
    | some (b, w') => (irun ops w').map fun p => (b :: p.1, p.2)

/-! ## Specification -/

/-- How many reference slots a program creates. -/
def islots : List IOp → Nat
  | [] => 0
  | .declare _ :: ops => 1 + islots ops
  | .setNew _ k j :: ops => k + j + islots ops
  | _ :: ops => islots ops

/-- The member `r.f` of the existing object `r`, declared by its class or inherited, refers to `r'`. -/
inductive Holds (w : World) (r r' : Nat) : Prop
  | own {fs : List Nat} : get w.mem r = some fs → r' ∈ fs → Holds w r r'
  | base {i : Nat} : (get w.mem r).isSome → w.vars.find (slot r i) = some r' → Holds w r r'

/-- Object `r` can be reached from a variable of the program, through members declared or inherited. -/
inductive IReach (w : World) : Nat → Prop
  | var {x r : Nat} : w.vars.find (user x) = some r → r ≠ 0 → IReach w r
  | member {r r' : Nat} : IReach w r → Holds w r r' → r' ≠ 0 → IReach w r'

/-- `r` refers, directly or through other objects, to `r'`. -/
inductive IPath (w : World) : Nat → Nat → Prop
  | one {r r' : Nat} : Holds w r r' → r' ≠ 0 → IPath w r r'
  | step {r s r' : Nat} : Holds w r s → s ≠ 0 → IPath w s r' → IPath w r r'

end Verif.Heap
