import Verif.Memory.Lemmas

/-!
# Reference variables and objects with members, on top of the object memory
(`Projects/Core/Core/Object.cpp`: `assignReference`, `~Object`)

A heap object is modelled by the references its members hold.  A variable is modelled by the
reference it holds.  Simplifications: members and variables of atomic type hold no reference
and are left out; script destructors are empty here (see `Verif.Memory` for arbitrary
destructors).
-/

namespace Verif.Heap

open Verif.Memory

/-- The references held by the members of an object (0 is null). -/
abbrev Fields := List Nat

/-- Destroying an object deletes its members (Scope.cpp:228-259 `MethodScope::deinit`), and each
member that refers to an object releases its reference (Object.cpp:52-57 `~Object`).  A
null member has `mThis == this` and releases nothing; `Memory::remove` of null is a no-op as well. -/
def destroyFields (o : Fields) : List (Op Fields) := o.map .remove

/-- The state: the object memory and the reference variables (by name, here a number). -/
structure World where
  mem : Mem Fields := {}
  vars : AMap Nat Nat := []

/-- What a program can do with references. -/
inductive HOp where
  /-- declare a variable, initially null -/
  | declare (x : Nat)
  /-- the variable goes out of scope -/
  | destroy (x : Nat)
  /-- `x = new T()`, where `T` has `k` members, all null -/
  | setNew (x k : Nat)
  /-- `x = null` -/
  | setNull (x : Nat)
  /-- `x = y` -/
  | assign (x y : Nat)
  /-- `x.f_i = y` -/
  | setField (x i y : Nat)
  /-- `x = y.f_i` -/
  | getField (x y i : Nat)

/-- A bound on the nesting of destructions that is always large enough (proved, not assumed). -/
def depth (m : Mem Fields) : Nat := m.cells.length + 1

/-- `Memory::add` seen from here. -/
def addRef (m : Mem Fields) (r : Nat) : Res (Mem Fields) := add r m

/-- `Memory::remove` seen from here. -/
def removeRef (m : Mem Fields) (r : Nat) : Res (Mem Fields) := exec destroyFields (depth m) (.remove r) m

/-- Put the memory back into the state. -/
def lift (vars : AMap Nat Nat) : Res (Mem Fields) → Res World
  | .ok m => .ok ⟨m, vars⟩
  | .throw m => .throw ⟨m, vars⟩
  | .ub => .ub
  | .fuel => .fuel

/-- `Object::assignReference` (Object.cpp:126-143) after `mReference = ref` has been stored in `m`: take the
new reference, then release the old one. -/
def rebind (old new : Nat) (m : Mem Fields) : Res (Mem Fields) :=
  (addRef m new).bind fun m => if old = 0 then .ok m else removeRef m old

/-- `assignReference` of a variable. -/
def assignVar (x ref : Nat) (w : World) : Res World :=
  match w.vars.find x with
  | none => .throw w
  | some old => lift (w.vars.set x ref) (rebind old ref w.mem)

/-- `mReference = ref` for the `i`-th member of the object at `r`. -/
def storeField (r i ref : Nat) (c : Cell Fields) (m : Mem Fields) : Mem Fields :=
  { m with cells := m.cells.set r { c with obj := c.obj.set i ref } }

/-- One operation.  An exception (`throw`) is raised for an undeclared or doubly declared variable, access through
null, an unknown member, and memory exhaustion. -/
def step (op : HOp) (w : World) : Res World :=
  match op with
  | .declare x =>
    match w.vars.find x with
    | some _ => .throw w
    | none => .ok { w with vars := w.vars.set x 0 }
  | .destroy x =>
    -- Object.cpp:52-57: `if ( this != mThis ) memory()->remove(mReference)`
    match w.vars.find x with
    | none => .throw w
    | some r => lift (w.vars.erase x) (if r = 0 then .ok w.mem else removeRef w.mem r)
  | .setNew x k =>
    match w.vars.find x with
    | none => .throw w
    | some _ =>
      match newObject (List.replicate k 0) w.mem with
      | none => .throw w
      | some (ref, m) => assignVar x ref { w with mem := m }
  | .setNull x => assignVar x 0 w
  | .assign x y =>
    match w.vars.find y with
    | none => .throw w
    | some ref => assignVar x ref w
  | .setField x i y =>
    match w.vars.find x, w.vars.find y with
    | some r, some ref =>
      match w.mem.cells.find r with
      | none => .throw w
      | some c =>
        match c.obj[i]? with
        | none => .throw w
        | some old => lift w.vars (rebind old ref (storeField r i ref c w.mem))
    | _, _ => .throw w
  | .getField x y i =>
    match w.vars.find y with
    | none => .throw w
    | some r =>
      match w.mem.cells.find r with
      | none => .throw w
      | some c =>
        match c.obj[i]? with
        | none => .throw w
        | some ref => assignVar x ref w

/-- A program: exceptions are caught and reported in the list of results (`true` = success);
`none` if undefined behaviour (or unbounded nesting) occurs. -/
def run : List HOp → World → Option (List Bool × World)
  | [], w => some ([], w)
  | op :: ops, w =>
    match step op w with
    | .ok w' => (run ops w').map fun p => (true :: p.1, p.2)
    | .throw w' => (run ops w').map fun p => (false :: p.1, p.2)
    | .ub => none
    | .fuel => none

end Verif.Heap
