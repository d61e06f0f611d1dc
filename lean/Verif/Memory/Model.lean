import Verif.AMap

/-!
# The object memory (`Projects/Core/Core/VirtualMachine/Memory.cpp`)
-/

namespace Verif.Memory

/-- `Runtime::Reference`: an address, 0 is the null reference
(`Core/Runtime/Reference.h`, `isValid` is `address != 0`). -/
scoped macro "Ref" : term => `(Nat)

/-- `unsigned int` arithmetic is modulo 2^32. -/
abbrev uintSize : Nat := 4294967296

/-- One record of `mMemory` (`Memory.h`, `RefCount`).  The object pointer is never null once
`newObject` has returned, so it is not an `Option`. -/
structure Cell (ω : Type) where
  count : Nat
  obj : ω

/-- What happened, newest first.  Ghost state: not present in the code, no
function of the model reads it. -/
inductive Event where
  | created (r : Ref)
  | took (r : Ref)
  | released (r : Ref)
  | destroyed (r : Ref)
  deriving DecidableEq

/-- `class Memory` (`Memory.h`): `mNextAddress` (starts at 1, Memory.cpp:24) and `mMemory`,
plus the ghost log. -/
structure Mem (ω : Type) where
  next : Nat := 1
  cells : AMap Ref (Cell ω) := []
  log : List Event := []

/-- Outcome of a C++ call.  `throw` keeps the state the exception leaves behind; `ub` is
undefined behaviour; `fuel` means that the recursion was deeper than the given bound. -/
inductive Res (σ : Type) where
  | ok (s : σ)
  | throw (s : σ)
  | ub
  | fuel

/-- Sequencing of statements: an exception or undefined behaviour ends the sequence. -/
def Res.bind {σ : Type} (x : Res σ) (f : σ → Res σ) : Res σ :=
  match x with
  | .ok s => f s
  | .throw s => .throw s
  | .ub => .ub
  | .fuel => .fuel

/-- The requests a client can issue. -/
inductive Op (ω : Type) where
  | new (o : ω)
  | add (r : Ref)
  | remove (r : Ref)

variable {ω : Type}

/-- `mMemory.rbegin()->first` (Memory.cpp:152): the largest key of the ordered map. -/
def lastKey (cells : AMap Ref (Cell ω)) : Ref := cells.keys.foldr max 0

/-- `Memory::get` (Memory.cpp:84-92). -/
def get (m : Mem ω) (r : Ref) : Option ω := (m.cells.find r).map Cell.obj

/-- `Memory::reserveAddress` and `Memory::newObject` (Memory.cpp:98-108, 128-153).
`none` is the exception "memory exhausted!"; the state is unchanged then.  The address returned is
`mMemory.rbegin()->first`, and the record is written under that address. -/
def newObject (o : ω) (m : Mem ω) : Option (Ref × Mem ω) :=
  if m.next ≥ uintSize - 1 then none
  else
    let addr := m.next
    let m := { m with next := m.next + 1, cells := m.cells.set addr ⟨0, o⟩ }
    let ref := lastKey m.cells
    some (ref, { m with cells := m.cells.set ref ⟨0, o⟩, log := .created ref :: m.log })

/-- `Memory::add` (Memory.cpp:33-46).  `mCount++` wraps modulo 2^32. -/
def add (r : Ref) (m : Mem ω) : Res (Mem ω) :=
  if r = 0 then .ok m
  else match m.cells.find r with
    | none => .throw m
    | some c => .ok { m with cells := m.cells.set r { c with count := (c.count + 1) % uintSize },
                             log := .took r :: m.log }

/-- `Memory::deleteObject` (Memory.cpp:66-82).  `destroy o` stands for
`Destructor(); delete`: everything the destruction of the object `o` does to the memory.
After it, `it` is used again; if the record has been erased meanwhile the iterator dangles. -/
def deleteObject (destroy : ω → Mem ω → Res (Mem ω)) (r : Ref) (m : Mem ω) : Res (Mem ω) :=
  match m.cells.find r with
  | none => .throw m
  | some c =>
    (destroy c.obj m).bind fun m' =>
      match m'.cells.find r with
      | none => .ub
      | some _ => .ok { m' with cells := m'.cells.erase r, log := .destroyed r :: m'.log }

/-- `Memory::remove` (Memory.cpp:110-126).  `mCount--` wraps modulo 2^32. -/
def remove (destroy : ω → Mem ω → Res (Mem ω)) (r : Ref) (m : Mem ω) : Res (Mem ω) :=
  if r = 0 then .ok m
  else match m.cells.find r with
    | none => .throw m
    | some c =>
      let count := (c.count + (uintSize - 1)) % uintSize
      let m := { m with cells := m.cells.set r { c with count := count }, log := .released r :: m.log }
      if count = 0 then deleteObject destroy r m else .ok m

/-- Run a list of requests; the first exception ends it. -/
def runOps (step : Op ω → Mem ω → Res (Mem ω)) : List (Op ω) → Mem ω → Res (Mem ω)
  | [], m => .ok m
  | op :: ops, m => (step op m).bind (runOps step ops)

/-- One request, with destructors.  `D o` is the list of requests that the
destruction of an object with contents `o` issues: the script destructor
(Object.cpp:213-234) and then the C++ destructor, which releases the references of
the members (Object.cpp:52-57).  Simplification: the list depends on the contents of
the object only, not on what the memory answers.  `fuel` bounds the nesting of
destructions. -/
def exec (D : ω → List (Op ω)) : Nat → Op ω → Mem ω → Res (Mem ω)
  | 0, _, _ => .fuel
  | _ + 1, .new o, m =>
    match newObject o m with
    | none => .throw m
    | some (_, m') => .ok m'
  | _ + 1, .add r, m => add r m
  | n + 1, .remove r, m => remove (fun o => runOps (exec D n) (D o)) r m

/-- A client history: the client catches exceptions and goes on; undefined behaviour
and exceeding the nesting bound end the history (`none`). -/
def history (D : ω → List (Op ω)) (n : Nat) : List (Op ω) → Mem ω → Option (Mem ω)
  | [], m => some m
  | op :: ops, m =>
    match exec D n op m with
    | .ok m' => history D n ops m'
    | .throw m' => history D n ops m'
    | .ub => none
    | .fuel => none

end Verif.Memory
