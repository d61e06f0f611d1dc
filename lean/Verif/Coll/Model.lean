/-!
# The collections of the standard library

Models the scripts in `Library/System/Collections`: `List.os`, `Vector.os`, `Stack.os`, `Set.os`, `Queue.os`,
`DoubleLinkedList.os`, `Map.os`, `Pair.os`, `Range.os`, `DoubleLinkedIterator.os` (which `Iterator.os` links to) and
`CollectionItem.os`.

What the scripts mean is taken from the language.
* A variable of a class type is a reference with a mark (`Ref`). `=` takes over the reference of the right side only if the right side is
  marked as a reference; otherwise the left side keeps what it refers to and loses its mark (Object.cpp 88-115, `Object::assign`). A
  member or variable that was never assigned is not marked, an expression with `new` and the literal `null` with its type are.
* A parameter becomes a marked reference if its argument refers to something (TreeInterpreter.cpp, `initialize`; Parameter.cpp).
* Tests (`if ( r )`, `!r`, `bool r`) ask whether something is referred to, marked or not.
* `delete e` only evaluates `e` (TreeInterpreter.cpp 994-1000: it clears a temporary copy, the variable keeps its reference).
* Access to a member of `null` raises a "NullPointerException" (TreeInterpreter.cpp 426-444).

These rules are modelled for the language as a whole in `Verif.Vars`.

Simplifications.
* `int` is unbounded.
* Items that are no longer referenced stay in the model's memory; nobody can reach them.
* The equality and the order of the elements are parameters.
* The elements are never `null`.
-/

namespace Verif
namespace Coll

variable {α : Type}

/-- A variable or member of a class type: what it refers to (a position in the memory; `none` is `null`), and whether it is marked as a
reference (Object.h: `mReference`, `mIsReference`). The values here are those of a variable that was never assigned. -/
structure Ref where
  obj : Option Nat := none
  isRef : Bool := false
  deriving DecidableEq, Repr

/-- `null` with its type, and what is left by assigning it. -/
def Ref.null : Ref := ⟨none, true⟩

/-- What refers to an item, as `new` yields it. -/
def Ref.to (a : Nat) : Ref := ⟨some a, true⟩

/-- `old = new`: what `old` is afterwards (Object.cpp 107-113). -/
def put (old new : Ref) : Ref := if new.isRef then new else ⟨old.obj, false⟩

/-- An item (CollectionItem.os 8-11). -/
structure Node (α : Type) where
  next : Ref
  prev : Ref
  value : α
  deriving DecidableEq, Repr

/-- The exceptions; `loop` is no exception, it stands for a loop that does not end. -/
inductive Err where
  | outOfBounds | null | duplicate | unknownKey | loop
  deriving DecidableEq, Repr

abbrev Heap (α : Type) := List (Node α)

/-- A collection, with the memory its items live in (List.os 226-228, Vector.os 254-256, Stack.os 192-194,
Set.os 201-203, DoubleLinkedList.os 218-220). -/
structure W (α : Type) where
  heap : Heap α := []
  first : Ref := {}
  last : Ref := {}
  size : Int := 0
  deriving DecidableEq, Repr

/-! ## Access to items -/

/-- The item behind a reference. -/
def node (h : Heap α) (r : Ref) : Except Err (Node α) :=
  match r.obj with
  | none => .error .null
  | some a =>
    match h[a]? with
    | some n => .ok n
    | none => .error .null

/-- `r.next` -/
def nextOf (h : Heap α) (r : Ref) : Except Err Ref :=
  match node h r with
  | .ok n => .ok n.next
  | .error e => .error e

/-- `r.value` -/
def valueOf (h : Heap α) (r : Ref) : Except Err α :=
  match node h r with
  | .ok n => .ok n.value
  | .error e => .error e

/-- `r.next = v` -/
def setNext (h : Heap α) (r v : Ref) : Except Err (Heap α) :=
  match r.obj with
  | none => .error .null
  | some a =>
    match h[a]? with
    | some n => .ok (h.set a { n with next := put n.next v })
    | none => .error .null

/-- `r.previous = v` -/
def setPrev (h : Heap α) (r v : Ref) : Except Err (Heap α) :=
  match r.obj with
  | none => .error .null
  | some a =>
    match h[a]? with
    | some n => .ok (h.set a { n with prev := put n.prev v })
    | none => .error .null

/-- `new CollectionItem<T>( value )` (CollectionItem.os 17-19): the memory afterwards; the item is at the end. -/
def alloc (h : Heap α) (v : α) : Heap α := h ++ [⟨{}, {}, v⟩]

/-- `for ( int i = 0; i < n; i++ ) item = item.next;` -/
def walk (h : Heap α) : Nat → Ref → Except Err Ref
  | 0, r => .ok r
  | n + 1, r =>
    match nextOf h r with
    | .ok r' => walk h n (put r r')
    | .error e => .error e

/-! ## What the collections have in common -/

/-- `at` (List.os 29-40, Vector.os 29-40, Stack.os 29-40, Set.os 30-41, DoubleLinkedList.os 32-43). -/
def at' (w : W α) (index : Int) : Except Err α :=
  if index < 0 ∨ index ≥ w.size then .error .outOfBounds
  else
    match walk w.heap index.toNat (put {} w.first) with
    | .ok r => valueOf w.heap r
    | .error e => .error e

/-- `clear` (List.os 42-51, Vector.os 42-51, Set.os 43-52, DoubleLinkedList.os 45-54). The loop takes `mFirst` on by one item each
time; the `delete` in it has no effect. -/
def clear (w : W α) : Except Err (W α) :=
  match walk w.heap w.size.toNat w.first with
  | .ok _ => .ok { w with first := .null, last := .null, size := 0 }
  | .error e => .error e

/-- The loop of `indexOf`: `n` rounds left, at `index`. -/
def search (eq : α → α → Bool) (h : Heap α) (v : α) : Nat → Int → Ref → Except Err Int
  | 0, _, _ => .ok (-1)
  | n + 1, i, r =>
    match node h r with
    | .error e => .error e
    | .ok x => if eq x.value v then .ok i else search eq h v n (i + 1) (put r x.next)

/-- `indexOf` (List.os 129-141, Vector.os 129-141, Stack.os 121-133, Set.os 131-143, DoubleLinkedList.os 132-144). -/
def indexOf (eq : α → α → Bool) (w : W α) (v : α) : Except Err Int := search eq w.heap v w.size.toNat 0 (put {} w.first)

/-- `contains` (List.os 53-55). -/
def contains (eq : α → α → Bool) (w : W α) (v : α) : Except Err Bool :=
  match indexOf eq w v with
  | .ok i => .ok (i != -1)
  | .error e => .error e

/-- `empty` (List.os 57-59). -/
def empty (w : W α) : Bool := w.size == 0

/-- `first` (List.os 101-107, Vector.os 101-107, Set.os 102-108, DoubleLinkedList.os 104-110). -/
def first (w : W α) : Except Err α := if w.size = 0 then .error .outOfBounds else valueOf w.heap w.first

/-- `last` (List.os 143-149, Vector.os 175-181, Set.os 184-190, DoubleLinkedList.os 146-152). -/
def last (w : W α) : Except Err α := if w.size = 0 then .error .outOfBounds else valueOf w.heap w.last

/-- `while( prev.next.next ) prev = prev.next;` (List.os 72-73). -/
def toLastButOne (h : Heap α) : Nat → Ref → Except Err Ref
  | 0, _ => .error .loop
  | n + 1, r =>
    match nextOf h r with
    | .error e => .error e
    | .ok r1 =>
      match nextOf h r1 with
      | .error e => .error e
      | .ok r2 => if r2.obj = none then .ok r else toLastButOne h n (put r r1)

/-- The end of `erase` (List.os 94-98): a collection without elements is reset. -/
def reset (w : W α) : W α := if w.size = 0 then { w with first := .null, last := put w.last .null } else w

/-- `erase` (List.os 61-99, Vector.os 61-99, Stack.os 61-99, Set.os 62-100, DoubleLinkedList.os 64-102). An index equal to the size is let
through; the test for the last element in the third part (85-87) can never be true there. -/
def erase (w : W α) (index : Int) : Except Err (W α) :=
  if index < 0 ∨ index > w.size then .error .outOfBounds
  else
    if index = 0 then
      match nextOf w.heap w.first with
      | .ok r => .ok (reset { w with first := put w.first r, size := w.size - 1 })
      | .error e => .error e
    else if index = w.size - 1 then
      match toLastButOne w.heap (w.heap.length + 1) (put {} w.first) with
      | .error e => .error e
      | .ok prev =>
        match setNext w.heap prev .null with
        | .ok h => .ok (reset { w with heap := h, last := put w.last prev, size := w.size - 1 })
        | .error e => .error e
    else
      match walk w.heap (index - 1).toNat (put {} w.first) with
      | .error e => .error e
      | .ok prev =>
        match nextOf w.heap prev with
        | .error e => .error e
        | .ok r =>
          if r.obj = none then .ok (reset { w with size := w.size - 1 })
          else
            match nextOf w.heap r with
            | .error e => .error e
            | .ok r' =>
              match setNext w.heap prev r' with
              | .ok h => .ok (reset { w with heap := h, size := w.size - 1 })
              | .error e => .error e

/-- `pop_back` (List.os 151-171, Vector.os 183-203): the loop goes on to the last item, not to the one before it; the two
`delete`s have no effect. -/
def popBack (w : W α) : Except Err (W α) :=
  if w.size ≤ 0 then .error .outOfBounds
  else if w.size = 1 then .ok { w with size := w.size - 1 }
  else
    match walk w.heap (w.size - 1).toNat (put {} w.first) with
    | .error e => .error e
    | .ok item =>
      match nextOf w.heap item with
      | .ok _ => .ok { w with last := put w.last item, size := w.size - 1 }
      | .error e => .error e

/-- `pop_front` (List.os 173-184, Vector.os 205-216); `delete mLast` has no effect. -/
def popFront (w : W α) : Except Err (W α) :=
  if w.size ≤ 0 then .error .outOfBounds
  else
    match nextOf w.heap w.first with
    | .ok r => .ok { w with first := put w.first r, size := w.size - 1 }
    | .error e => .error e

/-! ## `List` -/

/-- `List::push_back` (List.os 186-200). -/
def listPushBack (w : W α) (v : α) : Except Err (W α) :=
  let item := Ref.to w.heap.length
  let h := alloc w.heap v
  match (if w.size = 0 then .ok h else setNext h w.last item) with
  | .error e => .error e
  | .ok h =>
    match setPrev h item w.last with
    | .error e => .error e
    | .ok h => .ok { heap := h, first := if w.size = 0 then item else w.first, last := item, size := w.size + 1 }

/-- `List::push_front` (List.os 202-216). -/
def listPushFront (w : W α) (v : α) : Except Err (W α) :=
  let item := Ref.to w.heap.length
  let h := alloc w.heap v
  if w.size = 0 then .ok { heap := h, first := item, last := item, size := w.size + 1 }
  else
    match setNext h item w.first with
    | .error e => .error e
    | .ok h =>
      match setPrev h w.first item with
      | .error e => .error e
      | .ok h => .ok { heap := h, first := item, last := w.last, size := w.size + 1 }

/-! ## `Vector` -/

/-- `Vector::push_back` (Vector.os 218-231), `Stack::push` (Stack.os 169-182), `DoubleLinkedList::push_back`
(DoubleLinkedList.os 184-198). -/
def pushBack (w : W α) (v : α) : Except Err (W α) :=
  let item := Ref.to w.heap.length
  let h := alloc w.heap v
  match (if w.size = 0 then .ok h else setNext h w.last item) with
  | .error e => .error e
  | .ok h => .ok { heap := h, first := if w.size = 0 then item else w.first, last := item, size := w.size + 1 }

/-- `Vector::push_front` (Vector.os 233-244). -/
def vectorPushFront (w : W α) (v : α) : Except Err (W α) :=
  let item := Ref.to w.heap.length
  match setNext (alloc w.heap v) item w.first with
  | .error e => .error e
  | .ok h => .ok { heap := h, first := item, last := if w.size = 0 then item else w.last, size := w.size + 1 }

/-- `Vector::insert` (Vector.os 143-173). -/
def vectorInsert (w : W α) (index : Int) (v : α) : Except Err (W α) :=
  if index < 0 ∨ index > w.size then .error .outOfBounds
  else
    let item := Ref.to w.heap.length
    let h := alloc w.heap v
    if w.first.obj = none then .ok { heap := h, first := item, last := item, size := w.size + 1 }
    else if index = 0 then
      match setNext h item w.first with
      | .ok h => .ok { heap := h, first := item, last := w.last, size := w.size + 1 }
      | .error e => .error e
    else if index = w.size then
      match setNext h w.last item with
      | .ok h => .ok { heap := h, first := w.first, last := item, size := w.size + 1 }
      | .error e => .error e
    else
      match walk h (index - 1).toNat (put {} w.first) with
      | .error e => .error e
      | .ok tmp =>
        match nextOf h tmp with
        | .error e => .error e
        | .ok r =>
          match setNext h item r with
          | .error e => .error e
          | .ok h =>
            match setNext h tmp item with
            | .ok h => .ok { heap := h, first := w.first, last := w.last, size := w.size + 1 }
            | .error e => .error e

/-! ## `Stack` -/

/-- `Stack::peek` (Stack.os 135-141). -/
def peek (w : W α) : Except Err α := if w.size ≤ 0 then .error .outOfBounds else valueOf w.heap w.last

/-- `Stack::pop` (Stack.os 143-167): the loop goes on to the last item, not to the one before it. -/
def pop (w : W α) : Except Err (W α × α) :=
  if w.size ≤ 0 then .error .outOfBounds
  else
    match valueOf w.heap w.last with
    | .error e => .error e
    | .ok v =>
      if w.size = 1 then .ok ({ w with size := w.size - 1 }, v)
      else
        match walk w.heap (w.size - 1).toNat (put {} w.first) with
        | .error e => .error e
        | .ok item =>
          match nextOf w.heap item with
          | .ok _ => .ok ({ w with last := put w.last item, size := w.size - 1 }, v)
          | .error e => .error e

/-- The loop of `Stack::clear`: `i = i++` leaves `i` as it is (AST::TreeInterpreter: the postfix operator has the old value, which is
assigned after the increment), so that it ends with an exception only. After `n` rounds. -/
def drain (h : Heap α) : Nat → Ref → Err
  | 0, _ => .loop
  | n + 1, r =>
    match nextOf h r with
    | .ok r' => drain h n (put r r')
    | .error e => e

/-- `Stack::clear` (Stack.os 42-51), observed after so many rounds of its loop. -/
def stackClear (rounds : Nat) (w : W α) : Except Err (W α) :=
  if w.size > 0 then .error (drain w.heap rounds w.first)
  else .ok { w with first := .null, last := .null, size := 0 }

/-! ## `Set` -/

/-- The loop of `Set::insert` (Set.os 160-167): `n` rounds left. -/
def place (lt : α → α → Bool) (h : Heap α) (v : α) : Nat → Ref → Ref → Except Err Ref
  | 0, _, prev => .ok prev
  | n + 1, tmp, prev =>
    match node h tmp with
    | .error e => .error e
    | .ok x => if lt v x.value then .ok prev else place lt h v n (put tmp x.next) (put prev tmp)

/-- `Set::insert` (Set.os 145-182). `item == previous.next` compares two references, of which one is new (OperatorOverloading.cpp: the
class `CollectionItem` has no `operator==`). -/
def setInsert (lt : α → α → Bool) (allowDuplicates : Bool) (w : W α) (v : α) : Except Err (W α) :=
  let item := Ref.to w.heap.length
  let h := alloc w.heap v
  if w.first.obj = none then .ok { heap := h, first := item, last := item, size := w.size + 1 }
  else
    match valueOf h w.first with
    | .error e => .error e
    | .ok x =>
      if lt v x then
        match setNext h item w.first with
        | .ok h => .ok { heap := h, first := item, last := w.last, size := w.size + 1 }
        | .error e => .error e
      else
        match place lt h v w.size.toNat (put {} w.first) {} with
        | .error e => .error e
        | .ok previous =>
          match nextOf h previous with
          | .error e => .error e
          | .ok r =>
            if !allowDuplicates && r.obj.isSome && item.obj == r.obj then .error .duplicate
            else
              match setNext h item r with
              | .error e => .error e
              | .ok h =>
                match setNext h previous item with
                | .ok h => .ok { heap := h, first := w.first, last := w.last, size := w.size + 1 }
                | .error e => .error e

/-! ## `DoubleLinkedList` -/

/-- `DoubleLinkedList::push_front` (DoubleLinkedList.os 200-208). -/
def dllPushFront (w : W α) (v : α) : Except Err (W α) :=
  let item := Ref.to w.heap.length
  match setNext (alloc w.heap v) item w.first with
  | .error e => .error e
  | .ok h => .ok { heap := h, first := item, last := w.last, size := w.size + 1 }

/-- `DoubleLinkedList::pop_back` (DoubleLinkedList.os 154-172). -/
def dllPopBack (w : W α) : Except Err (W α) :=
  if w.size ≤ 0 then .error .outOfBounds
  else if w.size = 1 then .ok { w with size := w.size - 1 }
  else
    match walk w.heap (w.size - 1).toNat (put {} w.first) with
    | .error e => .error e
    | .ok item =>
      match nextOf w.heap item with
      | .ok _ => .ok { w with size := w.size - 1 }
      | .error e => .error e

/-! ## `Queue` -/

/-- `Queue::dequeue` (Queue.os 35-45). -/
def dequeue (w : W α) : Except Err (W α × α) :=
  if w.size ≤ 0 then .error .outOfBounds
  else
    match at' w 0 with
    | .error e => .error e
    | .ok v =>
      match popFront w with
      | .ok w => .ok (w, v)
      | .error e => .error e

/-- `Queue::peek` (Queue.os 76-78). -/
def queuePeek (w : W α) : Except Err α := last w

/-! ## Iterators -/

/-- An iterator (DoubleLinkedIterator.os 115-116, 222-223): where it begins and where it is. -/
structure Iter where
  start : Ref
  current : Ref := {}

/-- `new Iterator<T>( item )` (DoubleLinkedIterator.os 9-11, 121-123): `mFirstItem = first`, where the parameter refers to what the argument
refers to. -/
def iter (item : Ref) : Iter := ⟨put {} ⟨item.obj, item.obj.isSome⟩, {}⟩

/-- `Iterator::hasNext` (DoubleLinkedIterator.os 21-31). -/
def hasNext (h : Heap α) (it : Iter) : Except Err Bool :=
  if it.start.obj = none then .ok false
  else if it.current.obj = none then .ok it.start.obj.isSome
  else
    match nextOf h it.current with
    | .ok r => .ok r.obj.isSome
    | .error e => .error e

/-- `Iterator::next` (DoubleLinkedIterator.os 45-58). -/
def next (h : Heap α) (it : Iter) : Except Err (Iter × α) :=
  match hasNext h it with
  | .error e => .error e
  | .ok false => .error .outOfBounds
  | .ok true =>
    match (if it.current.obj = none then .ok it.start else nextOf h it.current) with
    | .error e => .error e
    | .ok r =>
      match valueOf h (put it.current r) with
      | .ok v => .ok ({ it with current := put it.current r }, v)
      | .error e => .error e

/-- `while ( it.hasNext() ) it.next();`, as `foreach` does it: the values visited. -/
def visit (h : Heap α) : Nat → Iter → Except Err (List α)
  | 0, _ => .error .loop
  | n + 1, it =>
    match hasNext h it with
    | .error e => .error e
    | .ok false => .ok []
    | .ok true =>
      match next h it with
      | .error e => .error e
      | .ok (it, v) =>
        match visit h n it with
        | .ok vs => .ok (v :: vs)
        | .error e => .error e

/-- `r.previous` -/
def prevOf (h : Heap α) (r : Ref) : Except Err Ref :=
  match node h r with
  | .ok n => .ok n.prev
  | .error e => .error e

/-- `ReverseIterator::hasNext` (DoubleLinkedIterator.os 133-143). -/
def revHasNext (h : Heap α) (it : Iter) : Except Err Bool :=
  if it.start.obj = none then .ok false
  else if it.current.obj = none then .ok it.start.obj.isSome
  else
    match prevOf h it.current with
    | .ok r => .ok r.obj.isSome
    | .error e => .error e

/-- `ReverseIterator::next` (DoubleLinkedIterator.os 157-165). -/
def revNext (h : Heap α) (it : Iter) : Except Err (Iter × α) :=
  match revHasNext h it with
  | .error e => .error e
  | .ok false => .error .outOfBounds
  | .ok true =>
    match prevOf h it.current with
    | .error e => .error e
    | .ok r =>
      match valueOf h (put it.current r) with
      | .ok v => .ok ({ it with current := put it.current r }, v)
      | .error e => .error e

/-! ## `Map` -/

variable {κ β : Type}

/-- The loops of `Map` (Map.os 32-40, 50-58, 100-111, 113-124) over the pairs: the position of the first pair with the key, and the
pair (Pair.os 25-27 compares the keys). -/
def lookup (eq : κ → κ → Bool) (k : κ) : List (κ × β) → Nat → Option (Nat × κ × β)
  | [], _ => none
  | p :: ps, i => if eq p.1 k then some (i, p) else lookup eq k ps (i + 1)

/-- All pairs, as `foreach` visits them (TreeInterpreter.cpp: `visitForeach` uses `getIterator`). -/
def pairs (w : W (κ × β)) : Except Err (List (κ × β)) := visit w.heap (w.heap.length + 1) (iter w.first)

/-- `Map::contains` (Map.os 32-40). -/
def mapContains (eq : κ → κ → Bool) (w : W (κ × β)) (k : κ) : Except Err Bool :=
  match pairs w with
  | .error e => .error e
  | .ok ps => .ok (lookup eq k ps 0).isSome

/-- `Map::get` (Map.os 50-58). -/
def mapGet (eq : κ → κ → Bool) (w : W (κ × β)) (k : κ) : Except Err β :=
  match pairs w with
  | .error e => .error e
  | .ok ps =>
    match lookup eq k ps 0 with
    | some (_, p) => .ok p.2
    | none => .error .unknownKey

/-- `Map::indexOf` (Map.os 80-90): the counter is never increased. -/
def mapIndexOf (eq : κ → κ → Bool) (w : W (κ × β)) (k : κ) : Except Err Int :=
  match pairs w with
  | .error e => .error e
  | .ok ps =>
    match lookup eq k ps 0 with
    | some _ => .ok 0
    | none => .ok (-1)

/-- `Map::insert` (Map.os 92-94). -/
def mapInsert (w : W (κ × β)) (k : κ) (v : β) : Except Err (W (κ × β)) := listPushBack w (k, v)

/-- `pair.second = value` for the pair of the item at position `i` (Map.os 103-104): the pair belongs to this item alone. -/
def setSecond (w : W (κ × β)) (i : Nat) (v : β) : Except Err (W (κ × β)) :=
  match walk w.heap i (put {} w.first) with
  | .error e => .error e
  | .ok r =>
    match r.obj with
    | none => .error .null
    | some a =>
      match w.heap[a]? with
      | some n => .ok { w with heap := w.heap.set a { n with value := (n.value.1, v) } }
      | none => .error .null

/-- `Map::put` (Map.os 100-111). -/
def mapPut (eq : κ → κ → Bool) (w : W (κ × β)) (k : κ) (v : β) : Except Err (W (κ × β)) :=
  match pairs w with
  | .error e => .error e
  | .ok ps =>
    match lookup eq k ps 0 with
    | some (i, _) => setSecond w i v
    | none => .error .unknownKey

/-- `Map::remove` (Map.os 113-124). -/
def mapRemove (eq : κ → κ → Bool) (w : W (κ × β)) (k : κ) : Except Err (W (κ × β)) :=
  match pairs w with
  | .error e => .error e
  | .ok ps =>
    match lookup eq k ps 0 with
    | some (i, _) => erase w i
    | none => .ok w

/-! ## `Range` -/

/-- A range (Range.os 89-91). -/
structure Range where
  start : Int
  stop : Int
  step : Int

/-- `Range::at` (Range.os 38-44). -/
def Range.at' (r : Range) (index : Int) : Except Err Int :=
  if index < 0 ∨ index * r.step > r.stop - r.start then .error .outOfBounds else .ok (r.start + index * r.step)

/-- `Range::size` (Range.os 81-83); the division truncates. -/
def Range.size (r : Range) : Int := (r.stop - r.start).tdiv r.step + 1

/-- `while ( it.hasNext() ) it.next();` with a `RandomAccessIterator` (RandomAccessIterator.os 26-42), from the index `i` on. -/
def Range.visit (r : Range) : Nat → Int → Except Err (List Int)
  | 0, _ => .error .loop
  | n + 1, i =>
    if i + 1 < r.size then
      match r.at' (i + 1) with
      | .error e => .error e
      | .ok v =>
        match Range.visit r n (i + 1) with
        | .ok vs => .ok (v :: vs)
        | .error e => .error e
    else .ok []

end Coll
end Verif
