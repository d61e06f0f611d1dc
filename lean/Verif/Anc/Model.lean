import Verif.Decl.Model

/-!
# The set of ancestors of a class

`Verif/Decl` reads the ancestors in the order in which they are written.  The code keeps them in a `std::set`, ordered by
`Ancestor::operator<`, which is no strict order: an ancestor is less than itself.  So what the set holds depends on how the search
tree of the C++ library uses the comparison; that is modelled here.
-/

namespace Verif.Anc

open Verif.Str
open Verif.Decl (Ancestor Relation Arg)

/-- The numbers of `Ancestor::Type::E` (Core/Designtime/Ancestor.h:28-34). -/
def code : Relation → Nat
  | .extends => 1
  | .implements => 3
  | .replicates => 4

/-- The type arguments with their positions, as `collectDesigntimePrototypeConstraints` numbers them
(Core/Designtime/Parser/Parser.cpp:196-223). -/
def numbered : Nat → List Arg → List (Nat × Arg)
  | _, [] => []
  | i, a :: as => (i, a) :: numbered (i + 1) as

/-- `PrototypeConstraint::operator==` (Core/Common/PrototypeConstraint.cpp:30-33): the design type is compared with itself. -/
def sameConstraint (a b : Nat × Arg) : Bool := a.1 == b.1 && decide (a.2 = a.2)

/-- `PrototypeConstraints::operator==` (Core/Common/PrototypeConstraint.cpp:48-62). -/
def sameConstraints : List (Nat × Arg) → List (Nat × Arg) → Bool
  | [], [] => true
  | a :: as, b :: bs => as.length == bs.length && sameConstraint a b && sameConstraints as bs
  | _, _ => false

/-- `Ancestor::operator<` (Core/Designtime/Ancestor.cpp:30-45); the visibility is always public (Parser.cpp:124). -/
def less (a b : Ancestor) : Bool :=
  if code a.relation = code b.relation then
    if a.name = b.name then sameConstraints (numbered 0 a.args) (numbered 0 b.args)
    else decide (a.name < b.name)
  else decide (code a.relation < code b.relation)

/-- The search tree behind `std::set` (libstdc++, `_Rb_tree`), without the colours. -/
inductive Tree where
  | leaf
  | node (left : Tree) (a : Ancestor) (right : Tree)
  deriving Repr

/-- The elements in the order in which an iterator visits them. -/
def Tree.elems : Tree → List Ancestor
  | .leaf => []
  | .node l a r => l.elems ++ a :: r.elems

/-- `std::set::insert` (libstdc++, `_M_get_insert_unique_pos` and `_M_insert_`): go left if the new element is less, else right; at
the end it is inserted if there is no element before that place or the one before, `prev`, is less than the new element. -/
def Tree.insert (k : Ancestor) (prev : Option Ancestor) : Tree → Tree
  | .leaf => if prev.all (fun p => less p k) then .node .leaf k .leaf else .leaf
  | .node l a r => if less k a then .node (l.insert k prev) a r else .node l a (r.insert k (some a))

/-- Inserting one after the other; `balance` is what rebalancing makes of the tree each time. -/
def insertAll (balance : Tree → Tree) (t : Tree) (as : List Ancestor) : Tree :=
  as.foldl (fun t a => balance (t.insert a none)) t

/-- The set `collectInheritance` returns for the ancestors written (Core/Designtime/Parser/Parser.cpp:113-182). -/
def collected (balance : Tree → Tree) (written : List Ancestor) : Tree := insertAll balance .leaf written

/-- `Object`, the ancestor of the classes that extend nothing (Core/Designtime/Analyser.cpp:172-175). -/
def root : Ancestor := ⟨"Object".toList, [], .extends⟩

/-- The ancestors of a new class: `Analyser::createObject` (Core/Designtime/Analyser.cpp:154-175) inserts those collected into the
set of the class (`BluePrintObject::addInheritance`, BluePrintObject.cpp:81-88), and `Object` if the class is implemented and none
is extended. -/
def classAncestors (balance : Tree → Tree) (isImplemented : Bool) (written : List Ancestor) : Tree :=
  let inheritance := (collected balance written).elems
  let blueprint := insertAll balance .leaf inheritance
  let extends_ := inheritance.any fun a => a.relation = .extends
  if isImplemented && !extends_ then balance (blueprint.insert root none) else blueprint

/-- `BluePrintObject::getAncestors` (BluePrintObject.cpp:180-191) and `getImplementations` (199-210): the ancestors of one kind. -/
def ofKind (balance : Tree → Tree) (kind : Relation) (t : Tree) : Tree :=
  insertAll balance .leaf (t.elems.filter fun a => a.relation = kind)

/-- `BluePrintObject::inheritsFrom` (BluePrintObject.cpp:244-253). -/
def inheritsFrom (t : Tree) (name : Text) : Bool := t.elems.any fun a => a.name = name

end Verif.Anc
