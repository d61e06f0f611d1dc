import Verif.AMap
import Verif.Scope.Model

/-!
# Classes: redefining methods, preparing ancestors

Model of `BluePrintObject::defineMethod`, `BluePrintObject::inheritsFrom` and
`BluePrintObject::prepareParents` (`Projects/Core/Core/Designtime/BluePrintObject.cpp`), with the parts of
`Projects/Core/Core/Scope.cpp` and `Projects/Core/Core/VirtualMachine/Repository.cpp` they use.
-/

namespace Verif
namespace Classes

/-- `MemoryLayout` (`Common/Attributes/Types.h:93-107`). -/
inductive Layout where
  | unspecified | abstract | final | override | static | virtual
  deriving DecidableEq, Repr

/-- `MethodType` (`Common/Attributes/Types.h:110-118`). -/
inductive Kind where
  | constructor | destructor | method
  deriving DecidableEq, Repr

/-- `Common::Method`, as far as the rules for redefinitions read it; `id` is its address. -/
structure Method where
  id : Nat
  name : String
  sig : List Scope.Param
  ret : String
  layout : Layout
  kind : Kind := .method
  constReturn : Bool := false
  constMethod : Bool := true
  vis : Scope.Vis := .pub
  deriving DecidableEq, Repr

/-- The types of the parameters, by which a redefinition is found. -/
def Method.types (m : Method) : List String := m.sig.map Scope.Param.type

/-- The tables of a class: own symbols (by name), own methods, methods taken over from ancestors.  The methods are
stored in a set of pointers; the lists are in the order of the addresses. -/
structure Tables where
  symbols : List String := []
  own : List Method := []
  ext : List Method := []
  deriving DecidableEq, Repr

/-- `resolveMethod` for the own tables only (`Scope.cpp:360-377`); at the level `Designtime` every method is
visible and neither base nor parent is asked. -/
def Tables.resolve (t : Tables) (name : String) (types : List String) : Option Method :=
  (t.own.find? fun m => m.name == name && Scope.isSignatureValid m.sig types).or
    (t.ext.find? fun m => m.name == name && Scope.isSignatureValid m.sig types)

inductive Outcome where
  | accepted
  | rejected
  /-- a method that has been deleted is read -/
  | undefined
  deriving DecidableEq, Repr

/-- `MethodScope::defineMethod` (`Scope.cpp:215-226`); `k` is the position of the address of the new method. -/
def Tables.insert (t : Tables) (m : Method) (k : Nat) : Outcome × Tables :=
  match t.resolve m.name m.types with
  | some _ => (.rejected, t)
  | none => (.accepted, { t with own := t.own.take k ++ m :: t.own.drop k })

/-- `MethodScope::undefineMethod` (`Scope.cpp:410-421`): also the symbol of that name is removed. -/
def Tables.undefine (t : Tables) (m : Method) : Tables :=
  { t with symbols := t.symbols.filter (· ≠ m.name), own := t.own.filter fun x => x.id ≠ m.id }

/-- `BluePrintObject::defineMethod` (`BluePrintObject.cpp:90-128`).  The old method is deleted; if it was taken over
from an ancestor it stays in the table, and the check for duplicates reads it. -/
def Tables.defineMethod (t : Tables) (m : Method) (k : Nat) : Outcome × Tables :=
  match t.resolve m.name m.types with
  | none => t.insert m k
  | some old =>
    if old.layout ≠ .abstract && old.layout ≠ .virtual then (.rejected, t)
    else if m.kind = .method && m.layout ≠ .abstract && m.layout ≠ .override then (.rejected, t)
    else if old.constReturn ≠ m.constReturn then (.rejected, t)
    else if old.constMethod ≠ m.constMethod then (.rejected, t)
    else if old.layout = .final then (.rejected, t)
    else if old.layout = .static then (.rejected, t)
    else if old.ret ≠ m.ret then (.rejected, t)
    else if t.ext.any fun x => x.id = old.id then (.undefined, t.undefine old)
    else (t.undefine old).insert m k

/-- The methods of a class in the order of their declarations (`Analyser::createMethodStub`,
`Analyser.cpp:463-541`): they are defined before any method of an ancestor is known to the class. -/
def analyse : Tables → List (Method × Nat) → Option Tables
  | t, [] => some t
  | t, (m, k) :: ms =>
    match t.defineMethod m k with
    | (.accepted, t') => analyse t' ms
    | _ => none

/-- `prepareParents` (`BluePrintObject.cpp:369-375`): the methods of a direct ancestor. -/
def Tables.inherit (t parent : Tables) : Tables :=
  { t with ext := t.ext ++ parent.own.filter fun m => decide (Scope.Vis.prot.rank ≤ m.vis.rank) }

/-! ## Ancestors -/

/-- A class: its direct ancestors in the order of the set, and the names of its symbols that descendants take
over (visibility `Protected` or `Public`).
Simplification: ancestors without type arguments, so that an ancestor is found by its name. -/
structure Class where
  ancestors : List String
  symbols : List String := []
  deriving DecidableEq, Repr

/-- The classes of a program (`mBluePrintObjects`). -/
abbrev Program := AMap String Class

/-- `BluePrintObject::inheritsFrom` (`BluePrintObject.cpp:244-253`): direct ancestors only. -/
def Class.inheritsFrom (c : Class) (name : String) : Bool := c.ancestors.contains name

/-- What `prepareParents` changes: the classes marked as prepared, latest first, and the symbols each class has
taken over. -/
structure State where
  prepared : List String := []
  external : AMap String (List String) := []
  deriving Repr

inductive Err where
  | unknownParent
  | circular
  | duplicate
  deriving DecidableEq, Repr

/-- `defineExternal` (`Scope.cpp:191-204`) for the symbols of one ancestor (`prepareParents`, 361-367). -/
def takeOver (have_ : List String) : List String → Except Err (List String)
  | [] => .ok have_
  | x :: xs => if have_.contains x then .error .duplicate else takeOver (x :: have_) xs

mutual
/-- `BluePrintObject::prepareParents` (`BluePrintObject.cpp:314-379`).  `none`: more than `n` nested calls. -/
def prepare (P : Program) : Nat → State → String → Option (Except Err State)
  | 0, _, _ => none
  | n + 1, s, c =>
    match P.find c with
    | none => some (.error .unknownParent)
    | some C =>
      match prepareAll P n s c C.ancestors with
      | some (.ok s') => some (.ok { s' with prepared := c :: s'.prepared })
      | r => r
termination_by n _ _ => (n, 0)

/-- The loop over the direct ancestors (`BluePrintObject.cpp:345-376`). -/
def prepareAll (P : Program) : Nat → State → String → List String → Option (Except Err State)
  | _, s, _, [] => some (.ok s)
  | n, s, c, a :: as =>
    match P.find a with
    | none => some (.error .unknownParent)
    | some A =>
      if A.inheritsFrom c then some (.error .circular)
      else
        match if s.prepared.contains a then some (.ok s) else prepare P n s a with
        | some (.ok s') =>
          match takeOver ((s'.external.find c).getD []) A.symbols with
          | .error e => some (.error e)
          | .ok xs => prepareAll P n { s' with external := s'.external.set c xs } c as
        | r => r
termination_by n _ _ as => (n, as.length + 1)
end

/-- `Repository::initializeBlueprints` (`Repository.cpp:517-520`) with `initBluePrintObject` (597-599): every
class that is not prepared yet. -/
def prepareProgram (P : Program) (n : Nat) : State → List String → Option (Except Err State)
  | s, [] => some (.ok s)
  | s, c :: cs =>
    match if s.prepared.contains c then some (.ok s) else prepare P n s c with
    | some (.ok s') => prepareProgram P n s' cs
    | r => r

end Classes
end Verif
