import Verif.AMap
import Verif.Scope.Model

/-!
# Signatures and parameters

Model of `Projects/Core/Core/Common/Method.cpp` (`Method::mergeParameters`, `Method::operator<`) and
of `TreeInterpreter::initialize` (`Projects/Core/Core/AST/TreeInterpreter.cpp`).
-/

namespace Verif
namespace Methods

/-- `Runtime/Parameter.h`.  `V` are the atomic values.  `ref` is the address of the reference; address 0 is
the invalid one (`Runtime/Reference.cpp:12-38`).
Simplification: the access mode is left out, nothing in the calls reads it. -/
structure Param (V : Type) where
  name : String
  type : String
  value : V
  hasDefault : Bool := false
  const : Bool := false
  ref : Nat := 0
  deriving DecidableEq, Repr

variable {V : Type}

/-- What `isSignatureValid` reads of a parameter. -/
def Param.shape (p : Param V) : Scope.Param := ⟨p.type, p.hasDefault⟩

/-- `Method::isSignatureValid` (`Method.cpp:236-286`), as modelled for method lookup. -/
def isSignatureValid (sig args : List (Param V)) : Bool :=
  Scope.isSignatureValid (sig.map Param.shape) (args.map Param.type)

/-- The loop of `mergeParameters` (`Method.cpp:296-316`): `r` is the local variable `ref`, which is declared
outside of the loop. -/
def mergeFrom (r : Nat) : List (Param V) → List (Param V) → List (Param V)
  | [], _ => []
  | s :: sig, [] => { s with ref := r } :: mergeFrom r sig []
  | s :: sig, a :: args => { s with value := a.value, ref := a.ref } :: mergeFrom a.ref sig args

/-- `Method::mergeParameters` (`Method.cpp:288-319`); `none` is the exception `ParameterCountMismatch`. -/
def mergeParameters (sig args : List (Param V)) : Option (List (Param V)) :=
  if !isSignatureValid sig args then none else some (mergeFrom 0 sig args)

/-- What a local variable of a method is bound to: an object on the heap, or a value of its own. -/
inductive Binding (V : Type) where
  | object (addr : Nat)
  | value (v : V)
  deriving DecidableEq, Repr

/-- `initialize` (`TreeInterpreter.cpp:697-705`): the object for a parameter. -/
def Param.bind (p : Param V) : Binding V := if p.ref ≠ 0 then .object p.ref else .value p.value

/-- The loop of `initialize` (`TreeInterpreter.cpp:689-709`) over the symbols of the method scope; unnamed
parameters are skipped; `none` is the exception `DuplicateIdentifier` of `define` (`Scope.cpp:55-69`). -/
def defineAll : List (Param V) → AMap String (Binding V) → Option (AMap String (Binding V))
  | [], m => some m
  | p :: ps, m =>
    if p.name = "" then defineAll ps m
    else if (m.find p.name).isSome then none
    else defineAll ps ((p.name, p.bind) :: m)

/-- `execute` (`TreeInterpreter.cpp:580-586`): the symbol `this`; `self` is the object of the call. -/
def thisScope : Option Nat → AMap String (Binding V)
  | some a => [("this", .object a)]
  | none => []

/-- `execute` (`TreeInterpreter.cpp:580-588`): the symbols of the method scope of a call. -/
def callScope (self : Option Nat) (sig args : List (Param V)) : Option (AMap String (Binding V)) :=
  match mergeParameters sig args with
  | none => none
  | some ps => defineAll ps (thisScope self)

/-- What `Method::operator<` reads of a method: its name and the types of its parameters. -/
structure Key where
  name : String
  types : List String
  deriving DecidableEq, Repr

/-- The loop of `operator<` (`Method.cpp:107-111`) over two lists of the same length. -/
def firstDifference : List String → List String → Option Bool
  | a :: as, b :: bs => if a ≠ b then some (a < b) else firstDifference as bs
  | _, _ => none

/-- `Method::operator<` (`Method.cpp:93-119`); `std::string` compares bytes, which for UTF-8 is the order of the
code points used here. -/
def Key.less (a b : Key) : Bool :=
  if a.name = b.name then
    if a.types.length = b.types.length then
      match firstDifference a.types b.types with
      | some r => r
      | none => a.types.length < b.types.length
    else a.types.length < b.types.length
  else a.name < b.name

end Methods
end Verif
