import Verif.Scope.Model
import Verif.Str.Tools

/-!
# The virtual machine as a library: extensions, and methods called by name

Models `VirtualMachine::addExtension` and `printSpecification` (`Core/VirtualMachine/VirtualMachine.cpp`) and `Script::execute`
(`Core/Runtime/Script.cpp`).  Paths are relative to `/repo/Projects/Core`.
-/

namespace Verif.Embed

open Verif.Str (Text)
open Verif.Scope (Meth Vis firstApplicable defineMethod)

/-! ## Extensions -/

/-- An extension (`Core/Extensions/Extension.h`): its name, whether `initialize` ends without an exception, and what
`provideMethods` provides. -/
structure Extension where
  name : Text
  starts : Bool := true
  methods : List Meth
deriving Repr, DecidableEq

/-- The virtual machine as far as extensions are concerned: the methods of the global scope, `mSpecification` and `mExtensions`. -/
structure Machine where
  methods : List Meth
  specification : List Text
  extensions : List Extension
deriving Repr, DecidableEq

/-- What the machine cannot choose: `place` is where the address of a new method lies among the others (`mMethods` is a set of
pointers), `describe` is `Method::ToString` (`Core/Common/Method.cpp:387-404`). -/
structure World where
  place : List Meth → Meth → Nat
  describe : Meth → Text

/-- The loop over the methods (VirtualMachine.cpp:111-119): an exception of `defineMethod` leaves it. -/
def addMethods (w : World) : List Meth → Machine → Machine
  | [], s => s
  | m :: ms, s =>
    match defineMethod s.methods [] m (w.place s.methods m) with
    | none => s
    | some methods => addMethods w ms { s with methods, specification := s.specification ++ [w.describe m] }

/-- `VirtualMachine::addExtension` (VirtualMachine.cpp:85-128); `none` is a null pointer.  The exceptions are caught (121-123). -/
def addExtension (w : World) (e : Option Extension) (s : Machine) : Bool × Machine :=
  match e with
  | none => (false, s)
  | some e =>
    let s := if e.starts then
        addMethods w e.methods { s with specification :=
          (if s.specification.isEmpty then [] else s.specification ++ [[]]) ++
            ["Extension ".toList ++ e.name ++ [':'], "---".toList] }
      else s
    (true, { s with extensions := s.extensions ++ [e] })

/-- A machine to which extensions are added one after the other, as `init` does (VirtualMachine.cpp:272-275). -/
def addAll (w : World) : List (Option Extension) → Machine → Machine
  | [], s => s
  | e :: es, s => addAll w es (addExtension w e s).2

/-- A machine without extensions (VirtualMachine.cpp:64-68). -/
def Machine.new : Machine := ⟨[], [], []⟩

/-- `std::string::find(part) != npos`. -/
def contains (part : Text) : Text → Bool
  | [] => part.isEmpty
  | c :: t => part.isPrefixOf (c :: t) || contains part t

/-- `printSpecification` (VirtualMachine.cpp:396-422): the lines that are printed. -/
def printSpecification (s : Machine) (search : Text) : List Text :=
  if search.isEmpty then s.specification
  else
    let found := s.specification.filter (contains search)
    if found.isEmpty then ["no result found for '".toList ++ search ++ ['\'']] else found

/-! ## Methods called by name -/

/-- A namespace: the namespaces in it, its other symbols, its methods.  Simplifications: classes are left out; the names of the
symbols are all different (`MethodScope::define`, Core/Scope.cpp:177-189); everything is visible at design time. -/
inductive Space where
  | mk (spaces : List (Text × Space)) (others : List Text) (methods : List Meth)

def Space.spaces : Space → List (Text × Space)
  | .mk s _ _ => s

def Space.others : Space → List Text
  | .mk _ o _ => o

def Space.methods : Space → List Meth
  | .mk _ _ m => m

/-- What a name can stand for: a namespace, with those around it, or something else. -/
inductive Found where
  | space (around : List Space) (s : Space)
  | other

/-- `MethodScope::resolve(name)` at design time (Core/Scope.cpp:299-358) in a namespace `s` inside of `around`, innermost first. -/
def resolve (n : Text) : List Space → Space → Option Found
  | around, s =>
    match s.spaces.lookup n with
    | some t => some (.space (s :: around) t)
    | none =>
      if n ∈ s.others then some .other
      else if s.methods.any (fun m => m.name.toList = n) then some .other
      else match around with
        | [] => none
        | p :: around => resolve n around p

/-- `split` (Core/Runtime/Script.cpp:84-99): the parts between the characters `d`. -/
def split (d : Char) : Text → List Text
  | [] => [[]]
  | c :: t =>
    if c = d then [] :: split d t
    else match split d t with
      | [] => [[c]]
      | p :: ps => (c :: p) :: ps

/-- How a call by name ends: with an exception because a name is not known, or with the call of a method. -/
inductive Called where
  | unknownScope (n : Text)
  | unknownMethod
  | calls (m : Meth)
deriving Repr, DecidableEq

/-- `Script::execute` (Core/Runtime/Script.cpp:28-66) up to the method that is executed; `args` are the types of the arguments. -/
def walk (args : List String) : List Text → List Space → Space → Called
  | [], _, _ => .unknownMethod
  | [n], _, s =>
    match firstApplicable s.methods (String.ofList n) args .pub with
    | some m => .calls m
    | none => .unknownMethod
  | n :: ns, around, s =>
    match resolve n around s with
    | some (.space around s) => walk args ns around s
    | _ => .unknownScope n

def execute (global : Space) (name : Text) (args : List String) : Called := walk args (split '.' name) [] global

end Verif.Embed
