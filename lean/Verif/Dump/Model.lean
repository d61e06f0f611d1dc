import Verif.Str.Tools

/-!
# The text of an object (`Object::ToString`, `Core/Object.cpp`)

The text `Object::ToString` gives, which is what a script that ends with an uncaught exception shows of the value that was thrown
(`Core/Runtime/Script.cpp:62`).  Paths are relative to `/repo/Projects/Core/Core`.
-/

namespace Verif.Dump

open Verif.Str

/-- A symbol of an object: an object, or a blueprint, method or namespace (`Symbol::IType`, Symbol.h). -/
inductive Sym where
  | object (id : Nat)
  | other
  deriving DecidableEq, Repr

/-- What an object is: a variable that refers to another object (`mThis != this`), a value (`isAtomicType()`), a variable that refers to nothing
(`!isValid()`), or an object with its symbols in the order of their names (`mSymbols`, a `std::map`; Scope.h:74). -/
inductive Kind where
  | refers (target : Nat)
  | value (text : Text)
  | null
  | full (symbols : List (Text × Sym))
  deriving DecidableEq, Repr

/-- The parts of a `Runtime::Object` its text depends on.  `visibility` is the text of `Visibility::convert`, `mutability` the one of
`Mutability::convert`, `stable` whether the language feature state is `Stable`. -/
structure Obj where
  stable : Bool := true
  visibility : Text := []
  type : Text
  name : Text
  mutability : Text
  kind : Kind
  deriving DecidableEq, Repr

/-- All objects, by number. -/
abbrev Heap := Nat → Obj

/-- `IDENTIFIER_THIS` (Consts.h:22). -/
def this : Text := "this".toList

/-- `Utils::Tools::indent` (Utils/Tools/Strings.cpp:47-58). -/
def tabs : Nat → Text
  | 0 => []
  | n + 1 => '\t' :: tabs n

/-- The text in front of the value (Object.cpp:582-588). -/
def Obj.heading (o : Obj) : Text :=
  (if o.stable then [] else o.visibility ++ [' ']) ++ o.type ++ [' '] ++ o.name ++ [' '] ++ o.mutability

/-- The symbols that are left out (Object.cpp:605-613): the key or the name is `this`, or the symbol is no object.  The name of the symbol is asked
for, not the one of the object it refers to. -/
def skipped (H : Heap) : Text × Sym → Bool
  | (_, .other) => true
  | (key, .object id) => key == this || (H id).name == this

/-- The loop over the symbols (Object.cpp:604-618); `f` is the text of an object. -/
def dumpAll (H : Heap) (f : Nat → Option Text) : List (Text × Sym) → Option Text
  | [] => some []
  | (key, s) :: rest =>
    if skipped H (key, s) then dumpAll H f rest
    else match s with
      | .other => dumpAll H f rest
      | .object id => match f id, dumpAll H f rest with
        | some x, some y => some (x ++ '\n' :: y)
        | _, _ => none

/-- `Object::ToString` (Object.cpp:573-624).  `none`: the depth of calls `fuel` does not suffice; if no depth does, the program does not come back
(it ends with a stack overflow). -/
def dump (H : Heap) : Nat → Nat → Nat → Option Text
  | 0, _, _ => none
  | fuel + 1, id, indent => match (H id).kind with
    | .refers t => dump H fuel t indent
    | .value v => some (tabs indent ++ (H id).heading ++ " = '".toList ++ v ++ ['\''])
    | .null => some (tabs indent ++ (H id).heading ++ " = null".toList)
    | .full symbols => match dumpAll H (fun t => dump H fuel t (indent + 1)) symbols with
      | some body => some (tabs indent ++ (H id).heading ++ " {\n".toList ++ body ++ tabs indent ++ ['}'])
      | none => none

end Verif.Dump
