import Verif.Str.Tools

/-!
# Enumerations

Model of `Analyser::buildEnum` (`Projects/Core/Core/Designtime/Analyser.cpp:38-99`).
-/

namespace Verif
namespace Enums

/-- The tokens `buildEnum` distinguishes. -/
inductive Tok where
  | ident (name : String)
  | assign
  | int (content : Str.Text)
  | comma
  | semicolon
  | other
  deriving DecidableEq, Repr

inductive Err where
  /-- `SyntaxError` -/
  | syntax
  /-- `DuplicateIdentifier` -/
  | duplicate
  /-- the token at the end of the list is read, or a signed addition overflows -/
  | undefined
  deriving DecidableEq, Repr

/-- The entries defined so far, in the order of their definition. -/
abbrev Entries := List (String × Int)

/-- Lines 63-82: the order of the values is checked (the error message reads the position of the next token),
then the entry is defined (`MethodScope::define`, `Scope.cpp:177-189`).
Simplification: the attributes of the entry are left out. -/
def define (es : Entries) (previous value : Int) (name : String) (rest : List Tok) : Except Err Entries :=
  if previous ≥ value then .error (if rest.isEmpty then .undefined else .syntax)
  else if es.any fun e => e.1 == name then .error .duplicate
  else .ok (es ++ [(name, value)])

/-- Lines 84-97, unless a comma and another token follow. -/
def finish (es : Entries) : List Tok → Except Err Entries
  | [] => .error .undefined
  | .comma :: _ => .error .syntax
  | .semicolon :: _ => .ok es
  | _ :: _ => .error .syntax

/-- Line 60: `value.toInt() + 1` for a 64 bit integer. -/
def next (value : Int) : Except Err Int := if value = 2 ^ 63 - 1 then .error .undefined else .ok (value + 1)

/-- `Analyser::buildEnum` (`Analyser.cpp:38-99`); the last line reads the position of the token at the end. -/
def buildEnum (es : Entries) (previous value : Int) : List Tok → Except Err Entries
  | [] => .error .undefined
  | .ident n :: .assign :: .int c :: .comma :: t :: ts =>
    match define es previous (Str.stringToInt c) n (.comma :: t :: ts) with
    | .ok es' => buildEnum es' (Str.stringToInt c) (Str.stringToInt c) (t :: ts)
    | .error e => .error e
  | .ident n :: .assign :: .int c :: ts =>
    match define es previous (Str.stringToInt c) n ts with
    | .ok es' => finish es' ts
    | .error e => .error e
  | .ident _ :: .assign :: [] => .error .undefined
  | .ident _ :: .assign :: _ :: _ => .error .syntax
  | .ident _ :: [] => .error .undefined
  | .ident n :: .comma :: t :: ts =>
    match next value with
    | .error e => .error e
    | .ok v =>
      match define es previous v n (.comma :: t :: ts) with
      | .ok es' => buildEnum es' v v (t :: ts)
      | .error e => .error e
  | .ident n :: t :: ts =>
    match next value with
    | .error e => .error e
    | .ok v =>
      match define es previous v n (t :: ts) with
      | .ok es' => finish es' (t :: ts)
      | .error e => .error e
  | _ :: _ => .error .syntax

/-- `Analyser::createEnum` (`Analyser.cpp:222-263`): the entries of the tokens between the curly brackets. -/
def enumOf (ts : List Tok) : Except Err Entries := buildEnum [] (-1) (-1) ts

end Enums
end Verif
