import Verif.Str.Props

/-!
# libJsonBuilder

Model of `Projects/Library/libJsonBuilder`: `Builder.os`, `StyledBuilder.os`, and `StructuredBuilder.os`, whose functions do what the
methods of `Builder` do on two global variables.  Simplifications: `float` and `double` values are left out, and so are the two
`AddObject` of StructuredBuilder.os.
-/

namespace Verif.Json.Build

open Verif.Str (Text)

/-- An argument of `addElement` and `addValue`. -/
inductive Lit where
  | bool (b : Bool)
  | int (i : Int)
  | str (s : Text)
deriving Repr, DecidableEq

/-- The public methods that change the builder. -/
inductive Call where
  | addElement (key : Text) (value : Lit)
  | addValue (value : Lit)
  | beginArray
  | beginArrayOf (key : Text)
  | beginObject
  | beginObjectOf (key : Text)
  | endArray
  | endObject
deriving Repr, DecidableEq

/-- What `text + value` appends (`StringType::operator_plus`, Core/Runtime/BuildInTypes/StringType.cpp:194-212), with the quotation
marks of the `string` overloads (Builder.os:32, 59; StyledBuilder.os:66, 93). -/
def Lit.text : Lit → Text
  | .bool b => Str.boolToString b
  | .int i => Str.intToString i
  | .str s => '"' :: (s ++ ['"'])

/-- `"\"" + key + "\": "` -/
def keyText (key : Text) : Text := '"' :: (key ++ "\": ".toList)

/-- `Builder` (Builder.os:4-6); `mIndentationLevel` only in `StyledBuilder` (StyledBuilder.os:4-11). -/
structure State where
  level : Int := 1
  first : Bool := true
  value : Text := []
deriving Repr, DecidableEq

/-- `mValue += …` -/
def State.put (s : State) (t : Text) : State := { s with value := s.value ++ t }

/-- `if ( !mIsFirstElement ) { mValue += …; }` -/
def State.comma (s : State) (t : Text) : State := if s.first then s else s.put t

/-- `indent` (StyledBuilder.os:164-170). -/
def State.indent (s : State) : State := s.put (List.replicate s.level.toNat "    ".toList).flatten

/-- The methods of `Builder` (Builder.os:8-106; StructuredBuilder.os:8-160). -/
def plain (s : State) : Call → State
  | .addElement k v => { s.comma ", ".toList with first := false }.put (keyText k ++ v.text)
  | .addValue v => { s.comma ", ".toList with first := false }.put v.text
  | .beginArray => { s.comma ", ".toList with first := true }.put "[".toList
  | .beginArrayOf k => { s.comma ", ".toList with first := true }.put (keyText k ++ "[".toList)
  | .beginObject => { s.comma ", ".toList with first := true }.put "{".toList
  | .beginObjectOf k => { s.comma ", ".toList with first := true }.put (keyText k ++ "{".toList)
  | .endArray => { s with first := false }.put "]".toList
  | .endObject => { s with first := false }.put "}".toList

/-- `getString` (Builder.os:108-110; StructuredBuilder.os:162-164). -/
def plainString (s : State) : Text := "{ ".toList ++ s.value ++ " }".toList

/-- The methods of `StyledBuilder` (StyledBuilder.os:14-158). -/
def styled (s : State) : Call → State
  | .addElement k v => { (s.comma ", \n".toList).indent with first := false }.put (keyText k ++ v.text)
  | .addValue v => { s.comma ", ".toList with first := false }.put v.text
  | .beginArray => { (s.comma ", \n".toList).indent with level := s.level + 1, first := true }.put "[\n".toList
  | .beginArrayOf k => { (s.comma ", \n".toList).indent with level := s.level + 1, first := true }.put (keyText k ++ "[\n".toList)
  | .beginObject => { (s.comma ", \n".toList).indent with level := s.level + 1, first := true }.put "{\n".toList
  | .beginObjectOf k => { (s.comma ", \n".toList).indent with level := s.level + 1, first := true }.put (keyText k ++ "{\n".toList)
  | .endArray => ({ s with level := s.level - 1, first := false }.put "\n".toList).indent.put "]".toList
  | .endObject => ({ s with level := s.level - 1, first := false }.put "\n".toList).indent.put "}".toList

/-- `getString` (StyledBuilder.os:160-162). -/
def styledString (s : State) : Text := "{\n".toList ++ s.value ++ "\n}\n".toList

end Verif.Json.Build
