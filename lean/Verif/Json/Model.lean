import Verif.Str.Tools

/-!
# libJson

Model of `Projects/Library/libJson`: `Tokenizer.os`, `Reader.os`, `Writer.os`, `Value.os`, `Array.os` and `Object.os`.

Simplifications: positions of tokens (only used in messages) are left out; exceptions carry no message; a value that merely holds an
array or an object (`JsonValue( JsonArray )`) is not distinguished from it; the text of a number is given, not computed from its
value.  The loops and recursions of the reader are bounded by fuel, the tokenizer recurses on the rest of the text.
-/

namespace Verif.Json

open Verif.Str (Text)

/-! ## Tokenizer -/

/-- `TokenType` (Token.os:10-25); `FALSE` and `TRUE` are not used. -/
inductive Ty where
  | boolean | bracketClose | bracketOpen | colon | comma | curlyClose | curlyOpen | identifier | null | number | string
deriving Repr, DecidableEq

/-- `Token` (Token.os:48-66) without its position. -/
structure Tok where
  ty : Ty
  value : Text
deriving Repr, DecidableEq

/-- `CHARS` (Tokenizer.os:15). -/
def chars : Text := "ABCDEFGHIJKLMNOPRSTUVWXYZabcdefghijklmnoprstuvwxyz_".toList

/-- `DIGITS` (Tokenizer.os:16). -/
def digits : Text := "0123456789.-+e".toList

/-- `WHITESPACES` (Tokenizer.os:23, Extensions/System/Strings/StringsExtension.cpp:63-74). -/
def whitespaces : Text := " \t\r\n\n".toList

/-- `getDigit` (Tokenizer.os:66-74) after the first character; `none`: at the end of the text `isDigit( "" )` holds, because
`Contains( "" )` does (System/String.os:86-88), so the loop runs on and `consume` throws (CharacterIterator.os:57-65). -/
def readDigits : Text → Option (Text × Text)
  | [] => none
  | c :: s => if c ∈ digits then (readDigits s).map fun r => (c :: r.1, r.2) else some ([], c :: s)

/-- The loop of `getID` (Tokenizer.os:81-83); a blank or an empty string as condition is false (Utils/Tools/Strings.cpp:99-110), but
blanks are no characters anyway. -/
def readId : Text → Text × Text
  | [] => ([], [])
  | c :: s => if c ∈ chars ∨ c ∈ digits then (c :: (readId s).1, (readId s).2) else ([], c :: s)

/-- `readString` (Tokenizer.os:191-205) after the first quotation mark; `none`: `peek` throws at the end of the text. -/
def readString : Text → Option (Text × Text)
  | [] => none
  | '"' :: s => some ([], s)
  | ['\\'] => none
  | '\\' :: c :: s => (readString s).map fun r => (c :: r.1, r.2)
  | c :: s => (readString s).map fun r => (c :: r.1, r.2)

/-- The end of `getID` (Tokenizer.os:88-94): reserved words in any case. -/
def word (v : Text) : Tok :=
  let w := Str.toLowerCase v
  if w = "false".toList ∨ w = "true".toList then ⟨.boolean, w⟩ else if w = "null".toList then ⟨.null, w⟩ else ⟨.identifier, v⟩

/-- The symbols (Tokenizer.os:115-132). -/
def symbol (c : Char) : Option Ty :=
  if c = ':' then some .colon else if c = ',' then some .comma else if c = '[' then some .bracketOpen
  else if c = ']' then some .bracketClose else if c = '{' then some .curlyOpen else if c = '}' then some .curlyClose else none

theorem readDigits_length : ∀ {s v r : Text}, readDigits s = some (v, r) → r.length ≤ s.length
  | c :: s, v, r, h => by
    rw [readDigits] at h
    split at h
    · obtain ⟨⟨v', r'⟩, h1, h2⟩ := Option.map_eq_some_iff.1 h
      cases h2
      have := readDigits_length h1
      simp only [List.length_cons]
      omega
    · cases h; exact Nat.le_refl _

theorem readId_length : ∀ s : Text, (readId s).2.length ≤ s.length
  | [] => Nat.le_refl _
  | c :: s => by
    rw [readId]
    split
    · have := readId_length s
      simp only [List.length_cons]
      omega
    · exact Nat.le_refl _

theorem readString_length : ∀ {s v r : Text}, readString s = some (v, r) → r.length ≤ s.length := by
  intro s
  fun_induction readString s with
  | case1 => intro v r h; cases h
  | case2 s => intro v r h; cases h; simp
  | case3 => intro v r h; cases h
  | case4 c s ih =>
    intro v r h
    obtain ⟨⟨v', r'⟩, h1, h2⟩ := Option.map_eq_some_iff.1 h
    cases h2
    have := ih h1
    simp only [List.length_cons]
    omega
  | case5 c s _ _ _ ih =>
    intro v r h
    obtain ⟨⟨v', r'⟩, h1, h2⟩ := Option.map_eq_some_iff.1 h
    cases h2
    have := ih h1
    simp only [List.length_cons]
    omega

/-- `parseString` with `getNextToken` (Tokenizer.os:26-39, 97-138); `none`: an exception. -/
def tokens : Text → Option (List Tok)
  | [] => some []
  | c :: s =>
    if c ∈ chars then (tokens (readId s).2).map (word (c :: (readId s).1) :: ·)
    else if c ∈ digits then
      match _h : readDigits s with
      | none => none
      | some (v, r) => (tokens r).map (⟨.number, c :: v⟩ :: ·)
    else if c ∈ whitespaces then tokens s
    else if c = '"' then
      match _h : readString s with
      | none => none
      | some (v, r) => (tokens r).map (⟨.string, v⟩ :: ·)
    else
      match symbol c with
      | none => none
      | some ty => (tokens s).map (⟨ty, [c]⟩ :: ·)
termination_by s => s.length
decreasing_by
  · have := readId_length s
    simp only [List.length_cons]; omega
  · have := readDigits_length _h
    simp only [List.length_cons]; omega
  · simp
  · have := readString_length _h
    simp only [List.length_cons]; omega
  · simp

/-! ## Values -/

/-- `JsonValueType` (Value.os:18-25) of values without members. -/
inductive Kind where
  | bool | null | number | string
deriving Repr, DecidableEq

/-- Objects of the classes `JsonValue` (Value.os:283-286), `JsonArray` (Array.os:59) and `JsonObject` (Object.os:132). -/
inductive Value where
  | leaf (k : Kind) (text : Text)
  | arr (l : List Value)
  | obj (l : List (Text × Value))

/-- `JsonValue( bool )` (Value.os:157-162). -/
def Value.bool (b : Bool) : Value := .leaf .bool (if b then "true".toList else "false".toList)

/-- `JsonValue()` (Value.os:30-35). -/
def Value.null : Value := .leaf .null "null".toList

/-! ## Reader -/

/-- The outcome: a result, an exception, or the fuel of the model is used up. -/
inductive Res (α : Type) where
  | ok (a : α)
  | thrown
  | fuel

def Res.bind {α β : Type} : Res α → (α → Res β) → Res β
  | .ok a, f => f a
  | .thrown, _ => .thrown
  | .fuel, _ => .fuel

/-- The iterator over the tokens (System/Collections/Iterator.os): the current token and those after it. -/
abbrev Cursor := List Tok

/-- `Iterator.next` (System/Collections/Iterator.os:45-58). -/
def next : Cursor → Res Cursor
  | _ :: t :: r => .ok (t :: r)
  | _ => .thrown

/-- `require` (Reader.os:141-149): at the last token the iterator stays. -/
def require (ty : Ty) : Cursor → Res Cursor
  | [] => .thrown
  | [t] => if t.ty = ty then .ok [t] else .thrown
  | t :: u :: r => if t.ty = ty then .ok (u :: r) else .thrown

/-- `t.current().type` (System/Collections/Iterator.os:13-19). -/
def at? (ty : Ty) (c : Cursor) : Bool := (c.head?.map Tok.ty) = some ty

mutual

/-- `parseValue` (Reader.os:95-139). -/
def parseValue : Nat → Cursor → Res (Value × Cursor)
  | 0, _ => .fuel
  | _, [] => .thrown
  | k + 1, t :: r =>
    match t.ty with
    | .bracketOpen => parseArray k (t :: r)
    | .curlyOpen => parseObject k (t :: r)
    | .boolean => (next (t :: r)).bind fun c => .ok (.bool (t.value = "true".toList), c)
    | .identifier => (next (t :: r)).bind fun c => .ok (.leaf .string t.value, c)
    | .number => (next (t :: r)).bind fun c => .ok (.leaf .string t.value, c)
    | .string => (next (t :: r)).bind fun c => .ok (.leaf .string t.value, c)
    | .null => (next (t :: r)).bind fun c => .ok (.null, c)
    | _ => .thrown

/-- `parseArray` (Reader.os:52-69). -/
def parseArray : Nat → Cursor → Res (Value × Cursor)
  | 0, _ => .fuel
  | k + 1, c => (require .bracketOpen c).bind fun c => (items k c).bind fun r => (require .bracketClose r.2).bind fun c =>
    .ok (.arr r.1, c)

/-- The loop of `parseArray` (Reader.os:57-64). -/
def items : Nat → Cursor → Res (List Value × Cursor)
  | 0, _ => .fuel
  | k + 1, c =>
    if at? .bracketClose c then .ok ([], c)
    else (parseValue k c).bind fun v =>
      if at? .comma v.2 then (require .comma v.2).bind fun c => (items k c).bind fun r => .ok (v.1 :: r.1, r.2)
      else .ok ([v.1], v.2)

/-- `parseObject` (Reader.os:71-93). -/
def parseObject : Nat → Cursor → Res (Value × Cursor)
  | 0, _ => .fuel
  | k + 1, c => (require .curlyOpen c).bind fun c => (members k c).bind fun r => (require .curlyClose r.2).bind fun c =>
    .ok (.obj r.1, c)

/-- The loop of `parseObject` (Reader.os:76-88). -/
def members : Nat → Cursor → Res (List (Text × Value) × Cursor)
  | 0, _ => .fuel
  | _, [] => .thrown
  | k + 1, t :: c =>
    if t.ty = .curlyClose then .ok ([], t :: c)
    else (next (t :: c)).bind fun c => (require .colon c).bind fun c => (parseValue k c).bind fun v =>
      if at? .comma v.2 then (require .comma v.2).bind fun c => (members k c).bind fun r => .ok ((t.value, v.1) :: r.1, r.2)
      else .ok ([(t.value, v.1)], v.2)

end

/-- `parse` (Reader.os:15-50) of the tokens; `none`: a text without tokens gives the null reference. -/
def parseTokens (k : Nat) : List Tok → Res (Option Value)
  | [] => .ok none
  | t :: r =>
    match t.ty with
    | .bracketOpen => (parseArray k (t :: r)).bind fun v => if at? .bracketClose v.2 then .ok (some v.1) else .thrown
    | .curlyOpen => (parseObject k (t :: r)).bind fun v => if at? .curlyClose v.2 then .ok (some v.1) else .thrown
    | _ => (parseValue k (t :: r)).bind fun v => if v.2.length ≤ 1 then .ok (some v.1) else .thrown

/-- `parse` (Reader.os:15-50). -/
def parse (k : Nat) (text : Text) : Res (Option Value) :=
  match tokens text with
  | none => .thrown
  | some ts => parseTokens k ts

/-! ## Writer -/

/-- `JsonValue.toString` (Value.os:211-223) of a value without members. -/
def leafText : Kind → Text → Text
  | .bool, t => if Str.stringToBool t then "true".toList else "false".toList
  | .string, t => '"' :: (t ++ ['"'])
  | _, t => t

/-- The separator before the next member: a text is true unless it is blank or `false` (Utils/Tools/Strings.cpp:99-110). -/
def separator (members sep : Text) : Text := if Str.stringToBool members then sep else []

mutual

/-- `toString` (Value.os:203-228, Array.os:41-49, Object.os:95-103). -/
def toText : Value → Text
  | .leaf k t => leafText k t
  | .arr l => "[ ".toList ++ itemsText [] l ++ " ]".toList
  | .obj l => "{ ".toList ++ membersText [] l ++ " }".toList

/-- The loop of `JsonArray.toString` (Array.os:44-46). -/
def itemsText (acc : Text) : List Value → Text
  | [] => acc
  | v :: l => itemsText (acc ++ (separator acc ", ".toList ++ toText v)) l

/-- The loop of `JsonObject.toString` (Object.os:98-100). -/
def membersText (acc : Text) : List (Text × Value) → Text
  | [] => acc
  | (k, v) :: l => membersText (acc ++ (separator acc ", ".toList ++ '"' :: (k ++ "\": ".toList ++ toText v))) l

end

/-- The members of the writers (Writer.os:14-19, 83-88). -/
structure Style where
  indents : Nat
  start : Text
  stop : Text

/-- `JsonWriter` (Writer.os:14-19). -/
def plain : Style := ⟨0, [' '], [' ']⟩

/-- `JsonStyledWriter` (Writer.os:83-88). -/
def styled : Style := ⟨3, ['\n'], ['\n']⟩

/-- `indent` (Writer.os:71-73). -/
def Style.indent (s : Style) (level : Nat) : Text := List.replicate (level * s.indents) ' '

mutual

/-- `JsonWriter.toString` (Writer.os:21-68). -/
def write (s : Style) (level : Nat) : Value → Text
  | .leaf k t => leafText k t
  | .arr l => '[' :: (s.start ++ writeItems s (level + 1) [] l ++ s.stop ++ s.indent level ++ [']'])
  | .obj l => '{' :: (s.start ++ writeMembers s (level + 1) [] l ++ s.stop ++ s.indent level ++ ['}'])

/-- The loop over an array (Writer.os:24-34). -/
def writeItems (s : Style) (level : Nat) (acc : Text) : List Value → Text
  | [] => acc
  | v :: l => writeItems s level (acc ++ (separator acc (',' :: s.stop) ++ (s.indent level ++ write s level v))) l

/-- The loop over an object (Writer.os:42-50). -/
def writeMembers (s : Style) (level : Nat) (acc : Text) : List (Text × Value) → Text
  | [] => acc
  | (k, v) :: l => writeMembers s level
      (acc ++ (separator acc (',' :: s.stop) ++ (s.indent level ++ '"' :: (k ++ "\": ".toList ++ write s level v)))) l

end

end Verif.Json
