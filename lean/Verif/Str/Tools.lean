import Verif.Str.Std

/-!
# `Utils::Tools` strings (`Projects/Utils/Tools/Strings.cpp`)
-/

namespace Verif.Str

/-- `Utils::Tools::splitBy` (Strings.cpp:72-83): results `p` and `c`.  `substr(0, pos)` with `pos == npos` is
the whole text, and then the sizes are equal.  The calls with `str` and `c` the same variable
(Version.cpp:111-117) behave the same since `c` is only written at the end. -/
def splitBy (str : Text) (splitter : Char) : Text × Text :=
  let pos := findFirstOf [splitter] str
  let p := match pos with
    | none => str
    | some i => str.take i
  if p.length ≠ str.length then
    (p, match pos with
      | none => []            -- not reached
      | some i => (str.drop (i + 1)).take (str.length - i - 1))
  else (p, [])

/-- `Utils::Tools::split` (Strings.cpp:60-70). -/
def split (str : Text) : Text × Text :=
  let pos := findFirstOf ['.'] str
  let p := match pos with
    | none => str
    | some i => str.take i
  if p.length ≠ str.length then
    (p, match pos with
      | none => []            -- not reached
      | some i => (str.drop (i + 1)).take str.length)
  else (p, [])

/-- `stringTrimLeft` (Strings.cpp:159-164): `erase(0, find_first_not_of(t))`, where `npos` erases everything. -/
def trimLeft (source : Text) (t : List Char) : Text :=
  match findFirstNotOf t source with
  | none => []
  | some i => source.drop i

/-- `stringTrimRight` (Strings.cpp:166-171): `erase(find_last_not_of(t) + 1)`, where `npos + 1 == 0`. -/
def trimRight (source : Text) (t : List Char) : Text :=
  match findLastNotOf t source with
  | none => []
  | some i => source.take (i + 1)

/-- `stringTrim` (Strings.cpp:154-157). -/
def trim (source : Text) (t : List Char) : Text := trimLeft (trimRight source t) t

/-- `::tolower` in the "C" locale. -/
def lowerChar (c : Char) : Char := if 'A' ≤ c ∧ c ≤ 'Z' then Char.ofNat (c.toNat + 32) else c

/-- `toLowerCase` (Strings.cpp:174-179). -/
def toLowerCase (s : Text) : Text := s.map lowerChar

/-- `stringToBool` (Strings.cpp:99-110). -/
def stringToBool (s : Text) : Bool :=
  let n := toLowerCase (trim s [' '])
  !n.isEmpty && n != ['\n'] && n != "false".toList

/-- `extract` (Strings.cpp:20-45).  `text.substr(1, length - 2)`; for a text of length one the
unsigned subtraction wraps and `substr(1, huge)` is the empty text. -/
def extract (source : Text) : Text :=
  let strip (q : Char) : Text :=
    if source.head? = some q ∧ source.getLast? = some q then
      (if source.length ≥ 2 then (source.drop 1).take (source.length - 2) else source.drop 1)
    else []
  match source with
  | [] => []
  | c :: _ => if c = '"' then strip '"' else if c = '\'' then strip '\'' else []

/-! ## Integers as text -/

/-- Is `c` a decimal digit? -/
def isDigit (c : Char) : Bool := '0' ≤ c && c ≤ '9'

/-- `isspace` in the "C" locale. -/
def isSpace (c : Char) : Bool := c = ' ' || c = '\t' || c = '\n' || c = '\x0b' || c = '\x0c' || c = '\r'

/-- Value of a digit. -/
def digitVal (c : Char) : Nat := c.toNat - 48

/-- Value of a run of digits, most significant first. -/
def digitsVal (ds : Text) : Nat := ds.foldl (fun acc c => acc * 10 + digitVal c) 0

/-- Clamp to the range of `int64_t`: `num_get` stores the extreme value on overflow. -/
def clamp64 (i : Int) : Int :=
  if i > 9223372036854775807 then 9223372036854775807
  else if i < -9223372036854775808 then -9223372036854775808 else i

/-- `stream >> int64_t` on a fresh variable: skip white space, an optional sign, the longest run of digits;
0 if there is no digit. -/
def streamInt (s : Text) : Int :=
  match s.dropWhile isSpace with
  | [] => 0
  | c :: cs =>
    if c = '-' then clamp64 (-(digitsVal (cs.takeWhile isDigit) : Int))
    else if c = '+' then clamp64 (digitsVal (cs.takeWhile isDigit))
    else clamp64 (digitsVal ((c :: cs).takeWhile isDigit))

/-- `stringToInt` (Strings.cpp:140-152). -/
def stringToInt (s : Text) : Int := if s.isEmpty then 0 else streamInt s

/-- The decimal digit `n` (for `n < 10`). -/
def digitChar (n : Nat) : Char := Char.ofNat (48 + n)

/-- Decimal digits of a natural number. -/
def natDigits (n : Nat) : Text :=
  if n < 10 then [digitChar n] else natDigits (n / 10) ++ [digitChar (n % 10)]

/-- `toString<int>` (Strings.h:46-51, `ss << t`). -/
def intToString (i : Int) : Text := if i < 0 then '-' :: natDigits i.natAbs else natDigits i.natAbs

end Verif.Str
