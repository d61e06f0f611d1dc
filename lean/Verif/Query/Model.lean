import Verif.Csv.Model
import Verif.Str.Tools

/-!
# Queries over tables (`Projects/Library/csvDB`)

`Tokenizer.os` and `QueryExecutor.os` on top of the models of `CharacterIterator` (`Verif/Text/Model.lean`) and of the table reader
(`Verif/Csv/Model.lean`).  The positions of tokens, which occur only in the texts of exceptions, are left out.
-/

namespace Verif.Query

open Verif.Str Verif.Text

/-- `TokenType` (Token.os:8-48): the values the tokenizer uses. -/
inductive Kind where
  | and | assign | boolean | colon | comma | dot | else | eof | explain | from | greater | greaterEqual | identifier | if | integer | limit
  | less | lessEqual | lparen | mathDivide | mathMinus | mathMultiply | mathPlus | or | rparen | select | semicolon | string | then
  | unequal | where
  deriving DecidableEq, Repr

/-- `Token` (Token.os:96-118) without its position. -/
structure Tok where
  kind : Kind
  value : Text
  deriving DecidableEq, Repr

/-- `CHARS` (Tokenizer.os:12). -/
def chars : Text := "ABCDEFGHIJKLMNOPRSTUVWXYZabcdefghijklmnoprstuvwxyz_".toList

/-- `DIGITS` (Tokenizer.os:13). -/
def digits : Text := "0123456789".toList

/-- `WHITESPACES` (Tokenizer.os:34-36), with `LINEBREAK_DOS` and `LINEBREAK_UNIX` (StringsExtension.cpp:63-75). -/
def whitespaces : Text := " \t\r\n\n".toList

/-- `RESERVED_WORDS` (Tokenizer.os:16-32). -/
def reservedWords : List Tok :=
  [⟨.and, "AND".toList⟩, ⟨.boolean, "FALSE".toList⟩, ⟨.boolean, "TRUE".toList⟩, ⟨.else, "ELSE".toList⟩, ⟨.explain, "EXPLAIN".toList⟩,
   ⟨.from, "FROM".toList⟩, ⟨.if, "IF".toList⟩, ⟨.limit, "LIMIT".toList⟩, ⟨.or, "OR".toList⟩, ⟨.select, "SELECT".toList⟩,
   ⟨.then, "THEN".toList⟩, ⟨.where, "WHERE".toList⟩]

/-- `String.Contains`, which raises no exception (`extStrfind` gives `.ok` always), as `isCharacter`, `isDigit` and `isWhiteSpace`
(Tokenizer.os:212-222) use it. -/
def member (set c : Text) : Bool := decide (contains (newString set) c = .ok true)

/-- `isCharacter` (Tokenizer.os:212-214). -/
def isCharacter (c : Text) : Bool := member chars c

/-- `isDigit` (Tokenizer.os:216-218). -/
def isDigit (c : Text) : Bool := member digits c

/-- `isWhiteSpace` (Tokenizer.os:220-222). -/
def isWhiteSpace (c : Text) : Bool := member whitespaces c

/-- `peek` (Tokenizer.os:224-228). -/
def peek (it : CharIter) (pos : Int := 1) : Text :=
  match it.peek pos with
  | .ok c => c
  | .exception => []

/-- `consume()` (Tokenizer.os:56-75) of one character. -/
def consume (it : CharIter) : Ext (Text × CharIter) :=
  match it.next with
  | (.exception, _) => .exception
  | (.ok _, it') =>
    match it'.current with
    | .exception => .exception
    | .ok c => .ok (c, it')

/-- `consume( 2 )` (Tokenizer.os:56-75). -/
def consume2 (it : CharIter) : Ext (Text × CharIter) :=
  match consume it with
  | .exception => .exception
  | .ok (c, it') =>
    match consume it' with
    | .exception => .exception
    | .ok (d, it'') => .ok (c ++ d, it'')

/-- The loops `while ( cond( peek() ) ) result += consume();` of `getDigit`, `getID` and of a quoted text (Tokenizer.os:84-86, 96-98, 134-136).
`none`: the rounds do not suffice. -/
def takeWhile (cond : Text → Bool) : Nat → CharIter → Text → Option (Ext (Text × CharIter))
  | 0, _, _ => none
  | fuel + 1, it, result =>
    if cond (peek it) then
      match consume it with
      | .exception => some .exception
      | .ok (c, it') => takeWhile cond fuel it' (result ++ c)
    else some (.ok (result, it))

/-- The condition of the loop of `getID` (Tokenizer.os:96). -/
def inName (c : Text) : Bool := stringToBool c && (isCharacter c || isDigit c)

/-- The condition of the loop of a quoted text (Tokenizer.os:134). -/
def inText (c : Text) : Bool := decide (c ≠ ['"'])

/-- The end of `getID` (Tokenizer.os:103-109).  `toUpper` gets letters, digits and underlines only (see C170). -/
def nameToken (result : Text) : Tok :=
  match reservedWords.find? (fun t => t.value = result.map Char.toUpper) with
  | some t => t
  | none => ⟨.identifier, result⟩

/-- A token of one character or two (Tokenizer.os:146-200). -/
def symbol (k : Kind) : Ext (Text × CharIter) → Option (Ext (Option Tok × CharIter))
  | .exception => some .exception
  | .ok (v, it) => some (.ok (some ⟨k, v⟩, it))

/-- What is made of the text a loop has collected. -/
def collected (f : Text → Tok) : Option (Ext (Text × CharIter)) → Option (Ext (Option Tok × CharIter))
  | none => none
  | some .exception => some .exception
  | some (.ok (v, it)) => some (.ok (some (f v), it))

/-- The part of `getNextToken` for a quoted text (Tokenizer.os:127-141). -/
def quoted (fuel : Nat) (it : CharIter) : Option (Ext (Option Tok × CharIter)) :=
  match consume it with
  | .exception => some .exception
  | .ok (_, it1) =>
    match takeWhile inText fuel it1 [] with
    | none => none
    | some .exception => some .exception
    | some (.ok (v, it2)) =>
      match consume it2 with
      | .exception => some .exception
      | .ok (_, it3) => some (.ok (some ⟨.string, v⟩, it3))

/-- `getNextToken` (Tokenizer.os:112-206).  The first argument bounds the rounds of the loop, the second those of the loops in it. -/
def getNextToken : Nat → Nat → CharIter → Option (Ext (Option Tok × CharIter))
  | 0, _, _ => none
  | rounds + 1, fuel, it =>
    let c := peek it
    if c = [] then some (.ok (none, it))
    else if isCharacter c then collected nameToken (takeWhile inName fuel it [])
    else if isDigit c then collected (⟨.integer, ·⟩) (takeWhile isDigit fuel it [])
    else if isWhiteSpace c then
      match consume it with
      | .exception => some .exception
      | .ok (_, it') => getNextToken rounds fuel it'
    else if c = ['"'] then quoted fuel it
    else if c = ['='] then symbol .assign (consume it)
    else if c = [':'] then symbol .colon (consume it)
    else if c = [';'] then symbol .semicolon (consume it)
    else if c = [','] then symbol .comma (consume it)
    else if c = ['.'] then symbol .dot (consume it)
    else if c = ['<'] ∧ peek it 2 = ['>'] then symbol .unequal (consume2 it)
    else if c = ['<'] ∧ peek it 2 = ['='] then symbol .lessEqual (consume2 it)
    else if c = ['<'] then symbol .less (consume it)
    else if c = ['>'] ∧ peek it 2 = ['='] then symbol .greaterEqual (consume2 it)
    else if c = ['>'] then symbol .greater (consume it)
    else if c = ['+'] then symbol .mathPlus (consume it)
    else if c = ['-'] then symbol .mathMinus (consume it)
    else if c = ['*'] then symbol .mathMultiply (consume it)
    else if c = ['/'] then symbol .mathDivide (consume it)
    else if c = ['('] then symbol .lparen (consume it)
    else if c = [')'] then symbol .rparen (consume it)
    else some .exception

/-- The last token (Tokenizer.os:51); `EOF` is -1. -/
def eof : Tok := ⟨.eof, "-1".toList⟩

/-- The loop of `parse` (Tokenizer.os:47-53). -/
def parseLoop (fuel : Nat) : Nat → CharIter → List Tok → Option (Ext (List Tok))
  | 0, _, _ => none
  | rounds + 1, it, tokens =>
    match getNextToken fuel fuel it with
    | none => none
    | some .exception => some .exception
    | some (.ok (none, _)) => some (.ok (tokens ++ [eof]))
    | some (.ok (some t, it')) => parseLoop fuel rounds it' (tokens ++ [t])

/-- `parse` (Tokenizer.os:39-54), with more rounds than the query has characters. -/
def parse (query : Text) : Option (Ext (List Tok)) := parseLoop (query.length + 3) (query.length + 3) (CharIter.new query) []

/-! ## The queries -/

/-- What running a query does: it prints a text, or raises an exception. -/
inductive Out where
  | prints (t : Text)
  | exception
  deriving DecidableEq, Repr

/-- `consume` (QueryExecutor.os:190-194) when `pos` tokens have been taken: the next one, or null. -/
def nextTok (tokens : List Tok) (pos : Nat) : Option Tok := tokens[pos]?

/-- `peek` (QueryExecutor.os:214-218) when `pos > 0` tokens have been taken.  `Iterator.peek( 1 )` goes two elements on from the current one
(Iterator.os:60-79, see C133), that is, it leaves out the token that would be taken next; null behind the end. -/
def peekTok (tokens : List Tok) (pos : Nat) : Option Tok := tokens[pos + 1]?

/-- `expandTableName` (QueryExecutor.os:13-19). -/
def expandTableName (table : Text) : Text :=
  if extStrfind table ".csv".toList 0 = .ok (-1) then table ++ ".csv".toList else table

/-- `Row.=operator( string )` (Row.os:23-35): the loop over the entries. -/
def rowText : Text → List Text → Text
  | result, [] => result
  | result, entry :: entries => rowText ((if stringToBool result then result ++ " | ".toList else result) ++ entry) entries

/-- `explainTable` (QueryExecutor.os:62-70).  `files` gives the content of a file, if there is one. -/
def explainTable (files : Text → Option Text) (tokens : List Tok) (pos : Nat) : Option Out :=
  match nextTok tokens pos with
  | none => some .exception
  | some t =>
    if t.kind = .identifier then
      match files (expandTableName t.value) with
      | none => some .exception
      | some content =>
        match Csv.new content true with
        | none => none
        | some .exception => some .exception
        | some (.ok []) => some .exception
        | some (.ok (row :: _)) => some (.prints (rowText [] row))
    else some .exception

/-- The tokens that begin another round of the loop over the columns (QueryExecutor.os:77-78). -/
def isColumn (t : Tok) : Bool := t.kind = .identifier || t.kind = .string || t.kind = .mathMultiply

/-- The loop over the columns (QueryExecutor.os:77-83): the names and the number of tokens taken; the inner `none` is an exception (a member of
null), the outer one: the rounds do not suffice. -/
def columnLoop (tokens : List Tok) : Nat → Nat → List Text → Option (Option (List Text × Nat))
  | 0, _, _ => none
  | rounds + 1, pos, names =>
    match peekTok tokens pos with
    | none => some (some (names, pos))
    | some t =>
      if isColumn t then
        match nextTok tokens pos with
        | none => some none
        | some column =>
          match peekTok tokens (pos + 1) with
          | none => some none
          | some t' => columnLoop tokens rounds (if t'.kind = .comma then pos + 2 else pos + 1) (names ++ [column.value])
      else some (some (names, pos))

/-- `parseQuery` (QueryExecutor.os:72-184).  What comes behind the word FROM (91-183) is a parameter: it gets the names of the columns and the
number of tokens taken. -/
def parseQuery (rest : List Text → Nat → Option Out) (tokens : List Tok) (pos : Nat) : Option Out :=
  match columnLoop tokens (tokens.length + 1) pos [] with
  | none => none
  | some none => some .exception
  | some (some ([], _)) => some .exception
  | some (some (name :: names, pos)) =>
    match nextTok tokens pos with
    | none => some .exception
    | some t => if t.kind = .from then rest (name :: names) (pos + 1) else some .exception

/-- `exec` (QueryExecutor.os:38-60). -/
def exec (files : Text → Option Text) (rest : List Tok → List Text → Nat → Option Out) (query : Text) : Option Out :=
  match parse query with
  | none => none
  | some .exception => some .exception
  | some (.ok tokens) =>
    match nextTok tokens 0 with
    | none => some .exception
    | some t =>
      if t.value = "EXPLAIN".toList then explainTable files tokens 1
      else if t.value = "SELECT".toList then parseQuery (rest tokens) tokens 1
      else some (.prints ("invalid token '".toList ++ t.value ++ "'".toList))

end Verif.Query
