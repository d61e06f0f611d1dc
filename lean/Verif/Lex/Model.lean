import Verif.Str.Std

/-!
# The tokenizer (`Projects/Core/Core/Designtime/Parser/Tokenizer.cpp`)

Simplifications: of a token's position only the line is kept (file name and column are dropped).
Undefined behaviour (`pop_back` on an empty list) is the outcome `none` of a step.
-/

namespace Verif.Lex

open Verif.Str

/-- `Token::Category::E` (Common/Token.h:25-36). -/
inductive Cat where
  | none | assignment | comparator | constant | keyword | modifier | operator | reservedWord
deriving Repr, DecidableEq

/-- `Token::Type::E` (Common/Token.h:41-118), the values the tokenizer produces or tests. -/
inductive Ty where
  | ACCESS_MODE | AND | ARRAY_SUBSCRIPT | ASSIGN | ASSIGN_ADDITION | ASSIGN_BITAND | ASSIGN_BITCOMPLEMENT | ASSIGN_BITOR
  | ASSIGN_DIVIDE | ASSIGN_MODULO | ASSIGN_MULTIPLY | ASSIGN_SUBTRACT | BRACKET_CLOSE | BRACKET_CURLY_CLOSE
  | BRACKET_CURLY_OPEN | BRACKET_OPEN | BITAND | BITCOMPLEMENT | BITOR | COLON | COMMA | COMPARE_EQUAL
  | COMPARE_EQUAL_CONTENT | COMPARE_LESS | COMPARE_LESS_EQUAL | COMPARE_GREATER | COMPARE_GREATER_EQUAL | COMPARE_UNEQUAL
  | COMPARE_UNEQUAL_CONTENT | CONST_BOOLEAN | CONST_DOUBLE | CONST_FLOAT | CONST_INTEGER | CONST_LITERAL | ENDOFFILE
  | GREATER | IDENTIFIER | KEYWORD | LANGUAGE_FEATURE_STATE | LESS | MATH_ADDITION | MATH_DIVIDE | MATH_MODULO
  | MATH_MULTIPLY | MATH_SUBTRACT | MEMORY_LAYOUT | MODIFIER | MUTABILITY | NAND | NOR | OPERATOR_DECREMENT
  | OPERATOR_INCREMENT | OPERATOR_IS | OPERATOR_NOT | OPERATOR_RANGE | OPERATOR_SCOPE | OPERATOR_SHIFT_LEFT
  | OPERATOR_SHIFT_RIGHT | OR | PARENTHESIS_CLOSE | PARENTHESIS_OPEN | QUESTION_MARK | RESERVED_WORD | SEMICOLON | TILDE
  | UNKNOWN | VISIBILITY
deriving Repr, DecidableEq

/-- `Token` (Common/Token.h:20-161). -/
structure Tok where
  cat : Cat
  ty : Ty
  content : Text
  line : Nat
  optional : Bool
deriving Repr, DecidableEq

/-- `WHITESPACES` and `DELIMITERS` (Tokenizer.cpp:20-22). -/
def whitespaces : List Char := ['\t', '\n', '\r', ' ']
def controlChars : List Char :=
  ['#', '.', ',', ';', ':', '=', '(', ')', '[', ']', '{', '}', '!', '?', '<', '>', '+', '-', '*', '/', '%', '&', '|', '~',
   '\'', '"', ' ']
def delimiters : List Char := controlChars ++ whitespaces

/-- The character 0. -/
abbrev nul : Char := '\x00'

/-- The digits accepted by `isInteger` and its relatives (Tokenizer.cpp:126-247). -/
def isDigitChar (c : Char) : Bool :=
  c = '1' || c = '2' || c = '3' || c = '4' || c = '5' || c = '6' || c = '7' || c = '8' || c = '9' || c = '0'

/-- `isDouble`, `isFloat`, `isIntegerWithType` (Tokenizer.cpp:126-190, 221-247): digits followed by the given letter. -/
def isNumberWith (letter : Char) (t : Text) : Bool :=
  t.length > 1 && t.dropLast.all isDigitChar && t.getLast? == some letter

/-- `isInteger` (Tokenizer.cpp:192-219). -/
def isInteger (t : Text) : Bool := !t.isEmpty && t.all isDigitChar

/-- `isLiteral` (Tokenizer.cpp:259-269). -/
def isLiteral (t : Text) : Bool := t.length > 1 && t.head? == some '"' && t.getLast? == some '"'

/-- Word lists (Consts.h:25-120, Common/Types.cpp:33-151). -/
def accessModes : List Text := ["ref".toList, "val".toList]
def booleans : List Text := ["false".toList, "true".toList]
def keywords : List Text :=
  ["assert".toList, "break".toList, "case".toList, "cast".toList, "catch".toList, "continue".toList, "copy".toList,
   "default".toList, "delete".toList, "else".toList, "exit".toList, "finally".toList, "for".toList, "foreach".toList,
   "if".toList, "new".toList, "print".toList, "return".toList, "streval".toList, "switch".toList, "throw".toList,
   "try".toList, "typeid".toList, "var".toList, "while".toList]
def languageFeatures : List Text := ["deprecated".toList, "notimplemented".toList, "stable".toList, "unstable".toList]
def memoryLayouts : List Text :=
  ["abstract".toList, "final".toList, "override".toList, "static".toList, "virtual".toList]
def modifiers : List Text := ["recursive".toList, "sealed".toList, "throws".toList]
def mutabilities : List Text := ["const".toList, "modify".toList]
def reservedWords : List Text :=
  ["enum".toList, "extends".toList, "implements".toList, "import".toList, "interface".toList, "namespace".toList,
   "object".toList, "operator".toList, "replicates".toList, ".".toList]
def visibilities : List Text := ["private".toList, "protected".toList, "public".toList]

/-- The `default:` branch of `addToken` (Tokenizer.cpp:76-103). -/
def classifyWord (con : Text) : Cat × Ty × Text × Bool :=
  if con = "is".toList then (.operator, .OPERATOR_IS, con, false)
  else if con = "..".toList then (.operator, .OPERATOR_RANGE, con, false)
  else if con ∈ accessModes then (.modifier, .ACCESS_MODE, con, false)
  else if con ∈ booleans then (.constant, .CONST_BOOLEAN, con, false)
  else if isNumberWith 'd' con then (.constant, .CONST_DOUBLE, con.take (con.length - 1), false)
  else if isNumberWith 'f' con then (.constant, .CONST_FLOAT, con.take (con.length - 1), false)
  else if isNumberWith 'i' con then (.constant, .CONST_INTEGER, con.take (con.length - 1), false)
  else if isInteger con then (.constant, .CONST_INTEGER, con, false)
  else if con ∈ keywords then (.keyword, .KEYWORD, con, false)
  else if con ∈ languageFeatures then (.modifier, .LANGUAGE_FEATURE_STATE, con, true)
  else if isLiteral con then (.constant, .CONST_LITERAL, (con.drop 1).take (con.length - 2), false)
  else if con ∈ memoryLayouts then (.modifier, .MEMORY_LAYOUT, con, true)
  else if con ∈ modifiers then (.modifier, .MODIFIER, con, true)
  else if con ∈ mutabilities then (.modifier, .MUTABILITY, con, true)
  else if con ∈ reservedWords then (.reservedWord, .RESERVED_WORD, con, false)
  else if con ∈ visibilities then (.modifier, .VISIBILITY, con, true)
  else (.none, .IDENTIFIER, con, false)

/-- The `switch` of `addToken` (Tokenizer.cpp:45-103); `none` when no token is added. -/
def classify (con : Text) : Option (Cat × Ty × Text × Bool) :=
  match con.head? with
  | some ' ' => none
  | some '\n' => none
  | some '\r' => none
  | some '\t' => none
  | some ';' => some (.none, .SEMICOLON, con, false)
  | some ':' => some (.none, .COLON, con, false)
  | some '.' => some (.none, .OPERATOR_SCOPE, con, false)
  | some ',' => some (.none, .COMMA, con, false)
  | some '{' => some (.none, .BRACKET_CURLY_OPEN, con, false)
  | some '}' => some (.none, .BRACKET_CURLY_CLOSE, con, false)
  | some '[' => some (.none, .BRACKET_OPEN, con, false)
  | some ']' => some (.none, .BRACKET_CLOSE, con, false)
  | some '(' => some (.none, .PARENTHESIS_OPEN, con, false)
  | some ')' => some (.none, .PARENTHESIS_CLOSE, con, false)
  | some '=' => some (.assignment, .ASSIGN, con, false)
  | some '<' => some (.operator, .COMPARE_LESS, con, false)
  | some '>' => some (.operator, .COMPARE_GREATER, con, false)
  | some '&' => some (.operator, .BITAND, con, false)
  | some '|' => some (.operator, .BITOR, con, false)
  | some '+' => some (.operator, .MATH_ADDITION, con, false)
  | some '/' => some (.operator, .MATH_DIVIDE, con, false)
  | some '%' => some (.operator, .MATH_MODULO, con, false)
  | some '*' => some (.operator, .MATH_MULTIPLY, con, false)
  | some '-' => some (.operator, .MATH_SUBTRACT, con, false)
  | some '?' => some (.operator, .QUESTION_MARK, con, false)
  | some '!' => some (.operator, .OPERATOR_NOT, con, false)
  | some '~' => some (.operator, .TILDE, con, false)
  | _ => some (classifyWord con)

/-- The token list that `addToken(con, pos)` appends (Tokenizer.cpp:38-106): none or one. -/
def mk (con : Text) (line : Nat) : List Tok :=
  match classify con with
  | none => []
  | some (c, t, s, o) => [⟨c, t, s, line, o⟩]

/-- Local variables of `Tokenizer::process` (Tokenizer.cpp:403-415) and the token list. -/
structure St where
  tokens : List Tok
  tok : Text
  esc : Bool
  multi : Bool
  single : Bool
  str : Bool
  prev : Char
  line : Nat
deriving Repr, DecidableEq

/-- Initial state (Tokenizer.cpp:403-415). -/
def St.init : St := ⟨[], [], false, false, false, false, nul, 1⟩

/-- The comment openers (Tokenizer.cpp:420-436).  `pop_back` on an empty list is undefined. -/
def openComment (s : St) (c : Char) : Option St :=
  let outside := !s.multi && !s.single && !s.str
  if outside && c == '#' then some { s with single := true }
  else if outside && s.prev == '/' && c == '/' then
    (if s.tokens.isEmpty then none else some { s with single := true, tokens := s.tokens.dropLast })
  else if outside && s.prev == '/' && c == '*' then
    (if s.tokens.isEmpty then none else some { s with multi := true, tokens := s.tokens.dropLast })
  else some s

/-- Reading a character outside of comments (Tokenizer.cpp:438-476): the new state and `currentChar` afterwards. -/
def readChar (s : St) (c : Char) : St × Char :=
  if s.esc then ({ s with tok := s.tok ++ [c], esc := false }, nul)
  else
    let str' := if c == '"' then !s.str else s.str
    let esc' := c != '"' && s.str && c == '\\'
    let s := { s with str := str', esc := esc' }
    if !s.esc && c != nul then
      if !s.str && delimiters.contains c then
        let (s, c) :=
          if !s.tok.isEmpty then
            let (tok, c) := if c == '"' then (s.tok ++ [c], nul) else (s.tok, c)
            ({ s with tokens := s.tokens ++ mk tok s.line, tok := [] }, c)
          else (s, c)
        if c != nul then ({ s with tokens := s.tokens ++ mk [c] s.line }, c) else (s, c)
      else ({ s with tok := s.tok ++ [c] }, c)
    else (s, c)

/-- The end of the loop body (Tokenizer.cpp:478-494): end of a block comment, line counting, last character. -/
def endChar (s : St) (c : Char) : St :=
  let s := if s.multi && s.prev == '*' && c == '/' then { s with multi := false } else s
  if c == '\n' then { s with single := false, line := s.line + 1, prev := nul }
  else { s with prev := c }

/-- One round of the loop (Tokenizer.cpp:417-495). -/
def step (s : St) (c : Char) : Option St :=
  (openComment s c).map fun s =>
    let (s, c) := if !s.multi && !s.single then readChar s c else (s, c)
    endChar s c

/-- The loop over a piece of text. -/
def run (s : St) : Text → Option St
  | [] => some s
  | c :: cs => (step s c).bind fun s => run s cs

/-- The end-of-file token (Tokenizer.cpp:501): default position, line 0. -/
def eof : Tok := ⟨.none, .ENDOFFILE, [], 0, false⟩

/-- `process` up to the merging passes (Tokenizer.cpp:401-501).  The loop also reads the terminating 0 character
(`offset <= size`).  After it `previousChar` is 0 in every case, so lines 497-499 never add a token. -/
def rawTokens (src : Text) : Option (List Tok) :=
  (run St.init (src ++ [nul])).map fun s =>
    (if s.prev != nul then s.tokens ++ mk s.tok s.line else s.tokens) ++ [eof]

/-! ## The merging passes -/

/-- `mergeAssignments` (Tokenizer.cpp:510-643): which pairs become one token. -/
def assignRule : Ty → Ty → Option (Cat × Ty × Text)
  | .ASSIGN, .ASSIGN => some (.comparator, .COMPARE_EQUAL, "==".toList)
  | .COMPARE_EQUAL, .ASSIGN => some (.comparator, .COMPARE_EQUAL_CONTENT, "===".toList)
  | .COMPARE_UNEQUAL, .ASSIGN => some (.comparator, .COMPARE_UNEQUAL_CONTENT, "!==".toList)
  | .BITAND, .ASSIGN => some (.assignment, .ASSIGN_BITAND, "&=".toList)
  | .BITCOMPLEMENT, .ASSIGN => some (.assignment, .ASSIGN_BITCOMPLEMENT, "~=".toList)
  | .BITOR, .ASSIGN => some (.assignment, .ASSIGN_BITOR, "|=".toList)
  | .OPERATOR_NOT, .ASSIGN => some (.comparator, .COMPARE_UNEQUAL, "!=".toList)
  | .GREATER, .ASSIGN => some (.comparator, .COMPARE_GREATER_EQUAL, ">=".toList)
  | .COMPARE_GREATER, .ASSIGN => some (.comparator, .COMPARE_GREATER_EQUAL, ">=".toList)
  | .LESS, .ASSIGN => some (.comparator, .COMPARE_LESS_EQUAL, "<=".toList)
  | .COMPARE_LESS, .ASSIGN => some (.comparator, .COMPARE_LESS_EQUAL, "<=".toList)
  | .MATH_ADDITION, .ASSIGN => some (.assignment, .ASSIGN_ADDITION, "+=".toList)
  | .MATH_DIVIDE, .ASSIGN => some (.assignment, .ASSIGN_DIVIDE, "/=".toList)
  | .MATH_MODULO, .ASSIGN => some (.assignment, .ASSIGN_MODULO, "*=".toList)
  | .MATH_MULTIPLY, .ASSIGN => some (.assignment, .ASSIGN_MULTIPLY, "*=".toList)
  | .MATH_SUBTRACT, .ASSIGN => some (.assignment, .ASSIGN_SUBTRACT, "-=".toList)
  | _, _ => none

/-- `mergeOperators` (Tokenizer.cpp:298-399): which pairs become one token. -/
def operatorRule : Ty → Ty → Option (Cat × Ty × Text)
  | .BITAND, .BITAND => some (.operator, .AND, "&&".toList)
  | .BITOR, .BITOR => some (.operator, .OR, "||".toList)
  | .OPERATOR_NOT, .BITAND => some (.operator, .NAND, "!&".toList)
  | .OPERATOR_NOT, .BITOR => some (.operator, .NOR, "!|".toList)
  | .OPERATOR_SCOPE, .OPERATOR_SCOPE => some (.operator, .OPERATOR_RANGE, "..".toList)
  | .MATH_SUBTRACT, .MATH_SUBTRACT => some (.operator, .OPERATOR_DECREMENT, "--".toList)
  | .MATH_ADDITION, .MATH_ADDITION => some (.operator, .OPERATOR_INCREMENT, "++".toList)
  | .COMPARE_LESS, .COMPARE_LESS => some (.operator, .OPERATOR_SHIFT_LEFT, "<<".toList)
  | .COMPARE_GREATER, .COMPARE_GREATER => some (.operator, .OPERATOR_SHIFT_RIGHT, ">>".toList)
  | .BRACKET_OPEN, .BRACKET_CLOSE => some (.operator, .ARRAY_SUBSCRIPT, "[]".toList)
  | _, _ => none

/-- The common loop of both passes: `tmp` is held in reverse; `lastType` is the type of its last token. -/
def mergeLoop (rule : Ty → Ty → Option (Cat × Ty × Text)) : List Tok → List Tok → List Tok
  | tmp, [] => tmp.reverse
  | [], t :: ts => mergeLoop rule [t] ts
  | l :: tmp, t :: ts =>
    match rule l.ty t.ty with
    | some (c, ty, s) => mergeLoop rule (⟨c, ty, s, t.line, false⟩ :: tmp) ts
    | none => mergeLoop rule (t :: l :: tmp) ts

def mergeAssignments (ts : List Tok) : List Tok := mergeLoop assignRule [] ts
def mergeOperators (ts : List Tok) : List Tok := mergeLoop operatorRule [] ts

/-- The patterns of `replaceConstDataTypesPatternMatching` (Tokenizer.cpp:784-815). -/
def constPatterns : List (List Ty) :=
  [[.CONST_INTEGER, .OPERATOR_SCOPE, .CONST_DOUBLE], [.CONST_INTEGER, .OPERATOR_SCOPE, .CONST_FLOAT],
   [.CONST_INTEGER, .OPERATOR_SCOPE, .CONST_INTEGER], [.CONST_INTEGER, .OPERATOR_SCOPE, .IDENTIFIER],
   [.CONST_INTEGER, .IDENTIFIER]]

/-- `std::search` for a pattern of types: the tokens before, and from the first match on. -/
def searchPattern (p : List Ty) : List Tok → Option (List Tok × List Tok)
  | [] => if p.isEmpty then some ([], []) else none
  | t :: ts =>
    if p.isPrefixOf ((t :: ts).map Tok.ty) then some ([], t :: ts)
    else (searchPattern p ts).map fun (a, b) => (t :: a, b)

/-- The first pattern of the list that occurs anywhere (Tokenizer.cpp:821-831): number of tokens to combine, the tokens
before the match, and those from the match on. -/
def findPattern (ps : List (List Ty)) (ts : List Tok) : Option (Nat × List Tok × List Tok) :=
  match ps with
  | [] => none
  | p :: ps =>
    match searchPattern p ts with
    | some (a, b) => some (p.length - 1, a, b)
    | none => findPattern ps ts

/-- Combining `n` tokens into the first (Tokenizer.cpp:843-868); `none` is the thrown `SyntaxError`. -/
def combine : Nat → Tok → List Tok → Option (Tok × List Tok)
  | 0, op, ts => some (op, ts)
  | _ + 1, op, [] => some (op, [])            -- not reached: the pattern matched
  | n + 1, op, t :: ts =>
    if t.ty = .IDENTIFIER then
      if t.content = ['d'] then combine n { op with ty := .CONST_DOUBLE } ts
      else if t.content = ['f'] then combine n { op with ty := .CONST_FLOAT } ts
      else if t.content = ['i'] then none
      else combine n { op with content := op.content ++ t.content } ts
    else if t.ty = .CONST_DOUBLE then combine n { op with ty := .CONST_DOUBLE, content := op.content ++ t.content } ts
    else if t.ty = .CONST_FLOAT then combine n { op with ty := .CONST_FLOAT, content := op.content ++ t.content } ts
    else if t.ty = .CONST_INTEGER then none
    else combine n { op with content := op.content ++ t.content } ts

/-- Result of the whole tokenizer. -/
inductive LexRes where
  | ok (ts : List Tok)
  | syntaxError
  | undefined
deriving Repr, DecidableEq

/-- `replaceConstDataTypesPatternMatching` (Tokenizer.cpp:780-877).  Every round removes a token, so as many rounds as
there are tokens are enough (`fuel`). -/
def replaceConsts : Nat → List Tok → LexRes
  | 0, ts => .ok ts
  | fuel + 1, ts =>
    match findPattern constPatterns ts with
    | none => .ok ts
    | some (_, _, []) => .ok ts               -- not reached: a match is not empty
    | some (n, pre, op :: rest) =>
      match combine n op rest with
      | none => .syntaxError
      | some (op', rest') => replaceConsts fuel (pre ++ op' :: rest')

/-- `replaceOperators` (Tokenizer.cpp:882-913); the processed tokens are held in reverse, the first of them is `last`. -/
def replaceOps : List Tok → List Tok → List Tok
  | done, [] => done.reverse
  | [], t :: ts => replaceOps [t] ts
  | last :: done, t :: ts =>
    if (last.cat = .assignment ∨ last.cat = .operator) ∧ t.ty = .RESERVED_WORD ∧ t.content = "operator".toList then
      replaceOps ({ t with ty := .IDENTIFIER, content := last.content ++ "operator".toList } :: done) ts
    else if last.ty = .RESERVED_WORD ∧ last.content = "operator".toList then
      replaceOps ({ t with ty := .IDENTIFIER, content := "operator".toList ++ t.content } :: done) ts
    else replaceOps (t :: last :: done) ts

/-- The passes at the end of `process` (Tokenizer.cpp:503-507). -/
def passes (ts : List Tok) : LexRes :=
  let ts := mergeOperators (mergeAssignments ts)
  match replaceConsts ts.length ts with
  | .ok ts => .ok (replaceOps [] ts)
  | r => r

/-- `Tokenizer::process` and `tokens` (Tokenizer.cpp:401-508, 915-918). -/
def tokenize (src : Text) : LexRes :=
  match rawTokens src with
  | none => .undefined
  | some ts => passes ts

end Verif.Lex
