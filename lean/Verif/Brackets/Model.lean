import Verif.Lex.Model

/-! # Bracket matching, block extraction and the sanity check

Models `Core/Common/Utils.cpp`, `Parser::collectScopeTokens` of `Core/Designtime/Parser/Parser.cpp`,
`TreeGenerator::collectScopeTokens` of `Core/AST/TreeGenerator.cpp` and `Core/Designtime/SanityChecker.cpp`
(paths relative to `/repo/Projects/Core`).  An iterator into a token list is the list of tokens from its position on;
reading at the end of the list is undefined behaviour. -/

namespace Verif.Brackets

open Verif.Lex

/-- The outcome of a search that starts at some position. -/
inductive Find
  /-- The token this many positions ahead. -/
  | at (n : Nat)
  /-- The start position is returned, because the terminator came first. -/
  | gaveUp
  /-- `SyntaxError` is thrown. -/
  | error
  /-- The search runs past the end of the list. -/
  | undefined
  deriving DecidableEq, Repr

/-- `findNext` (`Core/Common/Utils.cpp:23-38`).  The default terminator `NIL`, a type no token has, is `none`. -/
def findNext (ty : Ty) (terminator : Option Ty) : List Tok → Nat → Find
  | [], _ => .undefined
  | t :: ts, n =>
    if t.ty = ty then .at n
    else if some t.ty = terminator then .gaveUp
    else findNext ty terminator ts (n + 1)

/-- `findNextBalancedBracket` (`Core/Common/Utils.cpp:40-67`) and `findNextBalancedParenthesis` (`97-124`), which
differ in the types of the two brackets only.  `limit` is `generateErrorAfter`, `o` counts the open brackets, `n` the
positions. -/
def findBalanced (opn cls : Ty) (limit : Nat) (terminator : Option Ty) : List Tok → Int → Nat → Find
  | [], _, _ => .undefined
  | t :: ts, o, n =>
    if t.ty ≠ cls ∨ o ≠ 0 then
      let o := if t.ty = opn then o + 1 else o
      let o := if t.ty = cls then o - 1 else o
      if some t.ty = terminator then .gaveUp
      else if limit ≠ 0 ∧ n ≥ limit then .error
      else findBalanced opn cls limit terminator ts o (n + 1)
    else .at n

/-- `findNextBalancedCurlyBracket` (`Core/Common/Utils.cpp:69-95`); it knows the end of the list, but only looks at it
while no bracket is open. -/
def findCurly (limit : Nat) (terminator : Option Ty) : List Tok → Int → Nat → Find
  | [], o, n => if o ≠ 0 then .undefined else .at n
  | t :: ts, o, n =>
    if t.ty ≠ .BRACKET_CURLY_CLOSE ∨ o ≠ 0 then
      let o := if t.ty = .BRACKET_CURLY_OPEN then o + 1 else o
      let o := if t.ty = .BRACKET_CURLY_CLOSE then o - 1 else o
      if o = 0 ∧ some t.ty = terminator then .at n
      else if limit ≠ 0 ∧ n ≥ limit then .error
      else findCurly limit terminator ts o (n + 1)
    else .at n

/-- The outcome of extracting a block: the tokens inside and the position afterwards. -/
inductive Block
  | ok (body rest : List Tok)
  | error
  | undefined
  deriving DecidableEq, Repr

/-- The loop of `Parser::collectScopeTokens` (`Core/Designtime/Parser/Parser.cpp:287-298`), from behind the opening
bracket; `acc` holds the collected tokens in reverse. -/
def collectLoop : List Tok → Int → List Tok → Block
  | [], _, _ => .undefined
  | t :: ts, scope, acc =>
    if t.ty ≠ .BRACKET_CURLY_CLOSE ∨ scope > 0 then
      let scope := if t.ty = .BRACKET_CURLY_OPEN then scope + 1 else scope
      let scope := if t.ty = .BRACKET_CURLY_CLOSE then scope - 1 else scope
      collectLoop ts scope (t :: acc)
    else .ok acc.reverse (t :: ts)

/-- `Parser::collectScopeTokens` (`Core/Designtime/Parser/Parser.cpp:280-302`).  The `expect` after the loop always
holds. -/
def collectDesigntime : List Tok → Block
  | [] => .undefined
  | t :: ts => if t.ty ≠ .BRACKET_CURLY_OPEN then .error else collectLoop ts 0 []

/-- `TreeGenerator::collectScopeTokens` (`Core/AST/TreeGenerator.cpp:47-60`): the tokens up to the one before the
closing bracket are copied, then the next one must be a closing curly bracket. -/
def collectTree : List Tok → Block
  | [] => .undefined
  | t :: ts =>
    if t.ty ≠ .BRACKET_CURLY_OPEN then .error
    else match findCurly 0 (some .BRACKET_CURLY_CLOSE) (t :: ts) 0 0 with
      | .at n =>
        -- `bodyEnd` is at `n - 1`; `n` is at least 1 since position 0 holds the opening bracket
        match ts.drop (n - 1) with
        | [] => .undefined
        | c :: rest => if c.ty ≠ .BRACKET_CURLY_CLOSE then .error else .ok (ts.take (n - 1)) (c :: rest)
      | .gaveUp => .undefined
      | .error => .error
      | .undefined => .undefined

/-- `checkBalancedBrackets`, `checkBalancedCurlyBrackets`, `checkBalancedParenthesis`
(`Core/Designtime/SanityChecker.cpp:17-72`): the counter at the end of the loop. -/
def openCount (opn cls : Ty) (ts : List Tok) : Int :=
  ts.foldl (fun o t =>
    let o := if t.ty = opn then o + 1 else o
    if t.ty = cls then o - 1 else o) 0

/-- `SanityChecker::process` (`Core/Designtime/SanityChecker.cpp:91-109`): accepted or rejected.  Tokens of type
`QUOTATION_DOUBLE` are never produced by the tokenizer (they are no `Ty`), so that `checkBalancedQuotes` always holds. -/
def sane (ts : List Tok) : Bool :=
  openCount .BRACKET_OPEN .BRACKET_CLOSE ts == 0 &&
  openCount .BRACKET_CURLY_OPEN .BRACKET_CURLY_CLOSE ts == 0 &&
  openCount .PARENTHESIS_OPEN .PARENTHESIS_CLOSE ts == 0

end Verif.Brackets
