import Verif.Lex.Model

/-!
# Specification: what a source text consists of

A source text is described as a list of pieces: words, symbols, blanks, string literals and comments.
`render` writes the text; `expect` says which tokens that text has to produce and on which lines.
-/

namespace Verif.Lex

open Verif.Str

/-- A character of a string literal: written as it is, or with a backslash in front. -/
structure StrChar where
  escaped : Bool
  char : Char
deriving Repr, DecidableEq

inductive Piece where
  | word (w : Text)
  | sym (c : Char)
  | blank (c : Char)
  | literal (cs : List StrChar)
  | hash (t : Text)       -- from '#' to the end of the line
  | slashes (t : Text)    -- from '//' to the end of the line
  | block (t : Text)      -- from '/*' to '*/'
deriving Repr, DecidableEq

/-- How a literal is written between its quotation marks. -/
def renderStr (cs : List StrChar) : Text :=
  cs.flatMap fun x => if x.escaped then ['\\', x.char] else [x.char]

/-- The source text of a piece. -/
def Piece.render : Piece → Text
  | .word w => w
  | .sym c => [c]
  | .blank c => [c]
  | .literal cs => '"' :: (renderStr cs ++ ['"'])
  | .hash t => '#' :: (t ++ ['\n'])
  | .slashes t => '/' :: '/' :: (t ++ ['\n'])
  | .block t => '/' :: '*' :: (t ++ ['*', '/'])

def render (ps : List Piece) : Text := ps.flatMap Piece.render

/-- Symbols: the delimiters other than blanks, quotation mark and '#'. -/
def symbols : List Char :=
  ['.', ',', ';', ':', '=', '(', ')', '[', ']', '{', '}', '!', '?', '<', '>', '+', '-', '*', '/', '%', '&', '|', '~', '\'']

/-- `t` does not contain the end of a block comment. -/
def NoClose : Text → Prop
  | [] => True
  | [_] => True
  | a :: b :: t => ¬ (a = '*' ∧ b = '/') ∧ NoClose (b :: t)

/-- The piece is properly written by itself. -/
def Piece.Ok : Piece → Prop
  | .word w => w ≠ [] ∧ ∀ c ∈ w, c ∉ delimiters ∧ c ≠ nul
  | .sym c => c ∈ symbols
  | .blank c => c ∈ whitespaces
  | .literal cs => ∀ x ∈ cs, x.escaped = true ∨ (x.char ≠ '"' ∧ x.char ≠ '\\' ∧ x.char ≠ nul)
  | .hash t => '\n' ∉ t
  | .slashes t => '\n' ∉ t
  | .block t => NoClose ('*' :: t)

/-- `q` may be written directly after `p` (`none`: at the beginning of the text): a word has to be followed by a symbol,
a blank or a comment starting with '/'; after a slash no second slash and no star may follow. -/
def Follows : Option Piece → Piece → Prop
  | some (.word _), .word _ => False
  | some (.word _), .literal _ => False
  | some (.word _), .hash _ => False
  | some (.sym c), .sym d => ¬ (c = '/' ∧ (d = '/' ∨ d = '*'))
  | some (.sym c), .slashes _ => c ≠ '/'
  | some (.sym c), .block _ => c ≠ '/'
  | some (.block _), .sym d => d ≠ '/' ∧ d ≠ '*'
  | some (.block _), .slashes _ => False
  | some (.block _), .block _ => False
  | _, _ => True

/-- The pieces are properly written one after the other and the text does not end within a word. -/
def WellFormed : Option Piece → List Piece → Prop
  | some (.word _), [] => False
  | _, [] => True
  | p, q :: ps => q.Ok ∧ Follows p q ∧ WellFormed (some q) ps

/-- Number of line ends that are counted while reading the piece: all but those that are escaped within a literal. -/
def Piece.lines : Piece → Nat
  | .literal cs => (cs.filter fun x => !x.escaped && x.char == '\n').length
  | p => p.render.count '\n'

/-- The tokens a piece has to produce when it begins on line `l`. -/
def Piece.expect (l : Nat) : Piece → List Tok
  | .word w => mk w l
  | .sym c => mk [c] l
  | .blank _ => []
  | .literal cs => [⟨.constant, .CONST_LITERAL, cs.map StrChar.char, l + (Piece.literal cs).lines, false⟩]
  | .hash _ => []
  | .slashes _ => []
  | .block _ => []

/-- The tokens a text has to produce. -/
def expect : Nat → List Piece → List Tok
  | _, [] => []
  | l, p :: ps => p.expect l ++ expect (l + p.lines) ps

end Verif.Lex
