import Verif.Lex.Spec
import Verif.Ints.Props
import Verif.Str.Tools

/-!
# What a formula means

Formulas as in a textbook: numbers, variables, the four operations and the remainder, comparisons, and conditions joined by
`&&` and `||`.  `value` and `truth` say what a formula stands for; `SpellsNum` and `SpellsCond` say how it may be written,
with redundant parentheses, and `Laid` says how a formula may be laid out as text, with blanks, line ends and comments anywhere
between the marks.  Nothing here refers to the tokenizer's, the parser's or the interpreter's model.
-/

namespace Verif.Calc

open Verif.Str (Text)
open Verif.Ints (Op)

/-- A formula that stands for a number. -/
inductive Num where
  | num (k : Nat)
  | var (n : Text)
  | neg (a : Num)
  | bin (op : Op) (a b : Num)
deriving Repr, DecidableEq

/-- The relations. -/
inductive Rel where
  | lt | le | gt | ge | eq | ne
deriving Repr, DecidableEq

/-- A formula that is true or false. -/
inductive Cond where
  | cmp (r : Rel) (a b : Num)
  | flag (n : Text)
  | const (b : Bool)
  | not (c : Cond)
  | and (c d : Cond)
  | or (c d : Cond)
deriving Repr, DecidableEq

/-- A result that has to be a 32-bit number. -/
def inRange (i : Int) : Option Int := if -2147483648 ≤ i ∧ i ≤ 2147483647 then some i else none

/-- The operations on numbers: exact, truncating division.  No value: results that do not fit 32 bits, division by zero, and the
remainder of a division whose quotient does not fit. -/
def apply : Op → Int → Int → Option Int
  | .add, x, y => inRange (x + y)
  | .sub, x, y => inRange (x - y)
  | .mul, x, y => inRange (x * y)
  | .div, x, y => if y = 0 then none else inRange (x.tdiv y)
  | .mod, x, y => if y = 0 then none else (inRange (x.tdiv y)).map fun q => x - y * q

/-- The number a formula stands for, if every intermediate result exists. -/
def value (σ : Text → Int) : Num → Option Int
  | .num k => some k
  | .var n => some (σ n)
  | .neg a => (value σ a).bind fun x => inRange (-x)
  | .bin op a b => (value σ a).bind fun x => (value σ b).bind fun y => apply op x y

/-- The relations on numbers. -/
def Rel.holds : Rel → Int → Int → Bool
  | .lt, x, y => decide (x < y)
  | .le, x, y => decide (x ≤ y)
  | .gt, x, y => decide (x > y)
  | .ge, x, y => decide (x ≥ y)
  | .eq, x, y => decide (x = y)
  | .ne, x, y => decide (x ≠ y)

/-- Whether a condition is true.  The right side of `&&` and `||` counts only if the left side does not decide. -/
def truth (σ : Text → Int) (φ : Text → Bool) : Cond → Option Bool
  | .cmp r a b => (value σ a).bind fun x => (value σ b).bind fun y => some (r.holds x y)
  | .flag n => some (φ n)
  | .const b => some b
  | .not c => (truth σ φ c).bind fun x => some (!x)
  | .and c d => (truth σ φ c).bind fun x => if x then truth σ φ d else some false
  | .or c d => (truth σ φ c).bind fun x => if x then some true else truth σ φ d

/-! ## Writing -/

/-- The marks a formula is written with. -/
inductive Mark where
  | name (n : Text)
  | num (k : Nat)
  | const (b : Bool)
  | op (o : Op)
  | rel (r : Rel)
  | and | or | not | «open» | close
deriving Repr, DecidableEq

/-- The places of a formula, by what may stand there without parentheses. -/
inductive Place where
  | atom | signed | product | sum
deriving Repr, DecidableEq

/-- The ways to write a number: `*`, `/` and `%` bind more strongly than `+` and `-`, operators of the same strength group to the
left, a sign stands before a number, a name or a parenthesis. -/
inductive SpellsNum : Place → Num → List Mark → Prop
  | num (k : Nat) : SpellsNum .atom (.num k) [.num k]
  | var (n : Text) : SpellsNum .atom (.var n) [.name n]
  | paren {a : Num} {ms : List Mark} (h : SpellsNum .sum a ms) : SpellsNum .atom a (.open :: ms ++ [.close])
  | neg {a : Num} {ms : List Mark} (h : SpellsNum .atom a ms) : SpellsNum .signed (.neg a) (.op .sub :: ms)
  | atom {a : Num} {ms : List Mark} (h : SpellsNum .atom a ms) : SpellsNum .signed a ms
  | product {op : Op} {a b : Num} {ms ns : List Mark} (ho : op = .mul ∨ op = .div ∨ op = .mod)
      (ha : SpellsNum .product a ms) (hb : SpellsNum .signed b ns) : SpellsNum .product (.bin op a b) (ms ++ .op op :: ns)
  | signed {a : Num} {ms : List Mark} (h : SpellsNum .signed a ms) : SpellsNum .product a ms
  | sum {op : Op} {a b : Num} {ms ns : List Mark} (ho : op = .add ∨ op = .sub)
      (ha : SpellsNum .sum a ms) (hb : SpellsNum .product b ns) : SpellsNum .sum (.bin op a b) (ms ++ .op op :: ns)
  | factor {a : Num} {ms : List Mark} (h : SpellsNum .product a ms) : SpellsNum .sum a ms

/-- The places of a condition. -/
inductive CPlace where
  | atom | negated | relation | conj | disj | any
deriving Repr, DecidableEq

/-- The ways to write a condition.  `&&` and `||` are not mixed without parentheses. -/
inductive SpellsCond : CPlace → Cond → List Mark → Prop
  | flag (n : Text) : SpellsCond .atom (.flag n) [.name n]
  | const (b : Bool) : SpellsCond .atom (.const b) [.const b]
  | paren {c : Cond} {ms : List Mark} (h : SpellsCond .any c ms) : SpellsCond .atom c (.open :: ms ++ [.close])
  | not {c : Cond} {ms : List Mark} (h : SpellsCond .atom c ms) : SpellsCond .negated (.not c) (.not :: ms)
  | atom {c : Cond} {ms : List Mark} (h : SpellsCond .atom c ms) : SpellsCond .negated c ms
  | cmp {r : Rel} {a b : Num} {ms ns : List Mark} (ha : SpellsNum .sum a ms) (hb : SpellsNum .sum b ns) :
      SpellsCond .relation (.cmp r a b) (ms ++ .rel r :: ns)
  | negated {c : Cond} {ms : List Mark} (h : SpellsCond .negated c ms) : SpellsCond .relation c ms
  | and {c d : Cond} {ms ns : List Mark} (hc : SpellsCond .conj c ms) (hd : SpellsCond .relation d ns) :
      SpellsCond .conj (.and c d) (ms ++ .and :: ns)
  | conjOne {c : Cond} {ms : List Mark} (h : SpellsCond .relation c ms) : SpellsCond .conj c ms
  | or {c d : Cond} {ms ns : List Mark} (hc : SpellsCond .disj c ms) (hd : SpellsCond .relation d ns) :
      SpellsCond .disj (.or c d) (ms ++ .or :: ns)
  | disjOne {c : Cond} {ms : List Mark} (h : SpellsCond .relation c ms) : SpellsCond .disj c ms
  | conj {c : Cond} {ms : List Mark} (h : SpellsCond .conj c ms) : SpellsCond .any c ms
  | disj {c : Cond} {ms : List Mark} (h : SpellsCond .disj c ms) : SpellsCond .any c ms

/-- No two minus signs follow one another. -/
def Apart : List Mark → Prop
  | [] => True
  | [_] => True
  | a :: b :: ms => ¬ (a = .op .sub ∧ b = .op .sub) ∧ Apart (b :: ms)

instance : ∀ ms, Decidable (Apart ms)
  | [] => isTrue trivial
  | [_] => isTrue trivial
  | a :: b :: ms =>
    have := instDecidableApart (b :: ms)
    inferInstanceAs (Decidable (¬ (a = .op .sub ∧ b = .op .sub) ∧ Apart (b :: ms)))

/-- The characters of the operations. -/
def opChar : Op → Char
  | .add => '+'
  | .sub => '-'
  | .mul => '*'
  | .div => '/'
  | .mod => '%'

/-- The characters of the relations. -/
def relChars : Rel → List Char
  | .lt => ['<']
  | .le => ['<', '=']
  | .gt => ['>']
  | .ge => ['>', '=']
  | .eq => ['=', '=']
  | .ne => ['!', '=']

/-- How a mark is written: as a word or as symbols. -/
def Mark.pieces : Mark → List Lex.Piece
  | .name n => [.word n]
  | .num k => [.word (Str.natDigits k)]
  | .const b => [.word (if b then "true".toList else "false".toList)]
  | .op o => [.sym (opChar o)]
  | .rel r => (relChars r).map .sym
  | .and => [.sym '&', .sym '&']
  | .or => [.sym '|', .sym '|']
  | .not => [.sym '!']
  | .open => [.sym '(']
  | .close => [.sym ')']

/-- Blanks, line ends and comments. -/
def isGap : Lex.Piece → Bool
  | .blank _ => true
  | .hash _ => true
  | .slashes _ => true
  | .block _ => true
  | _ => false

/-- The text is the formula, followed by a semicolon, with any blanks, line ends and comments in between. -/
def Laid (ms : List Mark) (text : Text) : Prop :=
  ∃ ps : List Lex.Piece, Lex.WellFormed none ps ∧ Lex.render ps = text ∧
    ps.filter (fun p => !isGap p) = ms.flatMap Mark.pieces ++ [.sym ';']

/-- The names of a formula. -/
def Mark.names : Mark → List Text
  | .name n => [n]
  | _ => []

/-- The variables of a formula. -/
def Num.vars : Num → List Text
  | .num _ => []
  | .var n => [n]
  | .neg a => a.vars
  | .bin _ a b => a.vars ++ b.vars

/-- The numbers of a formula. -/
def Num.nums : Num → List Nat
  | .num k => [k]
  | .var _ => []
  | .neg a => a.nums
  | .bin _ a b => a.nums ++ b.nums

/-- The variables in the comparisons of a condition. -/
def Cond.vars : Cond → List Text
  | .cmp _ a b => a.vars ++ b.vars
  | .flag _ => []
  | .const _ => []
  | .not c => c.vars
  | .and c d => c.vars ++ d.vars
  | .or c d => c.vars ++ d.vars

/-- The flags of a condition. -/
def Cond.flags : Cond → List Text
  | .cmp _ _ _ => []
  | .flag n => [n]
  | .const _ => []
  | .not c => c.flags
  | .and c d => c.flags ++ d.flags
  | .or c d => c.flags ++ d.flags

/-- The numbers of a condition. -/
def Cond.nums : Cond → List Nat
  | .cmp _ a b => a.nums ++ b.nums
  | .flag _ => []
  | .const _ => []
  | .not c => c.nums
  | .and c d => c.nums ++ d.nums
  | .or c d => c.nums ++ d.nums

end Verif.Calc
