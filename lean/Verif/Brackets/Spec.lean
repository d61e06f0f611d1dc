import Verif.Lex.Model

/-! # What well nested means -/

namespace Verif.Brackets

open Verif.Lex

/-- Well nested with respect to one kind of brackets. -/
inductive Nested (opn cls : Ty) : List Tok → Prop
  | nil : Nested opn cls []
  | other {t ts} : t.ty ≠ opn → t.ty ≠ cls → Nested opn cls ts → Nested opn cls (t :: ts)
  | group {o c a b} : o.ty = opn → c.ty = cls → Nested opn cls a → Nested opn cls b →
      Nested opn cls (o :: (a ++ c :: b))

/-- Properly nested with respect to all three kinds together. -/
inductive Proper : List Tok → Prop
  | nil : Proper []
  | other {t ts} : t.ty ∉ [Ty.BRACKET_OPEN, .BRACKET_CLOSE, .BRACKET_CURLY_OPEN, .BRACKET_CURLY_CLOSE, .PARENTHESIS_OPEN,
      .PARENTHESIS_CLOSE] → Proper ts → Proper (t :: ts)
  | group {o c a b} : (o.ty, c.ty) ∈ [(Ty.BRACKET_OPEN, Ty.BRACKET_CLOSE), (.BRACKET_CURLY_OPEN, .BRACKET_CURLY_CLOSE),
      (.PARENTHESIS_OPEN, .PARENTHESIS_CLOSE)] → Proper a → Proper b → Proper (o :: (a ++ c :: b))

/-- Number of tokens of a type. -/
def number (ty : Ty) (ts : List Tok) : Nat := (ts.filter fun t => t.ty = ty).length

end Verif.Brackets
