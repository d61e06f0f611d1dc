import Verif.Expr.Model

/-!
# A grammar of expressions

`Syn` is the tree a reader has in mind, `Der` says which token lists are spellings of such a tree, `typed` gives the typed tree.
The grammar knows nothing of the parser: it says how operators nest and where parentheses are needed.
-/

namespace Verif.Expr

open Verif.Str (Text)
open Verif.Lex (Tok Ty Cat)
open Verif.Types (TName)

/-- An expression as written, without its parentheses. -/
inductive Syn where
  | lit (ty : Ty) (content : Text)
  | name (n : Text)
  | call (f : Text) (args : List Syn)
  /-- `n++`, `n--` on a variable. -/
  | incdec (n : Text) (op : Ty)
  /-- `cast<ty>(e)`. -/
  | cast (ty : Text) (e : Syn)
  /-- `ty e`. -/
  | ccast (ty : Text) (e : Syn)
  /-- `n op e` with one of the assignment operators. -/
  | assign (n : Text) (op : Ty) (e : Syn)
  /-- `+e`, `-e`, `!e`. -/
  | prefix (op : Ty) (e : Syn)
  /-- `e++`, `e--`, `e!`. -/
  | postfix (op : Ty) (e : Syn)
  | is (e : Syn) (ty : Text)
  | ternary (c a b : Syn)
  /-- `c ?: b`. -/
  | elvis (c b : Syn)
  /-- A binary operator of one of the four levels. -/
  | bin (lvl : Lvl) (op : Ty) (l r : Syn)

/-- Where in the grammar a piece of text stands: at one of the levels, before the postfix operators, before the prefix
operators or as a term. -/
inductive Pos where
  | lvl (l : Lvl)
  | post
  | pre
  | term
deriving Repr, DecidableEq

/-- The token is neither a constant nor an assignment. -/
def Plain (t : Tok) : Prop := t.cat ≠ .constant ∧ t.cat ≠ .assignment

/-- The token can only be the beginning of another operand. -/
def Starts (t : Tok) : Prop := t.cat = .constant ∨ t.ty = .IDENTIFIER ∨ t.ty = .KEYWORD

/-- The tokens do not end with a name. -/
def NotAfterName (ts : List Tok) : Prop := ∀ t, ts.getLast? = some t → t.ty ≠ .IDENTIFIER

mutual

/-- `Der env strict pos opn s ts`: the tokens `ts` are a spelling of `s` at the position `pos`.  `opn` says that the text ends
in an assignment, a conditional or a cast `ty e`, whose last operand extends as far as possible.  With `strict` such a text
stands only where nothing can follow it, so that every text has one reading.  Without it, any reading is allowed, and the
arguments of a call may be followed by tokens that mean nothing. -/
inductive Der (env : Env) (strict : Bool) : Pos → Bool → Syn → List Tok → Prop
  | lit (t : Tok) (h : (literal t.ty t.content).isSome) : Der env strict .term false (.lit t.ty t.content) [t]
  | name (t : Tok) (h : t.ty = .IDENTIFIER) : Der env strict .term false (.name t.content) [t]
  | paren (o c : Tok) (b : Bool) (s : Syn) (ts : List Tok) (ho : o.ty = .PARENTHESIS_OPEN) (hc : c.ty = .PARENTHESIS_CLOSE)
      (hp : strict = true → Plain o ∧ Plain c) (h : Der env strict (.lvl .expression) b s ts) :
      Der env strict .term false s (o :: ts ++ [c])
  | call (f o c : Tok) (args : List Syn) (ts : List Tok) (hf : f.ty = .IDENTIFIER) (ho : o.ty = .PARENTHESIS_OPEN)
      (hc : c.ty = .PARENTHESIS_CLOSE) (hp : strict = true → Plain o ∧ Plain c) (h : DerArgs env strict args ts) :
      Der env strict .term false (.call f.content args) (f :: o :: ts ++ [c])
  | incdec (t p : Tok) (ht : t.ty = .IDENTIFIER) (ho : p.ty = .OPERATOR_DECREMENT ∨ p.ty = .OPERATOR_INCREMENT)
      (hp : strict = true → Plain p) : Der env strict .term false (.incdec t.content p.ty) [t, p]
  | cast (k l t g o c : Tok) (b : Bool) (s : Syn) (ts : List Tok) (hk : k.ty = .KEYWORD) (hkc : k.content = "cast".toList)
      (hl : l.ty = .COMPARE_LESS) (hg : g.ty = .COMPARE_GREATER) (ho : o.ty = .PARENTHESIS_OPEN)
      (hc : c.ty = .PARENTHESIS_CLOSE) (hp : strict = true → Plain c ∧ t.ty ≠ .PARENTHESIS_OPEN ∧ t.ty ≠ .PARENTHESIS_CLOSE)
      (h : Der env strict (.lvl .expression) b s ts) :
      Der env strict .term false (.cast t.content s) (k :: l :: t :: g :: o :: ts ++ [c])
  | ccast (t u : Tok) (b : Bool) (s : Syn) (ts : List Tok) (ht : t.ty = .IDENTIFIER) (hu : Starts u)
      (hk : ∀ y, env.lookup t.content = some y → y.kind = .type) (hs : strict = true → u.ty ≠ .OPERATOR_SCOPE)
      (h : Der env strict (.lvl .expression) b s (u :: ts)) : Der env strict .term true (.ccast t.content s) (t :: u :: ts)
  | assign (t a : Tok) (b : Bool) (s : Syn) (ts : List Tok) (ht : t.ty = .IDENTIFIER) (ha : a.cat = .assignment)
      (hs : strict = true → ¬ Starts a ∧ a.ty ≠ .OPERATOR_SCOPE ∧ a.ty ≠ .PARENTHESIS_OPEN ∧ a.ty ≠ .PARENTHESIS_CLOSE)
      (h : Der env strict (.lvl .expression) b s ts) : Der env strict .term true (.assign t.content a.ty s) (t :: a :: ts)
  | prefix (p : Tok) (b : Bool) (s : Syn) (ts : List Tok)
      (ho : p.ty = .MATH_ADDITION ∨ p.ty = .MATH_SUBTRACT ∨ p.ty = .OPERATOR_NOT) (h : Der env strict .term b s ts) :
      Der env strict .pre b (.prefix p.ty s) (p :: ts)
  | pre (b : Bool) (s : Syn) (ts : List Tok) (h : Der env strict .term b s ts) : Der env strict .pre b s ts
  | postfix (p : Tok) (b : Bool) (s : Syn) (ts : List Tok)
      (ho : p.ty = .OPERATOR_DECREMENT ∨ p.ty = .OPERATOR_INCREMENT ∨ p.ty = .OPERATOR_NOT)
      (hs : strict = true → b = false ∧ Plain p ∧ (p.ty ≠ .OPERATOR_NOT → NotAfterName ts))
      (h : Der env strict .post b s ts) : Der env strict .post b (.postfix p.ty s) (ts ++ [p])
  | post (b : Bool) (s : Syn) (ts : List Tok) (h : Der env strict .pre b s ts) : Der env strict .post b s ts
  | is (k t : Tok) (b : Bool) (s : Syn) (ts : List Tok) (hk : k.ty = .OPERATOR_IS)
      (hs : strict = true → b = false ∧ Plain k ∧ t.ty ≠ .PARENTHESIS_OPEN ∧ t.ty ≠ .PARENTHESIS_CLOSE)
      (h : Der env strict .pre b s ts) : Der env strict (.lvl .infix) b (.is s t.content) (ts ++ [k, t])
  | ternary (q c : Tok) (b b₁ b₂ : Bool) (s x y : Syn) (ts t₁ t₂ : List Tok) (hq : q.ty = .QUESTION_MARK)
      (hc : c.ty = .COLON) (hs : strict = true → b = false ∧ Plain q ∧ Plain c) (h : Der env strict .pre b s ts)
      (hx : Der env strict (.lvl .expression) b₁ x t₁) (hy : Der env strict (.lvl .expression) b₂ y t₂) :
      Der env strict (.lvl .infix) true (.ternary s x y) (ts ++ q :: t₁ ++ c :: t₂)
  | elvis (q c : Tok) (b b₂ : Bool) (s y : Syn) (ts t₂ : List Tok) (hq : q.ty = .QUESTION_MARK)
      (hc : c.ty = .COLON) (hs : strict = true → b = false ∧ Plain q) (h : Der env strict .pre b s ts)
      (hy : Der env strict (.lvl .expression) b₂ y t₂) :
      Der env strict (.lvl .infix) true (.elvis s y) (ts ++ q :: c :: t₂)
  | infix (b : Bool) (s : Syn) (ts : List Tok) (h : Der env strict .post b s ts) : Der env strict (.lvl .infix) b s ts
  | bin (l : Lvl) (o : Tok) (b₁ b₂ : Bool) (x y : Syn) (t₁ t₂ : List Tok) (ho : o.ty ∈ l.ops)
      (hs : strict = true → b₁ = false ∧ Plain o) (hx : Der env strict (.lvl l) b₁ x t₁)
      (hy : Der env strict (.lvl l.next) b₂ y t₂) : Der env strict (.lvl l) b₂ (.bin l o.ty x y) (t₁ ++ o :: t₂)
  | up (l : Lvl) (b : Bool) (s : Syn) (ts : List Tok) (hl : l ≠ .infix) (h : Der env strict (.lvl l.next) b s ts) :
      Der env strict (.lvl l) b s ts

/-- The arguments of a call, separated by commas; a comma may follow the last one. -/
inductive DerArgs (env : Env) (strict : Bool) : List Syn → List Tok → Prop
  | nil : DerArgs env strict [] []
  | last (b : Bool) (s : Syn) (ts : List Tok) (h : Der env strict (.lvl .expression) b s ts) : DerArgs env strict [s] ts
  | cons (c : Tok) (b : Bool) (s : Syn) (ss : List Syn) (t₁ junk t₂ : List Tok) (hc : c.ty = .COMMA)
      (hs : strict = true → Plain c ∧ junk = []) (hj : ∀ j ∈ junk, j.ty ≠ .COMMA)
      (h : Der env strict (.lvl .expression) b s t₁) (ht : DerArgs env strict ss t₂) :
      DerArgs env strict (s :: ss) (t₁ ++ junk ++ c :: t₂)

end

mutual

/-- The typed tree of an expression; `none` when a name is unknown or a type does not fit. -/
def typed (env : Env) : Syn → Option Expr
  | .lit ty c => (literal ty c).map .lit
  | .name n => (env.lookup n).map (.sym n)
  | .call f args =>
    match env.lookup f with
    | none => none
    | some _ => (typedList env args).bind (buildCall env f)
  | .incdec n op => (env.lookup n).bind fun s => buildIncDec env n s op
  | .cast ty e =>
    match env.lookup ty with
    | none => none
    | some s => if s.kind ≠ .type then none else (typed env e).bind (buildCast env s)
  | .ccast ty e =>
    match env.lookup ty with
    | none => none
    | some s => (typed env e).map (.cast s.ty)
  | .assign n op e =>
    match env.lookup n with
    | none => none
    | some s => (typed env e).bind (buildAssign env n s op)
  | .prefix op e => (typed env e).bind (buildPrefix env op)
  | .postfix op e => (typed env e).map fun x => if op = .OPERATOR_NOT then .validate x else .unary op false x
  | .is e ty => (typed env e).bind fun x => (env.lookup ty).map fun s => .is x s.ty
  | .ternary c a b => (typed env c).bind fun x => (typed env a).bind fun y => (typed env b).bind fun z => buildTernary x y z
  | .elvis c b => (typed env c).bind fun x => (typed env b).bind fun z => buildTernary x x z
  | .bin lvl op l r => (typed env l).bind fun x => (typed env r).bind fun y => build env lvl op x y

/-- The same for a list. -/
def typedList (env : Env) : List Syn → Option (List Expr)
  | [] => some []
  | s :: ss => (typed env s).bind fun e => (typedList env ss).map (e :: ·)

end

/-- The tokens that end every expression. -/
def terminators : List Ty := [.SEMICOLON, .PARENTHESIS_CLOSE, .COMMA, .COLON]

/-- The text goes on with a token that ends every expression. -/
def Ends (rest : List Tok) : Prop := ∃ t r, rest = t :: r ∧ Plain t ∧ t.ty ∈ terminators

end Verif.Expr
