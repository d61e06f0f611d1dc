import Verif.Expr.Props
import Verif.Lex.Numbers

/-! The types of number literals, from the text to the expression tree (C73). -/

namespace Verif.Expr

open Verif.Str (Text)
open Verif.Types (TName)
open Verif.Lex (tokenize PlainName Digits assigned)

/-- In the statement `text`, the expression behind the name and the `=` is a value of type `ty`. -/
def AssignsTyped (env : Env) (text : Text) (ty : TName) : Prop :=
  ∃ n a ts e rest, tokenize text = .ok (n :: a :: ts) ∧ parse env ts = .ok e (semicolon :: rest) ∧ e.ty = ty

private theorem parse_lit (env : Env) {ty : Lex.Ty} {content : Text} {l : Lit} (h : literal ty content = some l) (rest : List Lex.Tok) :
    parse env (⟨.constant, ty, content, 1, false⟩ :: semicolon :: rest) = .ok (.lit l) (semicolon :: rest) := by
  have hr := spelling_read (env := env) (s := .lit ty content) (rest := semicolon :: rest)
    (Printed.top (env := env) (s := .lit ty content) (Der.lit ⟨.constant, ty, content, 1, false⟩ (by simp only [h]; rfl))) (ends_semicolon rest)
  rw [List.singleton_append] at hr
  rw [hr]; simp only [typed, h]; rfl

private theorem assigns (env : Env) {text x : Text} {ty : Lex.Ty} {content : Text} {l : Lit} {t : TName}
    (ht : tokenize text = .ok (assigned x ty content)) (h : literal ty content = some l) (hl : l.ty = t) : AssignsTyped env text t :=
  ⟨_, _, _, _, _, ht, parse_lit env h _, hl⟩

/-- C73: the marks `f` and `d` make the value a `float` and a `double`, with and without a fraction. -/
theorem marked_types (env : Env) (x a b : Text) (hx : PlainName x) (ha : Digits a) (hb : Digits b) :
    AssignsTyped env (x ++ " = ".toList ++ (a ++ ['f']) ++ ";".toList) (.b .float) ∧
    AssignsTyped env (x ++ " = ".toList ++ (a ++ ['d']) ++ ";".toList) (.b .double) ∧
    AssignsTyped env (x ++ " = ".toList ++ a ++ ".".toList ++ (b ++ ['f']) ++ ";".toList) (.b .float) ∧
    AssignsTyped env (x ++ " = ".toList ++ a ++ ".".toList ++ (b ++ ['d']) ++ ";".toList) (.b .double) := by
  obtain ⟨-, -, h1, h2⟩ := Lex.integer_literals x a hx ha
  obtain ⟨h3, h4, -⟩ := Lex.fraction_literals x a b hx ha hb
  exact ⟨assigns env h1 rfl rfl, assigns env h2 rfl rfl, assigns env h3 rfl rfl, assigns env h4 rfl rfl⟩

/-- C73: a number without a mark, or marked `i`, is an `int` if it has 31 bits, and an `int64` otherwise. -/
theorem unmarked_types (env : Env) (x a : Text) (hx : PlainName x) (ha : Digits a) :
    let ty : TName := if Str.digitsVal a < 2 ^ 31 then .b .int32 else .b .int64
    AssignsTyped env (x ++ " = ".toList ++ a ++ ";".toList) ty ∧ AssignsTyped env (x ++ " = ".toList ++ (a ++ ['i']) ++ ";".toList) ty := by
  obtain ⟨h1, h2, -⟩ := Lex.integer_literals x a hx ha
  have hd : ∀ c ∈ ['0', '1', '2', '3', '4', '5', '6', '7', '8', '9'], Str.isDigit c = true := by decide
  have hv : Str.stringToInt a = Str.clamp64 (Str.digitsVal a) := stringToInt_digits (fun c hc => hd c (ha.2 c hc)) ha.1
  have hl : ∃ l, literal .CONST_INTEGER a = some l ∧ l.ty = if Str.digitsVal a < 2 ^ 31 then .b .int32 else .b .int64 := by
    simp only [literal, hv]
    by_cases h : Str.digitsVal a < 2 ^ 31
    · have : Str.clamp64 (Str.digitsVal a) = Str.digitsVal a := by unfold Str.clamp64; omega
      rw [this, if_pos (by omega), if_pos h]; exact ⟨_, rfl, rfl⟩
    · have : ¬ (-2147483648 ≤ Str.clamp64 (Str.digitsVal a) ∧ Str.clamp64 (Str.digitsVal a) ≤ 2147483647) := by
        unfold Str.clamp64; omega
      rw [if_neg this, if_neg h]; exact ⟨_, rfl, rfl⟩
  obtain ⟨l, hl, ht⟩ := hl
  exact ⟨assigns env h1 hl ht, assigns env h2 hl ht⟩

example : PlainName ['x'] ∧ Digits "31".toList ∧ Digits "5".toList ∧ Str.digitsVal "31".toList = 31 := by
  refine ⟨by unfold PlainName; decide, ?_, ?_, rfl⟩ <;> exact ⟨by decide, by decide⟩

end Verif.Expr
