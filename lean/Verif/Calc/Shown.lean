import Verif.Calc.Props

/-!
# What a failed assertion says

`assert` throws `AssertionFailed` with the text of its condition (`TreeInterpreter::visitAssert`, `printExpression`).  The text is
made from the tree, not from the script.  Modelled here for all trees of `Verif.Expr`; proved for the formulas of `Verif.Calc.Spec`.
-/

namespace Verif.Calc

open Verif.Str (Text)
open Verif.Lex (Tok Ty Cat PlainName)
open Verif.Expr (Env Lit typed)
open Verif.Types (TName BT)

/-! ## The code -/

/-- The contents of the tokens of the operators (Common/Token.h; the words of Tokenizer.cpp:80-200 and of the merging passes,
Tokenizer.cpp:298-399, 510-643). -/
def operatorTexts : List (Ty × Text) :=
  [(.AND, "&&".toList), (.NAND, "!&".toList), (.NOR, "!|".toList), (.OR, "||".toList), (.BITAND, ['&']), (.BITCOMPLEMENT, ['~']),
   (.BITOR, ['|']), (.COMPARE_EQUAL, "==".toList), (.COMPARE_GREATER, ['>']), (.COMPARE_GREATER_EQUAL, ">=".toList),
   (.COMPARE_LESS, ['<']), (.COMPARE_LESS_EQUAL, "<=".toList), (.MATH_ADDITION, ['+']), (.MATH_DIVIDE, ['/']),
   (.MATH_MODULO, ['%']), (.MATH_MULTIPLY, ['*']), (.MATH_SUBTRACT, ['-']), (.OPERATOR_DECREMENT, "--".toList),
   (.OPERATOR_INCREMENT, "++".toList), (.OPERATOR_SHIFT_LEFT, "<<".toList), (.OPERATOR_SHIFT_RIGHT, ">>".toList)]

/-- `mOperation.content()`. -/
def operatorText (op : Ty) : Text := (operatorTexts.lookup op).getD []

/-- The names of the types (Consts.h:105-123). -/
def typeText : TName → Text
  | .user n => n
  | .b .bool => "bool".toList
  | .b .double => "double".toList
  | .b .float => "float".toList
  | .b .int16 => "int16".toList
  | .b .int32 => "int".toList
  | .b .int64 => "int64".toList
  | .b .object => "Object".toList
  | .b .string => "string".toList
  | .b .unary => "__unary__".toList
  | .b .void => "void".toList

/-- The literal in `printExpression` (TreeInterpreter.cpp:758-768); `real` is how C++ prints the floating-point number of this text
(Utils/Tools/Strings.h:46-51). -/
def literalText (real : Text → Text) : Lit → Text
  | .bool b => if b then ['1'] else ['0']
  | .double t => real t
  | .float t => real t
  | .int32 i => Str.intToString i
  | .int64 i => Str.intToString i
  | .string t => '"' :: t ++ ['"']

mutual

/-- `TreeInterpreter::printExpression` (TreeInterpreter.cpp:722-819).  Of the symbol of an operator of a class, which is the chain
from the object to the operator, only the last name is printed (790-794). -/
def shown (real : Text → Text) : Expr.Expr → Text
  | .lit l => literalText real l
  | .sym n _ => n
  | .call f args _ => f ++ '(' :: shownArgs real args ++ [')']
  | .opCall _ op args _ => op ++ '(' :: shownArgs real args ++ [')']
  | .unary op _ e => operatorText op ++ shown real e
  | .validate e => shown real e
  | .not sign e => sign ++ shown real e
  | .binary op l r _ => '(' :: shown real l ++ ' ' :: operatorText op ++ ' ' :: shown real r ++ [')']
  | .boolean op l r => '(' :: shown real l ++ ' ' :: operatorText op ++ ' ' :: shown real r ++ [')']
  | .ternary c a b => shown real c ++ " ? ".toList ++ shown real a ++ " : ".toList ++ shown real b
  | .is e t => shown real e ++ " is ".toList ++ typeText t
  | .cast t e => typeText t ++ ' ' :: shown real e
  | .assign n _ e _ => n ++ " = ".toList ++ shown real e

/-- The arguments of a call (TreeInterpreter.cpp:772-775): a comma before an argument if something stands before it. -/
def shownArgs (real : Text → Text) : List Expr.Expr → Text
  | [] => []
  | [e] => shown real e
  | e :: es =>
    let t := shown real e
    if t.isEmpty then shownArgs real es else t ++ ", ".toList ++ shownArgs real es

end

/-- How an assertion without a message ends. -/
inductive Asserted where
  | passes
  /-- `AssertionFailed` with this text -/
  | fails (text : Text)
  /-- the condition itself ends the program with an exception -/
  | exception
  | undefined
  | outside
deriving Repr, DecidableEq

/-- `visitAssert` (TreeInterpreter.cpp:955-970) for an assertion without a message, and the constructor of `AssertionFailed`
(Runtime/Exceptions.h:48-50). -/
def assertion (real : Text → Text) (store : Text → Option Val) (e : Expr.Expr) : Asserted :=
  match eval store e with
  | .ok v => if isTrue v then .passes else .fails ("Assertion failed: ".toList ++ shown real e)
  | .failed => .exception
  | .undefined => .undefined
  | .outside => .outside

/-! ## The specification -/

/-- The condition can be shown as it is: no sign directly before a sign, no minus before a number with a sign, no `!=`, no `true`
and `false`. -/
def Num.Clear : Num → Bool
  | .num _ => true
  | .var _ => true
  | .neg (.neg _) => false
  | .neg a => a.Clear
  | .bin .sub _ (.neg _) => false
  | .bin _ a b => a.Clear && b.Clear

def Cond.Clear : Cond → Bool
  | .cmp .ne _ _ => false
  | .cmp _ a b => a.Clear && b.Clear
  | .flag _ => true
  | .const _ => false
  | .not (.not _) => false
  | .not c => c.Clear
  | .and c d => c.Clear && d.Clear
  | .or c d => c.Clear && d.Clear

/-! ## The text with all parentheses -/

/-- The marks of a number with all parentheses. -/
def fullNum : Num → List Mark
  | .num k => [.num k]
  | .var n => [.name n]
  | .neg a => .op .sub :: fullNum a
  | .bin op a b => .open :: (fullNum a ++ .op op :: fullNum b) ++ [.close]

/-- The marks of a condition with all parentheses. -/
def fullCond : Cond → List Mark
  | .cmp r a b => .open :: (fullNum a ++ .rel r :: fullNum b) ++ [.close]
  | .flag n => [.name n]
  | .const b => [.const b]
  | .not c => .not :: fullCond c
  | .and c d => .open :: (fullCond c ++ .and :: fullCond d) ++ [.close]
  | .or c d => .open :: (fullCond c ++ .or :: fullCond d) ++ [.close]

def Num.isNeg : Num → Bool
  | .neg _ => true
  | _ => false

def Cond.isNot : Cond → Bool
  | .not _ => true
  | _ => false

theorem Num.clear_neg {a : Num} (h : (Num.neg a).Clear = true) : a.isNeg = false ∧ a.Clear = true := by
  cases a <;> simp_all [Num.Clear, Num.isNeg]

theorem Num.clear_bin {op : Ints.Op} {a b : Num} (h : (Num.bin op a b).Clear = true) :
    a.Clear = true ∧ b.Clear = true ∧ ¬ (op = .sub ∧ b.isNeg = true) := by
  cases op <;> cases b <;> simp_all [Num.Clear, Num.isNeg]

theorem Cond.clear_not {c : Cond} (h : (Cond.not c).Clear = true) : c.isNot = false ∧ c.Clear = true := by
  cases c <;> simp_all [Cond.Clear, Cond.isNot]

theorem Cond.clear_cmp {r : Rel} {a b : Num} (h : (Cond.cmp r a b).Clear = true) :
    a.Clear = true ∧ b.Clear = true ∧ r ≠ .ne := by
  cases r <;> simp_all [Cond.Clear]

theorem fullNum_spells (a : Num) (h : a.Clear = true) :
    SpellsNum .signed a (fullNum a) ∧ (a.isNeg = false → SpellsNum .atom a (fullNum a)) := by
  induction a with
  | num k => exact ⟨.atom (.num k), fun _ => .num k⟩
  | var n => exact ⟨.atom (.var n), fun _ => .var n⟩
  | neg a ih =>
    obtain ⟨h1, h2⟩ := Num.clear_neg h
    exact ⟨.neg ((ih h2).2 h1), fun h => by simp [Num.isNeg] at h⟩
  | bin op a b iha ihb =>
    obtain ⟨h1, h2, -⟩ := Num.clear_bin h
    have key : SpellsNum .sum (.bin op a b) (fullNum a ++ .op op :: fullNum b) := by
      cases op with
      | add => exact .sum (Or.inl rfl) (.factor (.signed (iha h1).1)) (.signed (ihb h2).1)
      | sub => exact .sum (Or.inr rfl) (.factor (.signed (iha h1).1)) (.signed (ihb h2).1)
      | mul => exact .factor (.product (Or.inl rfl) (.signed (iha h1).1) (ihb h2).1)
      | div => exact .factor (.product (Or.inr (Or.inl rfl)) (.signed (iha h1).1) (ihb h2).1)
      | mod => exact .factor (.product (Or.inr (Or.inr rfl)) (.signed (iha h1).1) (ihb h2).1)
    exact ⟨.atom (.paren key), fun _ => .paren key⟩

theorem fullCond_spells (c : Cond) (h : c.Clear = true) :
    SpellsCond .negated c (fullCond c) ∧ (c.isNot = false → SpellsCond .atom c (fullCond c)) := by
  induction c with
  | cmp r a b =>
    obtain ⟨h1, h2, -⟩ := Cond.clear_cmp h
    have key : SpellsCond .any (.cmp r a b) (fullNum a ++ .rel r :: fullNum b) :=
      .conj (.conjOne (.cmp (.factor (.signed (fullNum_spells a h1).1)) (.factor (.signed (fullNum_spells b h2).1))))
    exact ⟨.atom (.paren key), fun _ => .paren key⟩
  | flag n => exact ⟨.atom (.flag n), fun _ => .flag n⟩
  | const b => simp [Cond.Clear] at h
  | not c ih =>
    obtain ⟨h1, h2⟩ := Cond.clear_not h
    exact ⟨.not ((ih h2).2 h1), fun h => by simp [Cond.isNot] at h⟩
  | and c d ihc ihd =>
    simp only [Cond.Clear, Bool.and_eq_true] at h
    have key : SpellsCond .any (.and c d) (fullCond c ++ .and :: fullCond d) :=
      .conj (.and (.conjOne (.negated (ihc h.1).1)) (.negated (ihd h.2).1))
    exact ⟨.atom (.paren key), fun _ => .paren key⟩
  | or c d ihc ihd =>
    simp only [Cond.Clear, Bool.and_eq_true] at h
    have key : SpellsCond .any (.or c d) (fullCond c ++ .or :: fullCond d) :=
      .disj (.or (.disjOne (.negated (ihc h.1).1)) (.negated (ihd h.2).1))
    exact ⟨.atom (.paren key), fun _ => .paren key⟩

/-! ### No two minus signs meet -/

theorem apart_append {ms ns : List Mark} (h1 : Apart ms) (h2 : Apart ns)
    (h : ms.getLast? ≠ some (.op .sub) ∨ ns.head? ≠ some (.op .sub)) : Apart (ms ++ ns) := by
  induction ms with
  | nil => exact h2
  | cons a ms ih =>
    cases ms with
    | nil =>
      cases ns with
      | nil => exact h1
      | cons b ns =>
        simp only [List.singleton_append, Apart]
        refine ⟨?_, h2⟩
        rintro ⟨rfl, rfl⟩
        simp at h
    | cons b ms =>
      simp only [List.cons_append, Apart] at h1 ⊢
      refine ⟨h1.1, ih h1.2 ?_⟩
      rcases h with h | h
      · left; simpa [List.getLast?_cons_cons] using h
      · right; exact h

theorem apart_cons {m : Mark} {ns : List Mark} (h2 : Apart ns) (h : m ≠ .op .sub ∨ ns.head? ≠ some (.op .sub)) :
    Apart (m :: ns) :=
  apart_append (ms := [m]) trivial h2 (by simpa using h)

theorem fullNum_head (a : Num) : (fullNum a).head? = some (.op .sub) ↔ a.isNeg = true := by
  cases a <;> simp [fullNum, Num.isNeg]

theorem fullNum_last (a : Num) : (fullNum a).getLast? ≠ some (.op .sub) ∧ fullNum a ≠ [] := by
  induction a with
  | num k => simp [fullNum]
  | var n => simp [fullNum]
  | neg a ih =>
    simp only [fullNum]
    cases h : fullNum a with
    | nil => exact absurd h ih.2
    | cons x xs => rw [List.getLast?_cons_cons, ← h]; exact ⟨ih.1, by simp⟩
  | bin op a b _ _ => exact ⟨by rw [fullNum, List.getLast?_append]; simp, by simp [fullNum]⟩

theorem fullNum_apart (a : Num) (h : a.Clear = true) : Apart (fullNum a) := by
  induction a with
  | num k => trivial
  | var n => trivial
  | neg a ih =>
    obtain ⟨h1, h2⟩ := Num.clear_neg h
    exact apart_cons (ih h2) (Or.inr (by rw [Ne, fullNum_head]; simp [h1]))
  | bin op a b iha ihb =>
    obtain ⟨h1, h2, h3⟩ := Num.clear_bin h
    simp only [fullNum, List.cons_append]
    refine apart_cons ?_ (Or.inl (by simp))
    refine apart_append ?_ trivial (Or.inr (by simp))
    refine apart_append (iha h1) (apart_cons (ihb h2) ?_) (Or.inl (fullNum_last a).1)
    by_cases ho : op = .sub
    · right; rw [Ne, fullNum_head]; simpa [ho] using h3
    · left; simpa using ho

theorem fullCond_head (c : Cond) : (fullCond c).head? ≠ some (.op .sub) := by
  cases c <;> simp [fullCond]

theorem fullCond_apart (c : Cond) (h : c.Clear = true) : Apart (fullCond c) := by
  induction c with
  | cmp r a b =>
    obtain ⟨h1, h2, -⟩ := Cond.clear_cmp h
    simp only [fullCond, List.cons_append]
    refine apart_cons ?_ (Or.inl (by simp))
    refine apart_append ?_ trivial (Or.inr (by simp))
    exact apart_append (fullNum_apart a h1) (apart_cons (fullNum_apart b h2) (Or.inl (by simp))) (Or.inl (fullNum_last a).1)
  | flag n => trivial
  | const b => trivial
  | not c ih => exact apart_cons (ih (Cond.clear_not h).2) (Or.inl (by simp))
  | and c d ihc ihd =>
    simp only [Cond.Clear, Bool.and_eq_true] at h
    simp only [fullCond, List.cons_append]
    refine apart_cons ?_ (Or.inl (by simp))
    refine apart_append ?_ trivial (Or.inr (by simp))
    exact apart_append (ihc h.1) (apart_cons (ihd h.2) (Or.inl (by simp))) (Or.inr (by simp))
  | or c d ihc ihd =>
    simp only [Cond.Clear, Bool.and_eq_true] at h
    simp only [fullCond, List.cons_append]
    refine apart_cons ?_ (Or.inl (by simp))
    refine apart_append ?_ trivial (Or.inr (by simp))
    exact apart_append (ihc h.1) (apart_cons (ihd h.2) (Or.inl (by simp))) (Or.inr (by simp))

/-! ### The layout of the shown text -/

/-- The pieces of a number as it is shown. -/
def piecesNum : Num → List Lex.Piece
  | .num k => [.word (Str.natDigits k)]
  | .var n => [.word n]
  | .neg a => .sym '-' :: piecesNum a
  | .bin op a b => .sym '(' :: (piecesNum a ++ .blank ' ' :: .sym (opChar op) :: .blank ' ' :: (piecesNum b ++ [.sym ')']))

/-- The pieces of a condition as it is shown, if it is clear. -/
def piecesCond : Cond → List Lex.Piece
  | .cmp r a b => .sym '(' :: (piecesNum a ++ .blank ' ' :: ((relChars r).map .sym ++ .blank ' ' :: (piecesNum b ++ [.sym ')'])))
  | .flag n => [.word n]
  | .const b => [.word (boolText b)]
  | .not c => .sym '!' :: piecesCond c
  | .and c d => .sym '(' :: (piecesCond c ++ .blank ' ' :: .sym '&' :: .sym '&' :: .blank ' ' :: (piecesCond d ++ [.sym ')']))
  | .or c d => .sym '(' :: (piecesCond c ++ .blank ' ' :: .sym '|' :: .sym '|' :: .blank ' ' :: (piecesCond d ++ [.sym ')']))

theorem gap_sym (c : Char) : isGap (.sym c) = false := rfl
theorem gap_blank (c : Char) : isGap (.blank c) = true := rfl

theorem piecesNum_marks (a : Num) : (piecesNum a).filter (fun p => !isGap p) = (fullNum a).flatMap Mark.pieces := by
  induction a with
  | num k => rfl
  | var n => rfl
  | neg a ih => simp [piecesNum, fullNum, gap_sym, ih, Mark.pieces, opChar]
  | bin op a b iha ihb => simp [piecesNum, fullNum, gap_sym, gap_blank, iha, ihb, Mark.pieces]

theorem piecesCond_marks (c : Cond) : (piecesCond c).filter (fun p => !isGap p) = (fullCond c).flatMap Mark.pieces := by
  induction c with
  | cmp r a b => cases r <;> simp [piecesCond, fullCond, gap_sym, gap_blank, piecesNum_marks, Mark.pieces, relChars]
  | flag n => rfl
  | const b => cases b <;> rfl
  | not c ih => simp [piecesCond, fullCond, gap_sym, ih, Mark.pieces]
  | and c d ihc ihd => simp [piecesCond, fullCond, gap_sym, gap_blank, ihc, ihd, Mark.pieces]
  | or c d ihc ihd => simp [piecesCond, fullCond, gap_sym, gap_blank, ihc, ihd, Mark.pieces]

/-- What may stand before a shown formula. -/
def Before (p : Option Lex.Piece) : Prop :=
  p = none ∨ p = some (.blank ' ') ∨ p = some (.sym '(') ∨ p = some (.sym '-') ∨ p = some (.sym '!')

/-- What may follow one. -/
def After (rest : List Lex.Piece) : Prop := ∀ q, (q = .sym ')' ∨ ∃ w, q = .word w) → Lex.WellFormed (some q) rest

theorem after_close {rest : List Lex.Piece} (h : After rest) : After (.sym ')' :: rest) := by
  intro q hq
  rcases hq with rfl | ⟨w, rfl⟩ <;>
    exact ⟨by simp [Lex.Piece.Ok, Lex.symbols], by simp [Lex.Follows], h _ (Or.inl rfl)⟩

theorem after_blank {rest : List Lex.Piece} (h : Lex.WellFormed (some (.blank ' ')) rest) : After (.blank ' ' :: rest) := by
  intro q hq
  rcases hq with rfl | ⟨w, rfl⟩ <;>
    exact ⟨by simp [Lex.Piece.Ok, Lex.whitespaces], by simp [Lex.Follows], h⟩

theorem word_wf {p : Option Lex.Piece} {w : Text} {rest : List Lex.Piece} (hp : Before p)
    (hw : w ≠ [] ∧ ∀ c ∈ w, c ∉ Lex.delimiters ∧ c ≠ Lex.nul) (hr : After rest) : Lex.WellFormed p (.word w :: rest) := by
  have h2 := hr (.word w) (Or.inr ⟨w, rfl⟩)
  rcases hp with rfl | rfl | rfl | rfl | rfl <;> exact ⟨hw, by simp [Lex.Follows], h2⟩

theorem sign_wf {p : Option Lex.Piece} {c : Char} {rest : List Lex.Piece} (hp : Before p) (hc : c = '(' ∨ c = '-' ∨ c = '!')
    (hr : Lex.WellFormed (some (.sym c)) rest) : Lex.WellFormed p (.sym c :: rest) := by
  rcases hp with rfl | rfl | rfl | rfl | rfl <;> rcases hc with rfl | rfl | rfl <;>
    exact ⟨by simp [Lex.Piece.Ok, Lex.symbols], by simp [Lex.Follows], hr⟩

theorem digits_ok (k : Nat) : Str.natDigits k ≠ [] ∧ ∀ c ∈ Str.natDigits k, c ∉ Lex.delimiters ∧ c ≠ Lex.nul := by
  have hd := digits_natDigits k
  have : ∀ c ∈ ['0', '1', '2', '3', '4', '5', '6', '7', '8', '9'], c ∉ Lex.delimiters ∧ c ≠ Lex.nul := by decide
  exact ⟨hd.1, fun c hc => this c (hd.2 c hc)⟩

theorem piecesNum_wf (a : Num) (hn : ∀ n ∈ a.vars, PlainName n) (p : Option Lex.Piece) (rest : List Lex.Piece)
    (hp : Before p) (hr : After rest) : Lex.WellFormed p (piecesNum a ++ rest) := by
  induction a generalizing p rest with
  | num k => exact word_wf hp (digits_ok k) hr
  | var n => exact word_wf hp ⟨(hn n (by simp [Num.vars])).1, (hn n (by simp [Num.vars])).2.1⟩ hr
  | neg a ih => exact sign_wf hp (by simp) (ih hn _ _ (by simp [Before]) hr)
  | bin op a b iha ihb =>
    have hb := ihb (fun n h => hn n (by simp [Num.vars, h])) (some (.blank ' ')) (.sym ')' :: rest) (by simp [Before])
      (after_close hr)
    have ha := iha (fun n h => hn n (by simp [Num.vars, h])) (some (.sym '('))
      (.blank ' ' :: .sym (opChar op) :: .blank ' ' :: (piecesNum b ++ .sym ')' :: rest)) (by simp [Before]) (after_blank (by
        refine ⟨?_, by simp [Lex.Follows], by simp [Lex.Piece.Ok, Lex.whitespaces], by simp [Lex.Follows], hb⟩
        cases op <;> simp [Lex.Piece.Ok, Lex.symbols, opChar]))
    have := sign_wf hp (Or.inl rfl) ha
    simpa [piecesNum] using this

theorem piecesCond_wf (c : Cond) (hn : ∀ n ∈ c.vars, PlainName n) (hf : ∀ n ∈ c.flags, PlainName n) (p : Option Lex.Piece)
    (rest : List Lex.Piece) (hp : Before p) (hr : After rest) : Lex.WellFormed p (piecesCond c ++ rest) := by
  induction c generalizing p rest with
  | cmp r a b =>
    have hb := piecesNum_wf b (fun n h => hn n (by simp [Cond.vars, h])) (some (.blank ' ')) (.sym ')' :: rest) (by simp [Before])
      (after_close hr)
    have ha := piecesNum_wf a (fun n h => hn n (by simp [Cond.vars, h])) (some (.sym '('))
      (.blank ' ' :: ((relChars r).map .sym ++ .blank ' ' :: (piecesNum b ++ .sym ')' :: rest))) (by simp [Before])
      (after_blank (by
        cases r <;>
          simp only [relChars, List.map_cons, List.map_nil, List.cons_append, List.nil_append, Lex.WellFormed] <;>
          simp [Lex.Piece.Ok, Lex.symbols, Lex.Follows, Lex.whitespaces, hb]))
    have := sign_wf hp (Or.inl rfl) ha
    simpa [piecesCond] using this
  | flag n => exact word_wf hp ⟨(hf n (by simp [Cond.flags])).1, (hf n (by simp [Cond.flags])).2.1⟩ hr
  | const b => exact word_wf hp (by cases b <;> decide) hr
  | not c ih => exact sign_wf hp (by simp) (ih hn hf _ _ (by simp [Before]) hr)
  | and c d ihc ihd =>
    have hb := ihd (fun n h => hn n (by simp [Cond.vars, h])) (fun n h => hf n (by simp [Cond.flags, h])) (some (.blank ' '))
      (.sym ')' :: rest) (by simp [Before]) (after_close hr)
    have ha := ihc (fun n h => hn n (by simp [Cond.vars, h])) (fun n h => hf n (by simp [Cond.flags, h])) (some (.sym '('))
      (.blank ' ' :: .sym '&' :: .sym '&' :: .blank ' ' :: (piecesCond d ++ .sym ')' :: rest)) (by simp [Before])
      (after_blank (by
        simp only [Lex.WellFormed]
        simp [Lex.Piece.Ok, Lex.symbols, Lex.Follows, Lex.whitespaces, hb]))
    have := sign_wf hp (Or.inl rfl) ha
    simpa [piecesCond] using this
  | or c d ihc ihd =>
    have hb := ihd (fun n h => hn n (by simp [Cond.vars, h])) (fun n h => hf n (by simp [Cond.flags, h])) (some (.blank ' '))
      (.sym ')' :: rest) (by simp [Before]) (after_close hr)
    have ha := ihc (fun n h => hn n (by simp [Cond.vars, h])) (fun n h => hf n (by simp [Cond.flags, h])) (some (.sym '('))
      (.blank ' ' :: .sym '|' :: .sym '|' :: .blank ' ' :: (piecesCond d ++ .sym ')' :: rest)) (by simp [Before])
      (after_blank (by
        simp only [Lex.WellFormed]
        simp [Lex.Piece.Ok, Lex.symbols, Lex.Follows, Lex.whitespaces, hb]))
    have := sign_wf hp (Or.inl rfl) ha
    simpa [piecesCond] using this

theorem fullCond_laid (c : Cond) (hn : ∀ n ∈ c.vars, PlainName n) (hf : ∀ n ∈ c.flags, PlainName n) :
    Laid (fullCond c) (Lex.render (piecesCond c) ++ [';']) := by
  refine ⟨piecesCond c ++ [.sym ';'], ?_, by simp [Lex.render, Lex.Piece.render], ?_⟩
  · refine piecesCond_wf c hn hf none _ (Or.inl rfl) ?_
    intro q hq
    rcases hq with rfl | ⟨w, rfl⟩ <;>
      exact ⟨by simp [Lex.Piece.Ok, Lex.symbols], by simp [Lex.Follows], by simp [Lex.WellFormed]⟩
  · rw [List.filter_append, piecesCond_marks]; rfl

theorem fullNum_laid (a : Num) (hn : ∀ n ∈ a.vars, PlainName n) :
    Laid (fullNum a) (Lex.render (piecesNum a) ++ [';']) := by
  refine ⟨piecesNum a ++ [.sym ';'], ?_, by simp [Lex.render, Lex.Piece.render], ?_⟩
  · refine piecesNum_wf a hn none _ (Or.inl rfl) ?_
    intro q hq
    rcases hq with rfl | ⟨w, rfl⟩ <;>
      exact ⟨by simp [Lex.Piece.Ok, Lex.symbols], by simp [Lex.Follows], by simp [Lex.WellFormed]⟩
  · rw [List.filter_append, piecesNum_marks]; rfl

/-! ### The tree is shown as this text -/

theorem num_shown {env : Env} {store : Text → Option Val} {σ : Text → Int} (real : Text → Text) (hs : Setting env) (a : Num)
    (hv : ∀ n ∈ a.vars, IsInt env store σ n) (hk : ∀ k ∈ a.nums, k < 2 ^ 31) {e : Expr.Expr}
    (he : typed env (synNum a) = some e) : shown real e = Lex.render (piecesNum a) := by
  induction a generalizing e with
  | num k =>
    have hk := hk k (by simp [Num.nums])
    have : Expr.literal .CONST_INTEGER (Str.natDigits k) = some (.int32 k) := by
      simp only [Expr.literal]
      rw [Expr.stringToInt_digits (Str.natDigits_isDigit k) (Str.natDigits_ne_nil k), Str.digitsVal_natDigits]
      have : Str.clamp64 k = k := by unfold Str.clamp64; omega
      rw [this, if_pos (by omega)]
    simp only [synNum, typed, this, Option.map_some, Option.some.injEq] at he
    subst he
    simp [shown, literalText, piecesNum, Lex.render, Lex.Piece.render, Str.intToString]
  | var n =>
    obtain ⟨⟨c, hl⟩, -, -⟩ := hv n (by simp [Num.vars])
    simp only [synNum, typed, hl, Option.map_some, Option.some.injEq] at he
    subst he
    simp [shown, piecesNum, Lex.render, Lex.Piece.render]
  | neg a ih =>
    obtain ⟨x, h1, h2, -, -⟩ := num_eval hs a hv hk
    simp only [synNum, typed, h1, Option.bind_some, Expr.buildPrefix, h2, minus_type hs] at he
    simp at he
    subst he
    have ho : operatorText .MATH_SUBTRACT = ['-'] := rfl
    simp [shown, ih hv hk h1, piecesNum, Lex.render, Lex.Piece.render, ho]
  | bin op a b iha ihb =>
    have hva : ∀ n ∈ a.vars, IsInt env store σ n := fun n hn => hv n (by simp [Num.vars, hn])
    have hvb : ∀ n ∈ b.vars, IsInt env store σ n := fun n hn => hv n (by simp [Num.vars, hn])
    have hka : ∀ k ∈ a.nums, k < 2 ^ 31 := fun k h => hk k (by simp [Num.nums, h])
    have hkb : ∀ k ∈ b.nums, k < 2 ^ 31 := fun k h => hk k (by simp [Num.nums, h])
    obtain ⟨x, hx1, hx2, hx3, -⟩ := num_eval hs a hva hka
    obtain ⟨y, hy1, hy2, hy3, -⟩ := num_eval hs b hvb hkb
    have hb : Expr.buildArith env (opTy op) x y = some (.binary (opTy op) x y (.b .int32)) := by
      simp only [Expr.buildArith, hx2, hy2, arith_type hs]
      rw [if_pos]
      cases h : x.isSym with
      | false => rfl
      | true => simp [hx3 h]
    have e1 : typed env (synNum (.bin op a b)) = some (.binary (opTy op) x y (.b .int32)) := by
      cases op <;> simp [synNum, typed, hx1, hy1, Expr.build, opLvl, hb]
    rw [e1, Option.some.injEq] at he
    subst he
    have ho : operatorText (opTy op) = [opChar op] := by cases op <;> rfl
    simp [shown, iha hva hka hx1, ihb hvb hkb hy1, piecesNum, Lex.render, Lex.Piece.render, ho]

theorem cond_shown {env : Env} {store : Text → Option Val} {σ : Text → Int} {φ : Text → Bool} (real : Text → Text)
    (hs : Setting env) (c : Cond) (hv : ∀ n ∈ c.vars, IsInt env store σ n) (hf : ∀ n ∈ c.flags, IsFlag env store φ n)
    (hk : ∀ k ∈ c.nums, k < 2 ^ 31) (hc : c.Clear = true) {e : Expr.Expr} (he : typed env (synCond c) = some e) :
    shown real e = Lex.render (piecesCond c) := by
  induction c generalizing e with
  | flag n =>
    obtain ⟨⟨c, hl⟩, -⟩ := hf n (by simp [Cond.flags])
    simp only [synCond, typed, hl, Option.map_some, Option.some.injEq] at he
    subst he
    simp [shown, piecesCond, Lex.render, Lex.Piece.render]
  | const b => simp [Cond.Clear] at hc
  | not c ih =>
    obtain ⟨x, h1, -, -⟩ := cond_eval hs c hv hf hk
    simp only [synCond, typed, h1, Option.bind_some, Expr.buildPrefix, if_true, Option.some.injEq] at he
    subst he
    simp [shown, ih hv hf hk (Cond.clear_not hc).2 h1, piecesCond, Lex.render, Lex.Piece.render]
  | and c d ihc ihd =>
    have hv1 : ∀ n ∈ c.vars, IsInt env store σ n := fun n h => hv n (by simp [Cond.vars, h])
    have hv2 : ∀ n ∈ d.vars, IsInt env store σ n := fun n h => hv n (by simp [Cond.vars, h])
    have hf1 : ∀ n ∈ c.flags, IsFlag env store φ n := fun n h => hf n (by simp [Cond.flags, h])
    have hf2 : ∀ n ∈ d.flags, IsFlag env store φ n := fun n h => hf n (by simp [Cond.flags, h])
    have hk1 : ∀ k ∈ c.nums, k < 2 ^ 31 := fun k h => hk k (by simp [Cond.nums, h])
    have hk2 : ∀ k ∈ d.nums, k < 2 ^ 31 := fun k h => hk k (by simp [Cond.nums, h])
    obtain ⟨x, hx1, -, -⟩ := cond_eval hs c hv1 hf1 hk1
    obtain ⟨y, hy1, -, -⟩ := cond_eval hs d hv2 hf2 hk2
    simp only [Cond.Clear, Bool.and_eq_true] at hc
    simp only [synCond, typed, hx1, hy1, Option.bind_some, Expr.build, Option.some.injEq] at he
    subst he
    have ho : operatorText .AND = "&&".toList := rfl
    simp [shown, ihc hv1 hf1 hk1 hc.1 hx1, ihd hv2 hf2 hk2 hc.2 hy1, piecesCond, Lex.render, Lex.Piece.render, ho]
  | or c d ihc ihd =>
    have hv1 : ∀ n ∈ c.vars, IsInt env store σ n := fun n h => hv n (by simp [Cond.vars, h])
    have hv2 : ∀ n ∈ d.vars, IsInt env store σ n := fun n h => hv n (by simp [Cond.vars, h])
    have hf1 : ∀ n ∈ c.flags, IsFlag env store φ n := fun n h => hf n (by simp [Cond.flags, h])
    have hf2 : ∀ n ∈ d.flags, IsFlag env store φ n := fun n h => hf n (by simp [Cond.flags, h])
    have hk1 : ∀ k ∈ c.nums, k < 2 ^ 31 := fun k h => hk k (by simp [Cond.nums, h])
    have hk2 : ∀ k ∈ d.nums, k < 2 ^ 31 := fun k h => hk k (by simp [Cond.nums, h])
    obtain ⟨x, hx1, -, -⟩ := cond_eval hs c hv1 hf1 hk1
    obtain ⟨y, hy1, -, -⟩ := cond_eval hs d hv2 hf2 hk2
    simp only [Cond.Clear, Bool.and_eq_true] at hc
    simp only [synCond, typed, hx1, hy1, Option.bind_some, Expr.build, Option.some.injEq] at he
    subst he
    have ho : operatorText .OR = "||".toList := rfl
    simp [shown, ihc hv1 hf1 hk1 hc.1 hx1, ihd hv2 hf2 hk2 hc.2 hy1, piecesCond, Lex.render, Lex.Piece.render, ho]
  | cmp r a b =>
    have hva : ∀ n ∈ a.vars, IsInt env store σ n := fun n hn => hv n (by simp [Cond.vars, hn])
    have hvb : ∀ n ∈ b.vars, IsInt env store σ n := fun n hn => hv n (by simp [Cond.vars, hn])
    have hka : ∀ k ∈ a.nums, k < 2 ^ 31 := fun k h => hk k (by simp [Cond.nums, h])
    have hkb : ∀ k ∈ b.nums, k < 2 ^ 31 := fun k h => hk k (by simp [Cond.nums, h])
    obtain ⟨x, hx1, hx2, -, -⟩ := num_eval hs a hva hka
    obtain ⟨y, hy1, hy2, -, -⟩ := num_eval hs b hvb hkb
    obtain ⟨-, -, hne⟩ := Cond.clear_cmp hc
    simp only [synCond, typed, hx1, hy1, Option.bind_some, Expr.build, cmp_build hs r hx2 hy2, if_neg hne,
      Option.some.injEq] at he
    subst he
    have ho : operatorText (relTy r) = relChars r := by cases r <;> first | rfl | exact absurd rfl hne
    simp [shown, num_shown real hs a hva hka hx1, num_shown real hs b hvb hkb hy1, piecesCond, Lex.render, Lex.Piece.render, ho,
      List.flatMap_map]

theorem fullCond_names (c : Cond) (n : Text) (h : n ∈ (fullCond c).flatMap Mark.names) : n ∈ c.vars ∨ n ∈ c.flags := by
  have num : ∀ a : Num, n ∈ (fullNum a).flatMap Mark.names → n ∈ a.vars := by
    intro a
    induction a with
    | num k => simp [fullNum, Mark.names]
    | var m => simp [fullNum, Mark.names, Num.vars]
    | neg a ih => simpa [fullNum, Mark.names, Num.vars] using ih
    | bin op a b iha ihb =>
      intro h
      simp only [fullNum, List.cons_append, List.flatMap_cons, List.flatMap_append, Mark.names, List.mem_append,
        List.flatMap_nil] at h
      simp only [Num.vars, List.mem_append]
      rcases h with h | (h | h | h) | h
      · simp at h
      · exact Or.inl (iha h)
      · simp at h
      · exact Or.inr (ihb h)
      · simp at h
  induction c with
  | cmp r a b =>
    simp only [fullCond, List.cons_append, List.flatMap_cons, List.flatMap_append, Mark.names, List.mem_append,
      List.flatMap_nil] at h
    simp only [Cond.vars, List.mem_append]
    rcases h with h | (h | h | h) | h
    · simp at h
    · exact Or.inl (Or.inl (num a h))
    · simp at h
    · exact Or.inl (Or.inr (num b h))
    · simp at h
  | flag m => right; simpa [fullCond, Mark.names, Cond.flags] using h
  | const b => simp [fullCond, Mark.names] at h
  | not c ih => simpa [fullCond, Mark.names, Cond.vars, Cond.flags] using ih (by simpa [fullCond, Mark.names] using h)
  | and c d ihc ihd =>
    simp only [fullCond, List.cons_append, List.flatMap_cons, List.flatMap_append, Mark.names, List.mem_append,
      List.flatMap_nil] at h
    simp only [Cond.vars, Cond.flags, List.mem_append]
    rcases h with h | (h | h | h) | h
    · simp at h
    · rcases ihc h with h | h <;> simp [h]
    · simp at h
    · rcases ihd h with h | h <;> simp [h]
    · simp at h
  | or c d ihc ihd =>
    simp only [fullCond, List.cons_append, List.flatMap_cons, List.flatMap_append, Mark.names, List.mem_append,
      List.flatMap_nil] at h
    simp only [Cond.vars, Cond.flags, List.mem_append]
    rcases h with h | (h | h | h) | h
    · simp at h
    · rcases ihc h with h | h <;> simp [h]
    · simp at h
    · rcases ihd h with h | h <;> simp [h]
    · simp at h

/-! ## The property -/

/-- **C160.**  `assert(c);` for a condition `c`, in all spellings and layouts: it passes exactly if the condition is true; if it is
false, the exception carries a text that, when it is read again, is the same expression: what failed can be seen from it. -/
theorem assertion_told_partial {env : Env} {store : Text → Option Val} {σ : Text → Int} {φ : Text → Bool} (real : Text → Text)
    {c : Cond} {ms : List Mark} {text : Text} (hset : Setting env) (hsp : SpellsCond .any c ms) (hl : Laid ms text)
    (hap : Apart ms) (hn : ∀ n ∈ ms.flatMap Mark.names, PlainName n)
    (hp : ∀ n ∈ c.vars ++ c.flags, PlainName n) (hv : ∀ n ∈ c.vars, IsInt env store σ n)
    (hf : ∀ n ∈ c.flags, IsFlag env store φ n) (hk : ∀ k ∈ c.nums, k < 2 ^ 31) (hc : c.Clear = true) :
    ∃ ts e rest, Lex.tokenize text = .ok ts ∧ Expr.parse env ts = .ok e rest ∧
      ∃ told, (∃ ts' rest', Lex.tokenize (told ++ [';']) = .ok ts' ∧ Expr.parse env ts' = .ok e rest' ∧
          rest'.map Tok.ty = [.SEMICOLON, .ENDOFFILE]) ∧
        assertion real store e = match truth σ φ c with
          | some true => .passes
          | some false => .fails ("Assertion failed: ".toList ++ told)
          | none => .undefined := by
  obtain ⟨e, h1, h2, h3⟩ := cond_eval hset c hv hf hk
  obtain ⟨ts, rest, h5, h6, -⟩ := read_formula (cond_shape hsp) hap hl hn (fun ts h => cond_der env hsp ts h) h1
  have hsp' : SpellsCond .any c (fullCond c) := .conj (.conjOne (.negated (fullCond_spells c hc).1))
  obtain ⟨ts', rest', g5, g6, g7⟩ := read_formula (cond_shape hsp') (fullCond_apart c hc)
    (fullCond_laid c (fun n h => hp n (by simp [h])) (fun n h => hp n (by simp [h])))
    (fun n h => hp n (List.mem_append.mpr (fullCond_names c n h))) (fun ts h => cond_der env hsp' ts h) h1
  refine ⟨ts, e, rest, h5, h6, shown real e, ⟨ts', rest', ?_, g6, g7⟩, ?_⟩
  · rw [cond_shown real hset c hv hf hk hc h1]; exact g5
  · simp only [assertion, h3]
    rcases truth σ φ c with _ | _ | _ <;> rfl

/-- C160 is false for `!=`: whatever is compared, when `assert(a != b);` fails, the text is that of `a == b`, which is the
opposite of what was asserted, and true. -/
theorem assertion_unequal_refuted {env : Env} {store : Text → Option Val} {σ : Text → Int} (real : Text → Text) {a b : Num}
    (hset : Setting env) (hv : ∀ n ∈ a.vars ++ b.vars, IsInt env store σ n) (hk : ∀ k ∈ a.nums ++ b.nums, k < 2 ^ 31) {v : Int}
    (ha : value σ a = some v) (hb : value σ b = some v) :
    ∃ ne eq, typed env (synCond (.cmp .ne a b)) = some ne ∧ typed env (synCond (.cmp .eq a b)) = some eq ∧
      assertion real store ne = .fails ("Assertion failed: ".toList ++ shown real eq) ∧ assertion real store eq = .passes := by
  obtain ⟨x, hx1, hx2, -, hx4⟩ := num_eval hset a (fun n h => hv n (by simp [h])) (fun k h => hk k (by simp [h]))
  obtain ⟨y, hy1, hy2, -, hy4⟩ := num_eval hset b (fun n h => hv n (by simp [h])) (fun k h => hk k (by simp [h]))
  have hr : ∀ r : Rel, typed env (synCond (.cmp r a b))
      = some (if r = .ne then .not [] (.boolean .COMPARE_EQUAL x y) else .boolean (relTy r) x y) := by
    intro r
    simp [synCond, typed, hx1, hy1, Expr.build, cmp_build hset r hx2 hy2]
  have he : ∀ r : Rel, ∃ e, typed env (synCond (.cmp r a b)) = some e ∧ eval store e = .ok (.bool (r.holds v v)) := by
    intro r
    obtain ⟨e, h1, -, h3⟩ := cond_eval (φ := fun _ => true) hset (.cmp r a b) (fun n h => hv n (by simpa [Cond.vars] using h))
      (by simp [Cond.flags]) (fun k h => hk k (by simpa [Cond.nums] using h))
    exact ⟨e, h1, by rw [h3]; simp [truth, ha, hb, condOut]⟩
  obtain ⟨e1, h1, g1⟩ := he .ne
  obtain ⟨e2, h2, g2⟩ := he .eq
  rw [hr, Option.some.injEq] at h1 h2
  refine ⟨e1, e2, by rw [hr, h1], by rw [hr, h2], ?_, ?_⟩
  · simp only [assertion, g1]
    subst h1; subst h2
    simp [Rel.holds, isTrue, shown]
    rfl
  · simp only [assertion, g2]
    simp [Rel.holds, isTrue]

/-- C160 is false for the words `true` and `false`: the text shows the numbers 1 and 0, and comparing with them is the same text as
comparing a truth value with a number. -/
theorem assertion_truth_refuted (env : Env) (real : Text → Text) (b : Bool) :
    ∃ word digit, typed env (synCond (.const b)) = some word ∧ typed env (synNum (.num (if b then 1 else 0))) = some digit ∧
      word.ty = .b .bool ∧ digit.ty = .b .int32 ∧ shown real word = shown real digit := by
  cases b
  · exact ⟨.lit (.bool false), .lit (.int32 0), by simp [synCond, typed, Expr.literal, boolText]; decide, by
      simp [synNum, typed, Expr.literal, Str.natDigits, Str.digitChar]; decide, rfl, rfl, by
      simp [shown, literalText, Str.intToString, Str.natDigits, Str.digitChar]⟩
  · exact ⟨.lit (.bool true), .lit (.int32 1), by simp [synCond, typed, Expr.literal, boolText]; decide, by
      simp [synNum, typed, Expr.literal, Str.natDigits, Str.digitChar]; decide, rfl, rfl, by
      simp [shown, literalText, Str.intToString, Str.natDigits, Str.digitChar]⟩

/-- C160 is false for two signs: `-(-n)`, which has a value and leaves the variable as it is, has the same text as `n--` (and
`n++` the text that its value as a prefix would have). -/
theorem assertion_signs_refuted {env : Env} {n : Text} (real : Text → Text) (hset : Setting env)
    (hl : env.lookup n = some ⟨.var, .b .int32, true, false⟩) :
    ∃ minus less, typed env (synNum (.neg (.neg (.var n)))) = some minus ∧ typed env (.incdec n .OPERATOR_DECREMENT) = some less ∧
      minus ≠ less ∧ shown real minus = shown real less := by
  refine ⟨.unary .MATH_SUBTRACT false (.unary .MATH_SUBTRACT false (.sym n ⟨.var, .b .int32, true, false⟩)),
    .unary .OPERATOR_DECREMENT true (.sym n ⟨.var, .b .int32, true, false⟩), ?_, ?_, by simp, ?_⟩
  · simp [synNum, typed, hl, Expr.buildPrefix, Expr.Expr.ty, minus_type hset]
  · simp [typed, hl, Expr.buildIncDec]
  · have h1 : operatorText .MATH_SUBTRACT = ['-'] := rfl
    have h2 : operatorText .OPERATOR_DECREMENT = ['-', '-'] := rfl
    simp [shown, h1, h2]

/-- C160 is false for the operators of classes: which object is on the left cannot be seen, `a == b` and `c == b` have the same
text `operator==(b)`. -/
theorem assertion_object_refuted (real : Text → Text) (o1 o2 : Expr.Expr) (op : Text) (args : List Expr.Expr) (ty : TName) :
    shown real (.opCall o1 op args ty) = shown real (.opCall o2 op args ty) := by
  simp [shown]

/-! ## Examples -/

namespace Demo

/-- `!ok || a * (b - 1) > -n`. -/
def claim : Cond :=
  .or (.not (.flag ['o', 'k'])) (.cmp .gt (.bin .mul (.var ['a']) (.bin .sub (.var ['b']) (.num 1))) (.neg (.var ['n'])))

def claimMarks : List Mark :=
  [.not, .name ['o', 'k'], .or, .name ['a'], .op .mul, .open, .name ['b'], .op .sub, .num 1, .close, .rel .gt, .op .sub, .name ['n']]

theorem claimSpelled : SpellsCond .any claim claimMarks :=
  .disj (.or (.disjOne (.negated (.not (.flag _))))
    (.cmp (.factor (.product (.inl rfl) (.signed (.atom (.var _)))
      (.atom (.paren (.sum (.inr rfl) (.factor (.signed (.atom (.var _)))) (.signed (.atom (.num _))))))))
      (.factor (.signed (.neg (.var _))))))

def claimText : Text := "! ok||a*(b-1)>-n;".toList

theorem claimLaid : Laid claimMarks claimText := by
  refine ⟨[.sym '!', .blank ' ', .word ['o', 'k'], .sym '|', .sym '|', .word ['a'], .sym '*', .sym '(', .word ['b'], .sym '-',
    .word ['1'], .sym ')', .sym '>', .sym '-', .word ['n'], .sym ';'],
    ?_, by decide, by simp [isGap, claimMarks, Mark.pieces, relChars, opChar, Str.natDigits, Str.digitChar]⟩
  simp [Lex.WellFormed, Lex.Piece.Ok, Lex.Follows, Lex.symbols, Lex.whitespaces, Lex.delimiters, Lex.controlChars, Lex.nul]

/-- The hypotheses of `assertion_told_partial` are met, and the assertion fails: 7 * (-3 - 1) is not more than -2. -/
example : ∃ ts e rest, Lex.tokenize claimText = .ok ts ∧ Expr.parse env ts = .ok e rest ∧
    ∃ told, (∃ ts' rest', Lex.tokenize (told ++ [';']) = .ok ts' ∧ Expr.parse env ts' = .ok e rest' ∧
        rest'.map Tok.ty = [.SEMICOLON, .ENDOFFILE]) ∧
      assertion id store e = .fails ("Assertion failed: ".toList ++ told) :=
  assertion_told_partial (φ := flags) (c := claim) id setting claimSpelled claimLaid (by simp [Apart, claimMarks])
    (fun n hn => plain_names n (by revert n; decide))
    (fun n hn => plain_names n (by revert n; decide))
    (fun n hn => is_int (by revert n; decide))
    (fun n hn => by
      have : n = ['o', 'k'] := by revert n; decide
      subst this; exact ⟨⟨false, rfl⟩, rfl⟩)
    (by decide) (by decide)

/-- The text itself. -/
example : (typed env (synCond claim)).map (assertion id store)
    = some (.fails "Assertion failed: (!ok || ((a * (b - 1)) > -n))".toList) := by
  decide +kernel

/-- The hypotheses of `assertion_unequal_refuted` are met by `assert(a + b != 2 * n);` with 7, -3 and 2. -/
example : ∃ ne eq, typed env (synCond (.cmp .ne (.bin .add (.var ['a']) (.var ['b'])) (.bin .mul (.num 2) (.var ['n'])))) = some ne ∧
    typed env (synCond (.cmp .eq (.bin .add (.var ['a']) (.var ['b'])) (.bin .mul (.num 2) (.var ['n'])))) = some eq ∧
    assertion id store ne = .fails ("Assertion failed: ".toList ++ shown id eq) ∧ assertion id store eq = .passes :=
  assertion_unequal_refuted (v := 4) id setting (fun n hn => is_int (by revert n; decide)) (by decide) (by decide) (by decide)

/-- The hypotheses of `assertion_signs_refuted` are met by `a`. -/
example : ∃ minus less, typed env (synNum (.neg (.neg (.var ['a'])))) = some minus ∧
    typed env (.incdec ['a'] .OPERATOR_DECREMENT) = some less ∧ minus ≠ less ∧ shown id minus = shown id less :=
  assertion_signs_refuted id setting rfl

end Demo

end Verif.Calc
