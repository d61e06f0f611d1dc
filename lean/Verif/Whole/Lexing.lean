import Verif.Whole.Spec
import Verif.Calc.Lexing

/-! # The tokens of a program -/

namespace Verif.Whole

open Verif.Str (Text)
open Verif.Lex
open Verif.Calc (erase tok headTy Shape starter ender num_shape cond_shape)

/-! ## The tokens of a mark before, between and after the two passes -/

def wordTok (w : Word) : Tok := tok .keyword .KEYWORD w.text

/-- The token types of `+=` … -/
def changeTy : Ints.Op → Ty
  | .add => .ASSIGN_ADDITION
  | .sub => .ASSIGN_SUBTRACT
  | .mul => .ASSIGN_MULTIPLY
  | .div => .ASSIGN_DIVIDE
  | .mod => .ASSIGN_MODULO

/-- The texts of these tokens. -/
def changeText : Ints.Op → Text
  | .add => "+=".toList
  | .sub => "-=".toList
  | .mul => "*=".toList
  | .div => "/=".toList
  | .mod => "*=".toList

/-- One half of `++` or `--`. -/
def half (up : Bool) : Tok := if up then tok .operator .MATH_ADDITION ['+'] else tok .operator .MATH_SUBTRACT ['-']

/-- `++` or `--`. -/
def twiceTok (up : Bool) : Tok :=
  if up then tok .operator .OPERATOR_INCREMENT "++".toList else tok .operator .OPERATOR_DECREMENT "--".toList

def raw : Mark → List Tok
  | .formula m => Calc.raw m
  | .word w => [wordTok w]
  | .change o => [tok .operator (Calc.opTy o) [Calc.opChar o], tok .assignment .ASSIGN ['=']]
  | .twice up => [half up, half up]
  | .text t => [tok .constant .CONST_LITERAL t]
  | .assign => [tok .assignment .ASSIGN ['=']]
  | .semi => [tok .none .SEMICOLON [';']]
  | .comma => [tok .none .COMMA [',']]
  | .colon => [tok .none .COLON [':']]
  | .lcurly => [tok .none .BRACKET_CURLY_OPEN ['{']]
  | .rcurly => [tok .none .BRACKET_CURLY_CLOSE ['}']]

def mid : Mark → List Tok
  | .formula m => Calc.mid m
  | .change o => [tok .assignment (changeTy o) (changeText o)]
  | m => raw m

def fin : Mark → Tok
  | .formula m => Calc.fin m
  | .word w => wordTok w
  | .change o => tok .assignment (changeTy o) (changeText o)
  | .twice up => twiceTok up
  | .text t => tok .constant .CONST_LITERAL t
  | .assign => tok .assignment .ASSIGN ['=']
  | .semi => tok .none .SEMICOLON [';']
  | .comma => tok .none .COMMA [',']
  | .colon => tok .none .COLON [':']
  | .lcurly => tok .none .BRACKET_CURLY_OPEN ['{']
  | .rcurly => tok .none .BRACKET_CURLY_CLOSE ['}']

/-- The names of a mark. -/
def Mark.names : Mark → List Text
  | .formula m => m.names
  | _ => []

theorem pieceToks_marks {m : Mark} (h : ∀ n ∈ m.names, PlainName n) : m.pieces.flatMap Calc.pieceToks = raw m := by
  cases m with
  | formula m => exact Calc.pieceToks_marks h
  | word w => cases w <;> rfl
  | change o => cases o <;> rfl
  | twice up => cases up <;> rfl
  | text t => simp [Mark.pieces, Lex.quotedPiece, Calc.pieceToks, Piece.expect, erase, raw, tok, Function.comp_def]
  | _ => rfl

/-! ## Which marks may stand side by side -/

/-- The last token of a mark after the first pass. -/
def lastTy : Mark → Ty
  | .formula m => Calc.lastTy m
  | .twice up => (half up).ty
  | m => (fin m).ty

/-- The two passes leave the marks apart, and they are not a number with a suffix. -/
structure Joins (a b : Mark) : Prop where
  first : assignRule (lastTy a) (headTy (raw b)) = none
  second : operatorRule (fin a).ty (headTy (mid b)) = none
  suffix : ¬ ((fin a).ty = .CONST_INTEGER ∧ (fin b).ty = .IDENTIFIER)

/-- A relation between neighbours. -/
def Chained : List Mark → Prop
  | [] => True
  | [_] => True
  | a :: b :: ms => Joins a b ∧ Chained (b :: ms)

/-- Marks that never become part of another token. -/
def quiet : Mark → Bool
  | .formula m => ender m || m == .open
  | .assign => false
  | .change _ => false
  | .twice _ => false
  | _ => true

def isNum : Mark → Bool
  | .formula (.num _) => true
  | _ => false

def isName : Mark → Bool
  | .formula (.name _) => true
  | _ => false

theorem fin_num {a : Mark} (h : (fin a).ty = .CONST_INTEGER) : isNum a = true := by
  cases a with
  | formula m => cases m with
    | num k => rfl
    | op o => cases o <;> cases h
    | rel r => cases r <;> cases h
    | _ => cases h
  | change o => cases o <;> cases h
  | twice up => cases up <;> cases h
  | _ => cases h

theorem fin_name {a : Mark} (h : (fin a).ty = .IDENTIFIER) : isName a = true := by
  cases a with
  | formula m => cases m with
    | name n => rfl
    | op o => cases o <;> cases h
    | rel r => cases r <;> cases h
    | _ => cases h
  | change o => cases o <;> cases h
  | twice up => cases up <;> cases h
  | _ => cases h

theorem quiet_ty {a : Mark} (h : quiet a = true) : lastTy a = (fin a).ty ∧ (fin a).ty ∈
    [Ty.IDENTIFIER, .CONST_INTEGER, .CONST_BOOLEAN, .PARENTHESIS_OPEN, .PARENTHESIS_CLOSE, .KEYWORD, .CONST_LITERAL, .SEMICOLON, .COMMA,
      .COLON, .BRACKET_CURLY_OPEN, .BRACKET_CURLY_CLOSE] := by
  cases a with
  | formula m => cases m with
    | op o => cases o <;> cases h
    | rel r => cases r <;> cases h
    | name n => exact ⟨rfl, by simp [fin, Calc.fin, tok]⟩
    | num n => exact ⟨rfl, by simp [fin, Calc.fin, tok]⟩
    | const n => exact ⟨rfl, by simp [fin, Calc.fin, tok]⟩
    | «open» => exact ⟨rfl, by simp [fin, Calc.fin, tok]⟩
    | close => exact ⟨rfl, by simp [fin, Calc.fin, tok]⟩
    | _ => cases h
  | assign => cases h
  | change _ => cases h
  | twice _ => cases h
  | word w => exact ⟨rfl, by simp [fin, wordTok, tok]⟩
  | _ => exact ⟨rfl, by simp [fin, tok]⟩

theorem quiet_rules : ∀ t ∈ [Ty.IDENTIFIER, .CONST_INTEGER, .CONST_BOOLEAN, .PARENTHESIS_OPEN, .PARENTHESIS_CLOSE, .KEYWORD,
    .CONST_LITERAL, .SEMICOLON, .COMMA, .COLON, .BRACKET_CURLY_OPEN, .BRACKET_CURLY_CLOSE],
    ∀ u, assignRule t u = none ∧ operatorRule t u = none := by
  intro t ht u
  simp only [List.mem_cons, List.not_mem_nil, or_false] at ht
  rcases ht with rfl | rfl | rfl | rfl | rfl | rfl | rfl | rfl | rfl | rfl | rfl | rfl <;> exact ⟨rfl, rfl⟩

theorem joins_quiet {a b : Mark} (h : quiet a = true) (hn : isNum a = false ∨ isName b = false) : Joins a b := by
  obtain ⟨h1, h2⟩ := quiet_ty h
  refine ⟨by rw [h1]; exact (quiet_rules _ h2 _).1, (quiet_rules _ h2 _).2, fun h' => ?_⟩
  rcases hn with hn | hn
  · rw [fin_num h'.1] at hn; cases hn
  · rw [fin_name h'.2] at hn; cases hn

theorem joins_formula {a b : Calc.Mark} (h : Calc.joins a b = true) : Joins (.formula a) (.formula b) := by
  refine ⟨Calc.assign_join h, Calc.operator_join h, fun h' => ?_⟩
  obtain ⟨h1, h2⟩ := h'
  have h1 := fin_num h1
  have h2 := fin_name h2
  cases a <;> cases h1
  cases b <;> cases h2
  simp [Calc.joins, Calc.follows, Calc.ender, Calc.closes, Calc.leads, Calc.between] at h

theorem joins_assign {b : Calc.Mark} (h : starter b = true) : Joins .assign (.formula b) := by
  cases b with
  | op o => cases o <;> first | exact ⟨rfl, rfl, nofun⟩ | cases h
  | rel r => cases r <;> cases h
  | name n => exact ⟨rfl, rfl, nofun⟩
  | num n => exact ⟨rfl, rfl, nofun⟩
  | const n => exact ⟨rfl, rfl, nofun⟩
  | «open» => exact ⟨rfl, rfl, nofun⟩
  | not => exact ⟨rfl, rfl, nofun⟩
  | _ => cases h

theorem joins_change (o : Ints.Op) {b : Calc.Mark} (h : starter b = true) : Joins (.change o) (.formula b) := by
  cases b with
  | op o' => cases o' <;> first | (cases o <;> exact ⟨rfl, rfl, nofun⟩) | cases h
  | rel r => cases r <;> cases h
  | name n => cases o <;> exact ⟨rfl, rfl, nofun⟩
  | num n => cases o <;> exact ⟨rfl, rfl, nofun⟩
  | const n => cases o <;> exact ⟨rfl, rfl, nofun⟩
  | «open» => cases o <;> exact ⟨rfl, rfl, nofun⟩
  | not => cases o <;> exact ⟨rfl, rfl, nofun⟩
  | _ => cases h

theorem chained_cons {a : Mark} {ms : List Mark} (h : quiet a = true) (hn : isNum a = false) (hm : Chained ms) : Chained (a :: ms) := by
  cases ms with
  | nil => trivial
  | cons b ms => exact ⟨joins_quiet h (.inl hn), hm⟩

/-- Something that ends with a quiet mark, and not with a number. -/
theorem chained_append {as bs : List Mark} (ha : Chained as) (hb : Chained bs)
    (hq : ∀ x ∈ as.getLast?, quiet x = true ∧ isNum x = false) : Chained (as ++ bs) := by
  induction as with
  | nil => exact hb
  | cons a as ih =>
    cases as with
    | nil => exact chained_cons (hq a rfl).1 (hq a rfl).2 hb
    | cons b as => exact ⟨ha.1, ih ha.2 fun x hx => hq x (by simpa using hx)⟩

/-- Not the beginning of a name. -/
def NoName : List Mark → Prop
  | [] => True
  | b :: _ => isName b = false

theorem chained_formula {ms : List Calc.Mark} {rest : List Mark} (hs : Shape ms) (ha : Calc.Apart ms) (hr : Chained rest)
    (hn : NoName rest) : Chained (marks ms ++ rest) := by
  have hc := Calc.chain_joins hs.chain ha
  obtain ⟨z, q, hq, hz⟩ := hs.last
  clear hs ha
  induction ms generalizing q with
  | nil => exact hr
  | cons a ms ih =>
    cases ms with
    | nil =>
      have : z = a := by
        cases q with
        | nil => cases hq; rfl
        | cons x q => simp at hq
      subst this
      cases rest with
      | nil => trivial
      | cons b rest => exact ⟨joins_quiet (by simp [quiet, hz]) (.inr hn), hr⟩
    | cons b ms =>
      cases q with
      | nil => simp at hq
      | cons x q =>
        simp only [List.cons_append, List.cons.injEq] at hq
        exact ⟨joins_formula hc.1, ih hc.2 q hq.2⟩

theorem chained_assign {ms : List Calc.Mark} {rest : List Mark} (hs : Shape ms) (h : Chained (marks ms ++ rest)) :
    Chained (.assign :: (marks ms ++ rest)) := by
  obtain ⟨a, r, rfl, ha⟩ := hs.first
  exact ⟨joins_assign ha, h⟩

/-- A change, before `;` or `)`. -/
theorem change_chained {d : Change} {ms : List Mark} (h : WritesChange d ms) {b : Mark} {rest : List Mark} (hb : b = .semi ∨ b = .rparen)
    (hr : Chained (b :: rest)) : Chained (ms ++ b :: rest) := by
  have hn : NoName (b :: rest) := by rcases hb with rfl | rfl <;> rfl
  cases h with
  | to h => exact chained_cons rfl rfl (chained_assign (num_shape h.1) (chained_formula (num_shape h.1) h.2 hr hn))
  | @«by» _ o _ ms h =>
    refine chained_cons rfl rfl ?_
    have := chained_formula (num_shape h.1) h.2 hr hn
    obtain ⟨a, r, rfl, ha⟩ := (num_shape h.1).first
    exact ⟨joins_change o ha, this⟩
  | @step up _ =>
    refine chained_cons rfl rfl ⟨?_, hr⟩
    rcases hb with rfl | rfl <;> cases up <;> exact ⟨rfl, rfl, nofun⟩

theorem args_chained {as : List Calc.Num} {ms : List Mark} (h : WritesArgs as ms) {rest : List Mark} (hr : Chained rest)
    (hn : NoName rest) : Chained (ms ++ rest) := by
  induction h with
  | nil => exact hr
  | one h => exact chained_formula (num_shape h.1) h.2 hr hn
  | more h _ ih =>
    rw [List.append_assoc, List.cons_append]
    exact chained_formula (num_shape h.1) h.2 (chained_cons rfl rfl ih) rfl

theorem joins_plus {b : Calc.Mark} (h : starter b = true) : Joins (.formula (.op .add)) (.formula b) := by
  cases b with
  | op o => cases o <;> first | exact ⟨rfl, rfl, nofun⟩ | cases h
  | rel r => cases r <;> cases h
  | name n => exact ⟨rfl, rfl, nofun⟩
  | num n => exact ⟨rfl, rfl, nofun⟩
  | const n => exact ⟨rfl, rfl, nofun⟩
  | «open» => exact ⟨rfl, rfl, nofun⟩
  | not => exact ⟨rfl, rfl, nofun⟩
  | _ => cases h

theorem parts_chained {ps : List Part} {ms : List Mark} (h : WritesParts ps ms) {rest : List Mark} (hr : Chained rest)
    (hn : NoName rest) : Chained (ms ++ rest) ∧ NoName (ms ++ rest) := by
  induction h with
  | nil => exact ⟨hr, hn⟩
  | num h ha _ ih =>
    simp only [List.cons_append, List.append_assoc]
    have := chained_formula (num_shape h) ha ih.1 ih.2
    obtain ⟨a, r, rfl, hs⟩ := (num_shape h).first
    exact ⟨⟨joins_plus hs, this⟩, rfl⟩
  | truth h ha _ ih =>
    simp only [List.cons_append, List.append_assoc]
    have := chained_formula (cond_shape h) ha ih.1 ih.2
    obtain ⟨a, r, rfl, hs⟩ := (cond_shape h).first
    exact ⟨⟨joins_plus hs, this⟩, rfl⟩
  | text _ ih => exact ⟨⟨⟨rfl, rfl, nofun⟩, chained_cons rfl rfl ih.1⟩, rfl⟩
  | var _ ih => exact ⟨⟨⟨rfl, rfl, nofun⟩, chained_cons rfl rfl ih.1⟩, rfl⟩

/-- The beginning of a text. -/
theorem start_chained (h : Start) {rest : List Mark} (hr : Chained rest) : Chained (h.mark :: rest) ∧ Joins .assign h.mark := by
  cases h with
  | text t => exact ⟨chained_cons rfl rfl hr, rfl, rfl, nofun⟩
  | var n => exact ⟨chained_cons rfl rfl hr, rfl, rfl, nofun⟩

/-- The blocks of a `switch`. -/
theorem arms_chained : ∀ {xs : List Arm}, (∀ x ∈ xs, ∀ b, x.label = some b → WritesNum b x.ms) →
    (∀ x ∈ xs, ∀ {rest : List Mark}, Chained rest → Chained (x.ts ++ rest)) → ∀ {rest : List Mark}, Chained rest →
    Chained (xs.flatMap Arm.marks ++ rest)
  | [], _, _, _, hr => hr
  | x :: xs, hm, hc, rest, hr => by
    have ih := arms_chained (fun y hy => hm y (List.mem_cons_of_mem _ hy)) (fun y hy => hc y (List.mem_cons_of_mem _ hy)) hr
    obtain ⟨label, cmds, ms, ts⟩ := x
    have hb := hc _ List.mem_cons_self (chained_cons (a := .rcurly) rfl rfl ih)
    cases label with
    | none =>
      simp only [List.flatMap_cons, Arm.marks, List.cons_append, List.append_assoc, List.nil_append]
      exact chained_cons rfl rfl (chained_cons rfl rfl (chained_cons rfl rfl hb))
    | some a =>
      have h := hm _ List.mem_cons_self a rfl
      simp only [List.flatMap_cons, Arm.marks, List.cons_append, List.append_assoc, List.nil_append]
      exact chained_cons rfl rfl (chained_formula (num_shape h.1) h.2 (chained_cons rfl rfl (chained_cons rfl rfl hb)) rfl)

theorem writes_chained {cs : List Cmd} {ms : List Mark} (h : Writes cs ms) : ∀ {rest : List Mark}, Chained rest → Chained (ms ++ rest) := by
  induction h with
  | nil => exact fun hr => hr
  | int h _ ih =>
    intro rest hr
    simp only [List.cons_append, List.append_assoc]
    exact chained_cons rfl rfl (chained_cons rfl rfl (chained_assign (num_shape h.1)
      (chained_formula (num_shape h.1) h.2 (chained_cons rfl rfl (ih hr)) rfl)))
  | bool h _ ih =>
    intro rest hr
    simp only [List.cons_append, List.append_assoc]
    exact chained_cons rfl rfl (chained_cons rfl rfl (chained_assign (cond_shape h.1)
      (chained_formula (cond_shape h.1) h.2 (chained_cons rfl rfl (ih hr)) rfl)))
  | set h _ ih =>
    intro rest hr
    simp only [List.cons_append, List.append_assoc]
    exact change_chained h (.inl rfl) (chained_cons rfl rfl (ih hr))
  | text h _ ih =>
    intro rest hr
    simp only [List.cons_append, List.append_assoc]
    have := start_chained ‹Start› (parts_chained h (chained_cons (a := .semi) rfl rfl (ih hr)) rfl).1
    exact chained_cons rfl rfl (chained_cons rfl rfl ⟨this.2, this.1⟩)
  | write h _ ih =>
    intro rest hr
    simp only [List.cons_append, List.append_assoc]
    have := start_chained ‹Start› (parts_chained h (chained_cons (a := .semi) rfl rfl (ih hr)) rfl).1
    exact chained_cons rfl rfl ⟨this.2, this.1⟩
  | fresh _ ih =>
    intro rest hr
    simp only [List.cons_append]
    exact chained_cons rfl rfl (chained_cons rfl rfl (chained_cons rfl rfl (ih hr)))
  | check h _ ih =>
    intro rest hr
    simp only [List.cons_append, List.append_assoc]
    exact chained_cons rfl rfl (chained_cons rfl rfl (chained_formula (cond_shape h.1) h.2
      (chained_cons rfl rfl (chained_cons rfl rfl (ih hr))) rfl))
  | mark h _ ih =>
    intro rest hr
    simp only [List.cons_append, List.append_assoc]
    exact chained_cons rfl rfl (chained_assign (cond_shape h.1)
      (chained_formula (cond_shape h.1) h.2 (chained_cons rfl rfl (ih hr)) rfl))
  | call h _ ih =>
    intro rest hr
    simp only [List.cons_append, List.append_assoc]
    refine chained_cons rfl rfl ⟨joins_assign rfl, chained_cons rfl rfl (chained_cons rfl rfl (args_chained h ?_ rfl))⟩
    exact chained_cons rfl rfl (chained_cons rfl rfl (ih hr))
  | callNew h _ ih =>
    intro rest hr
    simp only [List.cons_append, List.append_assoc]
    refine chained_cons rfl rfl (chained_cons rfl rfl ⟨joins_assign rfl, chained_cons rfl rfl (chained_cons rfl rfl (args_chained h ?_ rfl))⟩)
    exact chained_cons rfl rfl (chained_cons rfl rfl (ih hr))
  | callPrint h _ ih =>
    intro rest hr
    simp only [List.cons_append, List.append_assoc]
    refine chained_cons rfl rfl (chained_cons rfl rfl (chained_cons rfl rfl (chained_cons rfl rfl (args_chained h ?_ rfl))))
    exact chained_cons rfl rfl (chained_cons rfl rfl (chained_cons rfl rfl (ih hr)))
  | callRet h _ ih =>
    intro rest hr
    simp only [List.cons_append, List.append_assoc]
    refine chained_cons rfl rfl (chained_cons rfl rfl (chained_cons rfl rfl (args_chained h ?_ rfl)))
    exact chained_cons rfl rfl (chained_cons rfl rfl (ih hr))
  | act h _ ih =>
    intro rest hr
    simp only [List.cons_append, List.append_assoc]
    refine chained_cons rfl rfl (chained_cons rfl rfl (args_chained h ?_ rfl))
    exact chained_cons rfl rfl (chained_cons rfl rfl (ih hr))
  | count h hc hs _ _ ihb ih =>
    intro rest hr
    simp only [List.cons_append, List.append_assoc]
    exact chained_cons rfl rfl (chained_cons rfl rfl (chained_cons rfl rfl (chained_cons rfl rfl (chained_assign (num_shape h.1)
      (chained_formula (num_shape h.1) h.2 (chained_cons rfl rfl (chained_formula (cond_shape hc.1) hc.2
        (chained_cons rfl rfl (change_chained hs (.inr rfl)
          (chained_cons rfl rfl (chained_cons rfl rfl (ihb (chained_cons rfl rfl (ih hr))))))) rfl)) rfl)))))
  | say h _ ih =>
    intro rest hr
    simp only [List.cons_append, List.append_assoc]
    have := (parts_chained h (rest := .rparen :: .semi :: (_ ++ rest)) (chained_cons rfl rfl (chained_cons rfl rfl (ih hr))) rfl).1
    exact chained_cons rfl rfl (chained_cons rfl rfl (start_chained _ this).1)
  | leave _ ih =>
    intro rest hr
    exact chained_cons rfl rfl (chained_cons rfl rfl (ih hr))
  | print h _ ih =>
    intro rest hr
    simp only [List.cons_append, List.append_assoc]
    exact chained_cons rfl rfl (chained_cons rfl rfl
      (chained_formula (num_shape h.1) h.2 (chained_cons rfl rfl (chained_cons rfl rfl (ih hr))) rfl))
  | «when» h _ _ iht ih =>
    intro rest hr
    simp only [List.cons_append, List.append_assoc]
    exact chained_cons rfl rfl (chained_cons rfl rfl (chained_formula (cond_shape h.1) h.2
      (chained_cons rfl rfl (chained_cons rfl rfl (iht (chained_cons rfl rfl (ih hr))))) rfl))
  | choose h _ _ _ iht ihe ih =>
    intro rest hr
    simp only [List.cons_append, List.append_assoc]
    exact chained_cons rfl rfl (chained_cons rfl rfl (chained_formula (cond_shape h.1) h.2
      (chained_cons rfl rfl (chained_cons rfl rfl (iht (chained_cons rfl rfl (chained_cons rfl rfl (chained_cons rfl rfl
        (ihe (chained_cons rfl rfl (ih hr)))))))))  rfl))
  | chain h _ _ _ _ iht ihe ih =>
    intro rest hr
    simp only [List.cons_append, List.append_assoc]
    exact chained_cons rfl rfl (chained_cons rfl rfl (chained_formula (cond_shape h.1) h.2
      (chained_cons rfl rfl (chained_cons rfl rfl (iht (chained_cons rfl rfl (chained_cons rfl rfl
        (ihe (ih hr))))))) rfl))
  | pick h hm _ _ iht ih =>
    intro rest hr
    simp only [List.cons_append, List.append_assoc]
    exact chained_cons rfl rfl (chained_cons rfl rfl (chained_formula (num_shape h.1) h.2
      (chained_cons rfl rfl (chained_cons rfl rfl (arms_chained hm iht (chained_cons rfl rfl (ih hr))))) rfl))
  | loop h _ _ iht ih =>
    intro rest hr
    simp only [List.cons_append, List.append_assoc]
    exact chained_cons rfl rfl (chained_cons rfl rfl (chained_formula (cond_shape h.1) h.2
      (chained_cons rfl rfl (chained_cons rfl rfl (iht (chained_cons rfl rfl (ih hr))))) rfl))
  | block _ _ iht ih =>
    intro rest hr
    simp only [List.cons_append, List.append_assoc]
    exact chained_cons rfl rfl (iht (chained_cons rfl rfl (ih hr)))
  | brk _ ih =>
    intro rest hr
    exact chained_cons rfl rfl (chained_cons rfl rfl (ih hr))
  | cont _ ih =>
    intro rest hr
    exact chained_cons rfl rfl (chained_cons rfl rfl (ih hr))
  | ret h _ ih =>
    intro rest hr
    simp only [List.cons_append, List.append_assoc]
    exact chained_cons rfl rfl (chained_formula (num_shape h.1) h.2 (chained_cons rfl rfl (ih hr)) rfl)

theorem params_chained : ∀ (ns : List Text) {rest : List Mark}, Chained rest → Chained (paramMarks ns ++ rest)
  | [], _, hr => hr
  | [_], _, hr => chained_cons rfl rfl (chained_cons rfl rfl hr)
  | _ :: m :: ns, _, hr => chained_cons rfl rfl (chained_cons rfl rfl (chained_cons rfl rfl (params_chained (m :: ns) hr)))

theorem program_chained {p : Program} {ms : List Mark} (h : WritesProgram p ms) : Chained ms := by
  induction h with
  | nil => trivial
  | cons h _ ih =>
    exact chained_cons rfl rfl (chained_cons rfl rfl (chained_cons rfl rfl (params_chained _
      (chained_cons rfl rfl (chained_cons rfl rfl (writes_chained h (chained_cons rfl rfl ih)))))))

/-! ## The passes -/

theorem assign_block (m : Mark) (l : Tok) (tmp rest : List Tok) (h : assignRule l.ty (headTy (raw m)) = none) :
    mergeLoop assignRule (l :: tmp) (raw m ++ rest) = mergeLoop assignRule ((mid m).reverse ++ l :: tmp) rest := by
  cases m with
  | formula m => exact Calc.assign_block m l tmp rest h
  | change o => cases o <;> exact (Calc.merge_none h).trans rfl
  | twice up => cases up <;> exact (Calc.merge_none h).trans rfl
  | _ => exact (Calc.merge_none h).trans rfl

theorem assign_first (m : Mark) (rest : List Tok) :
    mergeLoop assignRule [] (raw m ++ rest) = mergeLoop assignRule (mid m).reverse rest := by
  cases m with
  | formula m => exact Calc.assign_first m rest
  | change o => cases o <;> rfl
  | twice up => cases up <;> rfl
  | _ => rfl

theorem operator_block (m : Mark) (l : Tok) (tmp rest : List Tok) (h : operatorRule l.ty (headTy (mid m)) = none) :
    mergeLoop operatorRule (l :: tmp) (mid m ++ rest) = mergeLoop operatorRule (fin m :: l :: tmp) rest := by
  cases m with
  | formula m => exact Calc.operator_block m l tmp rest h
  | twice up => cases up <;> exact (Calc.merge_none h).trans rfl
  | _ => exact (Calc.merge_none h).trans rfl

theorem operator_first (m : Mark) (rest : List Tok) :
    mergeLoop operatorRule [] (mid m ++ rest) = mergeLoop operatorRule [fin m] rest := by
  cases m with
  | formula m => exact Calc.operator_first m rest
  | twice up => cases up <;> rfl
  | _ => rfl

theorem mid_reverse (m : Mark) : ∃ l tmp, (mid m).reverse = l :: tmp ∧ l.ty = lastTy m := by
  cases m with
  | formula m => exact Calc.mid_reverse m
  | twice up => exact ⟨_, [_], rfl, rfl⟩
  | _ => exact ⟨_, [], rfl, rfl⟩

theorem assign_pass : ∀ (ms : List Mark) (a : Mark) (l : Tok) (tmp : List Tok), l.ty = lastTy a → Chained (a :: ms) →
    mergeLoop assignRule (l :: tmp) (ms.flatMap raw ++ [eof]) = (l :: tmp).reverse ++ (ms.flatMap mid ++ [eof])
  | [], a, l, tmp, hl, _ => by
    rw [mergeLoop_id]
    · rfl
    · show NoMerge assignRule [l.ty, .ENDOFFILE]
      refine ⟨?_, trivial⟩
      cases l.ty <;> rfl
  | b :: ms, a, l, tmp, hl, h => by
    obtain ⟨l', tmp', e, hl'⟩ := mid_reverse b
    simp only [List.flatMap_cons, List.append_assoc]
    rw [assign_block b l tmp _ (hl ▸ h.1.first), e, List.cons_append, assign_pass ms b l' (tmp' ++ l :: tmp) hl' h.2,
      ← List.cons_append, ← e]
    simp

theorem operator_pass : ∀ (ms : List Mark) (a : Mark) (tmp : List Tok), Chained (a :: ms) →
    mergeLoop operatorRule (fin a :: tmp) (ms.flatMap mid ++ [eof]) = (fin a :: tmp).reverse ++ (ms.map fin ++ [eof])
  | [], a, tmp, _ => by
    rw [mergeLoop_id]
    · rfl
    · show NoMerge operatorRule [(fin a).ty, .ENDOFFILE]
      refine ⟨?_, trivial⟩
      cases (fin a).ty <;> rfl
  | b :: ms, a, tmp, h => by
    simp only [List.flatMap_cons, List.append_assoc]
    rw [operator_block b (fin a) tmp _ h.1.second, operator_pass ms b (fin a :: tmp) h.2]
    simp

theorem both_passes (ms : List Mark) (h : Chained ms) :
    mergeOperators (mergeAssignments (ms.flatMap raw ++ [eof])) = ms.map fin ++ [eof] := by
  cases ms with
  | nil => rfl
  | cons a ms =>
    have h1 : mergeAssignments ((a :: ms).flatMap raw ++ [eof]) = (a :: ms).flatMap mid ++ [eof] := by
      obtain ⟨l, tmp, e, hl⟩ := mid_reverse a
      rw [mergeAssignments, List.flatMap_cons, List.append_assoc, assign_first, e, assign_pass ms a l tmp hl h, ← e]
      simp
    rw [h1, mergeOperators, List.flatMap_cons, List.append_assoc, operator_first, operator_pass ms a [] h]
    rfl

theorem fin_ty (m : Mark) : (fin m).ty ≠ .OPERATOR_SCOPE ∧ (fin m).ty ≠ .RESERVED_WORD := by
  cases m with
  | formula m => exact Calc.fin_ty m
  | change o => cases o <;> simp [fin, tok, changeTy]
  | twice up => cases up <;> simp [fin, tok, twiceTok]
  | _ => simp [fin, tok, wordTok]

theorem no_number_name : ∀ (ms : List Mark), Chained ms →
    ¬ Adjacent .CONST_INTEGER .IDENTIFIER (ms.map (fun m => (fin m).ty) ++ [Ty.ENDOFFILE])
  | [], _ => by simp [Adjacent]
  | [a], _ => by simp [Adjacent]
  | a :: b :: ms, h => by
    intro hadj
    rcases hadj with ⟨h1, h2⟩ | hadj
    · exact h.1.suffix ⟨h1, h2⟩
    · exact no_number_name (b :: ms) h.2 hadj

/-- The tokens of marks that are laid out in any way. -/
theorem marks_tokens {ms : List Mark} {text : Text} (hc : Chained ms) (hl : Laid ms text)
    (hn : ∀ n ∈ ms.flatMap Mark.names, PlainName n) :
    ∃ ts e, tokenize text = .ok (ts ++ [e]) ∧ ts.map erase = ms.map fin ∧ erase e = eof := by
  obtain ⟨ps, hw, rfl, hf⟩ := hl
  have hr := tokens_as_written ps hw
  have hraw : (expect 1 ps ++ [eof]).map erase = ms.flatMap raw ++ [eof] := by
    rw [List.map_append, Calc.expect_erase, hf, List.flatMap_assoc]
    have : ms.flatMap (fun m => m.pieces.flatMap Calc.pieceToks) = ms.flatMap raw := by
      rw [List.flatMap_def, List.flatMap_def]
      exact congrArg List.flatten (List.map_congr_left fun m hm =>
        pieceToks_marks fun n hnm => hn n (List.mem_flatMap.2 ⟨m, hm, hnm⟩))
    rw [this]
    rfl
  have hmerged : (mergeOperators (mergeAssignments (expect 1 ps ++ [eof]))).map erase = ms.map fin ++ [eof] := by
    rw [mergeOperators, Calc.mergeLoop_erase, mergeAssignments, Calc.mergeLoop_erase]
    have := both_passes ms hc
    rw [← hraw] at this
    exact this
  generalize hts : mergeOperators (mergeAssignments (expect 1 ps ++ [eof])) = ts at hmerged
  have hty : ts.map Tok.ty = ms.map (fun m => (fin m).ty) ++ [Ty.ENDOFFILE] := by
    have := congrArg (List.map Tok.ty) hmerged
    rw [List.map_map, List.map_append, List.map_map] at this
    exact this
  have hconst : NoConst ts := by
    apply noConst_words
    · rw [hty]
      simp only [List.mem_append, List.mem_map, not_or, not_exists, not_and]
      exact ⟨fun m _ => (fin_ty m).1, by decide⟩
    · rw [hty]; exact no_number_name _ hc
  have hword : NoOperatorWord ts := by
    intro t ht h
    have h1 := h.1
    have : Ty.RESERVED_WORD ∈ ts.map Tok.ty := List.mem_map.2 ⟨t, ht, h1⟩
    rw [hty] at this
    simp only [List.mem_append, List.mem_map] at this
    rcases this with ⟨m, -, h⟩ | h
    · exact (fin_ty m).2 h
    · exact absurd h (by decide)
  have htok : tokenize (render ps) = .ok ts := by
    rw [tokenize, hr]
    show passes (expect 1 ps ++ [eof]) = .ok ts
    simp only [passes, hts, replaceConsts_id hconst]
    rw [replaceOps_id ts [] (by simp [NoOperatorWord]) hword]
    rfl
  obtain ⟨us, es, rfl, hu, he⟩ := List.map_eq_append_iff.1 hmerged
  obtain ⟨e, es', rfl, he', hn'⟩ := List.map_eq_cons_iff.1 he
  cases List.map_eq_nil_iff.1 hn'
  exact ⟨us, e, htok, hu, he'⟩

end Verif.Whole
