import Verif.Stmt.Reads
import Verif.Expr.Print

/-!
# Printing statements

One spelling of every statement, to show that the grammar covers all of them.
-/

namespace Verif.Stmt

open Verif.Str (Text)
open Verif.Lex (Tok Ty Cat)
open Verif.Expr (Syn Der DerArgs Plain Lvl WellFormed WellFormedArgs print printArgs nameTok wrap paren Printed plain_tk)

/-- A token of a keyword. -/
def kw (s : String) : Tok := ⟨.keyword, .KEYWORD, s.toList, 0, false⟩

/-- A token of a punctuation mark or bracket. -/
abbrev pt (ty : Ty) : Tok := Expr.tk ty

theorem mark_pt (ty : Ty) : Mark ty (pt ty) := ⟨rfl, plain_tk ty, (by decide : ([] : Text) ∉ words)⟩

theorem word_kw (s : String) : Word s (kw s) := ⟨rfl, rfl⟩

/-! ## Expressions -/

theorem NoCurly.append {a b : List Tok} (ha : NoCurly a) (hb : NoCurly b) : NoCurly (a ++ b) := by
  intro t ht
  rcases List.mem_append.1 ht with h | h
  · exact ha t h
  · exact hb t h

theorem NoCurly.cons {t : Tok} {ts : List Tok} (h1 : t.ty ≠ .BRACKET_CURLY_OPEN) (h2 : t.ty ≠ .BRACKET_CURLY_CLOSE) (hs : NoCurly ts) :
    NoCurly (t :: ts) := by
  intro u hu
  rcases List.mem_cons.1 hu with rfl | h
  · exact ⟨h1, h2⟩
  · exact hs u h

theorem NoCurly.nil : NoCurly [] := fun _ h => nomatch h

theorem NoCurly.paren {ts : List Tok} (h : NoCurly ts) : NoCurly (Expr.paren ts) :=
  .cons (by decide) (by decide) (h.append (.cons (by decide) (by decide) .nil))

theorem NoCurly.wrap {ts : List Tok} (h : NoCurly ts) (k : Nat) (s : Syn) : NoCurly (Expr.wrap k s ts) := by
  unfold Expr.wrap
  split
  · exact h
  · exact h.paren

theorem ops_curly {l : Lvl} {op : Ty} (h : op ∈ l.ops) : op ≠ .BRACKET_CURLY_OPEN ∧ op ≠ .BRACKET_CURLY_CLOSE := by
  constructor <;> (rintro rfl; revert h; cases l <;> decide)

theorem assign_curly {op : Ty} (h : op ∈ Expr.assignOps) : op ≠ .BRACKET_CURLY_OPEN ∧ op ≠ .BRACKET_CURLY_CLOSE := by
  constructor <;> (rintro rfl; revert h; decide)

mutual

theorem print_curly : ∀ s, WellFormed s → NoCurly (print s)
  | .lit ty c, h => by
    simp only [WellFormed] at h; simp only [print]
    refine .cons ?_ ?_ .nil <;> rcases Expr.literal_ty h with e | e | e | e | e <;> simp [e]
  | .name n, _ => by simp only [print]; exact .cons (by simp [nameTok]) (by simp [nameTok]) .nil
  | .call f args, h => by
    simp only [WellFormed] at h; simp only [print]
    exact .cons (by simp [nameTok]) (by simp [nameTok]) (.cons (by decide) (by decide)
      ((printArgs_curly args h).append (.cons (by decide) (by decide) .nil)))
  | .incdec n op, h => by
    simp only [WellFormed] at h; simp only [print]
    refine .cons (by simp [nameTok]) (by simp [nameTok]) (.cons ?_ ?_ .nil) <;> rcases h with rfl | rfl <;> decide
  | .cast ty e, h => by
    simp only [WellFormed] at h; simp only [print]
    exact .cons (by simp) (by simp) (.cons (by decide) (by decide) (.cons (by simp [nameTok]) (by simp [nameTok])
      (.cons (by decide) (by decide) (.cons (by decide) (by decide) ((print_curly e h).append (.cons (by decide) (by decide) .nil))))))
  | .ccast _ _, h => by simp only [WellFormed] at h
  | .assign n op e, h => by
    simp only [WellFormed] at h; simp only [print]
    exact .cons (by simp [nameTok]) (by simp [nameTok]) (.cons (assign_curly h.1).1 (assign_curly h.1).2 (print_curly e h.2))
  | .prefix op e, h => by
    simp only [WellFormed] at h; simp only [print]
    refine .cons ?_ ?_ ((print_curly e h.2).wrap _ _) <;> rcases h.1 with rfl | rfl | rfl <;> decide
  | .postfix op e, h => by
    simp only [WellFormed] at h; simp only [print]
    refine .append ?_ (.cons ?_ ?_ .nil)
    · split
      · exact (print_curly e h.2).wrap _ _
      · exact (print_curly e h.2).paren
    all_goals rcases h.1 with rfl | rfl | rfl <;> decide
  | .is e ty, h => by
    simp only [WellFormed] at h; simp only [print]
    exact ((print_curly e h).wrap _ _).append (.cons (by decide) (by decide) (.cons (by simp [nameTok]) (by simp [nameTok]) .nil))
  | .ternary c a b, h => by
    simp only [WellFormed] at h; simp only [print]
    exact (((print_curly c h.1).wrap _ _).append (.cons (by decide) (by decide) (print_curly a h.2.1))).append
      (.cons (by decide) (by decide) (print_curly b h.2.2))
  | .elvis c b, h => by
    simp only [WellFormed] at h; simp only [print]
    exact ((print_curly c h.1).wrap _ _).append (.cons (by decide) (by decide) (.cons (by decide) (by decide) (print_curly b h.2)))
  | .bin l op x y, h => by
    simp only [WellFormed] at h; simp only [print]
    exact ((print_curly x h.2.1).wrap _ _).append (.cons (ops_curly h.1).1 (ops_curly h.1).2 ((print_curly y h.2.2).wrap _ _))

theorem printArgs_curly : ∀ ss, WellFormedArgs ss → NoCurly (printArgs ss)
  | [], _ => by simp only [printArgs]; exact .nil
  | [s], h => by simp only [WellFormedArgs] at h; simp only [printArgs]; exact print_curly s h.1
  | s :: t :: ss, h => by
    simp only [WellFormedArgs] at h
    have := printArgs_curly (t :: ss) (by simp only [WellFormedArgs]; exact h.2)
    simp only [printArgs] at this ⊢
    exact (print_curly s h.1).append (.cons (by decide) (by decide) this)

end

theorem print_text (w : Site) (s : Syn) (h : WellFormed s) : ExprText w .expression s (print s) :=
  ⟨⟨_, (Expr.print_der w.types s h).top⟩, print_curly s h⟩

theorem wrap_text (w : Site) (s : Syn) (h : WellFormed s) : ExprText w .arith s (wrap 5 s (print s)) :=
  ⟨⟨_, (Expr.print_der w.types s h).wrap 5⟩, (print_curly s h).wrap _ _⟩

/-! ## Simple statements -/

/-- `[const|modify]`. -/
def printMut : Option Bool → List Tok
  | none => []
  | some true => [⟨.none, .MUTABILITY, "const".toList, 0, false⟩]
  | some false => [⟨.none, .MUTABILITY, "modify".toList, 0, false⟩]

/-- `[ref|val]`. -/
def printAccess : Option Bool → List Tok
  | none => []
  | some true => [⟨.none, .ACCESS_MODE, "ref".toList, 0, false⟩]
  | some false => [⟨.none, .ACCESS_MODE, "val".toList, 0, false⟩]

def printDecl (d : Decl) : List Tok := nameTok d.ty :: nameTok d.name :: printMut d.const ++ printAccess d.ref

/-- An expression as a statement; an operator needs parentheses around it. -/
def printExpr : Syn → List Tok
  | .assign n op e => print (.assign n op e)
  | .name n => print (.name n)
  | .call f args => print (.call f args)
  | .incdec n op => print (.incdec n op)
  | e => paren (print e)

def assignTok : Tok := ⟨.assignment, .ASSIGN, ['='], 0, false⟩

def printSimple : Simple → List Tok
  | .expr e => printExpr e
  | .decl d none => printDecl d
  | .decl d (some e) => printDecl d ++ assignTok :: print e
  | .infer n m r e => kw "var" :: nameTok n :: printMut m ++ printAccess r ++ assignTok :: print e

/-- The text is no word the parser looks for. -/
def Fine (n : Text) : Prop := n ∉ words

def FineDecl (d : Decl) : Prop := Fine d.ty ∧ Fine d.name

/-- The name an expression statement begins with. -/
def headFine : Syn → Prop
  | .assign n _ _ => Fine n
  | .name n => Fine n
  | .call f _ => Fine f
  | .incdec n _ => Fine n
  | _ => True

def FineSimple : Simple → Prop
  | .expr e => WellFormed e ∧ headFine e
  | .decl d e => FineDecl d ∧ ∀ x, e = some x → WellFormed x
  | .infer n _ _ e => Fine n ∧ WellFormed e

theorem name_tok {n : Text} (h : Fine n) : Name (nameTok n) := ⟨rfl, by simp [nameTok], h⟩

theorem printMut_text (m : Option Bool) : Mutability m (printMut m) := by
  match m with
  | none => exact .none
  | some true => exact .const _ rfl rfl
  | some false => exact .modify _ rfl rfl

theorem printAccess_text (m : Option Bool) : Access m (printAccess m) := by
  match m with
  | none => exact .none
  | some true => exact .ref _ rfl rfl
  | some false => exact .val _ rfl rfl

theorem printDecl_text {d : Decl} (h : FineDecl d) : DeclText d (printDecl d) :=
  .mk (nameTok d.ty) (nameTok d.name) _ _ _ _ (name_tok h.1) (name_tok h.2) (printMut_text _) (printAccess_text _)

theorem assign_tok : Assign assignTok := ⟨rfl, by decide⟩

theorem paren_text (w : Site) {e : Syn} (h : WellFormed e) : ExprStatement w e (paren (print e)) :=
  .paren (pt .PARENTHESIS_OPEN) e _ (mark_pt _) ⟨⟨_, (Expr.print_der w.types e h).paren 7⟩, (print_curly e h).paren⟩

theorem printExpr_text (w : Site) {e : Syn} (h : WellFormed e) (hf : headFine e) : ExprStatement w e (printExpr e) := by
  have hd := Expr.print_der w.types e h
  have hc := print_curly e h
  have htl : ∀ t ts, print e = t :: ts → NoCurly ts := fun t ts he u hu => hc u (by rw [he]; exact List.mem_cons_of_mem _ hu)
  cases e with
  | assign n op e =>
    have := print_text w _ h
    simp only [print] at this
    simp only [printExpr, print]
    exact .assign _ _ _ _ (name_tok hf) rfl this
  | name n =>
    simp only [printExpr, print] at hd ⊢
    exact .use _ _ _ (name_tok hf) (htl _ _ (by simp only [print]; rfl)) hd
  | call f args =>
    simp only [printExpr, print] at hd ⊢
    exact .use _ _ _ (name_tok hf) (htl _ _ (by simp only [print]; rfl)) hd
  | incdec n op =>
    simp only [printExpr, print] at hd ⊢
    exact .use _ _ _ (name_tok hf) (htl _ _ (by simp only [print]; rfl)) hd
  | lit ty c => exact paren_text w h
  | cast ty e => exact paren_text w h
  | ccast ty e => exact paren_text w h
  | «prefix» op e => exact paren_text w h
  | «postfix» op e => exact paren_text w h
  | is e ty => exact paren_text w h
  | ternary c a b => exact paren_text w h
  | elvis c b => exact paren_text w h
  | bin l op x y => exact paren_text w h

theorem printSimple_text (w : Site) {i : Simple} (h : FineSimple i) : SimpleText w i (printSimple i) := by
  match i with
  | .expr e => exact .expr _ _ (printExpr_text w h.1 h.2)
  | .decl d none => exact .decl _ _ (printDecl_text h.1)
  | .decl d (some e) => exact .init _ _ _ _ _ (printDecl_text h.1) assign_tok (print_text w e (h.2 e rfl))
  | .infer n m r e =>
    exact .infer (kw "var") (nameTok n) assignTok m r e _ _ _ (word_kw _) (name_tok h.1) (printMut_text m) (printAccess_text r) assign_tok
      (print_text w e h.2)

/-! ## Statements -/

def printOpt (e : Option Syn) : List Tok := (e.map print).getD []

def printOptSimple (e : Option Simple) : List Tok := (e.map printSimple).getD []

mutual

def printStmt : Src → List Tok
  | .empty => [pt .SEMICOLON]
  | .simple i => printSimple i ++ [pt .SEMICOLON]
  | .block b => pt .BRACKET_CURLY_OPEN :: printList b ++ [pt .BRACKET_CURLY_CLOSE]
  | .ifThen c t => kw "if" :: pt .PARENTHESIS_OPEN :: print c ++ pt .PARENTHESIS_CLOSE :: printStmt t
  | .ifElse c t e => kw "if" :: pt .PARENTHESIS_OPEN :: print c ++ pt .PARENTHESIS_CLOSE :: printStmt t ++ kw "else" :: printStmt e
  | .while c b => kw "while" :: pt .PARENTHESIS_OPEN :: print c ++ pt .PARENTHESIS_CLOSE :: printStmt b
  | .for i c p b => kw "for" :: pt .PARENTHESIS_OPEN :: printOptSimple i ++ pt .SEMICOLON :: printOpt c ++ pt .SEMICOLON ::
      printOptSimple p ++ pt .PARENTHESIS_CLOSE :: printStmt b
  | .foreach d e b => kw "foreach" :: pt .PARENTHESIS_OPEN :: printDecl d ++ pt .COLON :: wrap 5 e (print e) ++
      pt .PARENTHESIS_CLOSE :: printStmt b
  | .switch e cs => kw "switch" :: pt .PARENTHESIS_OPEN :: print e ++ pt .PARENTHESIS_CLOSE :: pt .BRACKET_CURLY_OPEN ::
      printCases cs ++ [pt .BRACKET_CURLY_CLOSE]
  | .try b hs => kw "try" :: pt .BRACKET_CURLY_OPEN :: printList b ++ pt .BRACKET_CURLY_CLOSE :: printHandlers hs
  | .ret e => kw "return" :: printOpt e ++ [pt .SEMICOLON]
  | .throw e => kw "throw" :: printOpt e ++ [pt .SEMICOLON]
  | .brk => [kw "break", pt .SEMICOLON]
  | .cont => [kw "continue", pt .SEMICOLON]
  | .assert c none => kw "assert" :: pt .PARENTHESIS_OPEN :: print c ++ [pt .PARENTHESIS_CLOSE, pt .SEMICOLON]
  | .assert c (some m) => kw "assert" :: pt .PARENTHESIS_OPEN :: print c ++ pt .COMMA :: print m ++ [pt .PARENTHESIS_CLOSE, pt .SEMICOLON]
  | .print e => kw "print" :: pt .PARENTHESIS_OPEN :: print e ++ [pt .PARENTHESIS_CLOSE, pt .SEMICOLON]
  | .exit e => kw "exit" :: pt .PARENTHESIS_OPEN :: print e ++ [pt .PARENTHESIS_CLOSE, pt .SEMICOLON]
  | .delete e => kw "delete" :: print e ++ [pt .SEMICOLON]

def printList : List Src → List Tok
  | [] => []
  | s :: b => printStmt s ++ printList b

def printCases : List (Option Syn × List Src) → List Tok
  | [] => []
  | (some e, b) :: cs => kw "case" :: print e ++ pt .COLON :: pt .BRACKET_CURLY_OPEN :: printList b ++
      pt .BRACKET_CURLY_CLOSE :: printCases cs
  | (none, b) :: cs => kw "default" :: pt .COLON :: pt .BRACKET_CURLY_OPEN :: printList b ++ pt .BRACKET_CURLY_CLOSE :: printCases cs

def printHandlers : List (Handler × List Src) → List Tok
  | [] => []
  | (.catchAll, b) :: hs => kw "catch" :: pt .BRACKET_CURLY_OPEN :: printList b ++ pt .BRACKET_CURLY_CLOSE :: printHandlers hs
  | (.catch d, b) :: hs => kw "catch" :: pt .PARENTHESIS_OPEN :: printDecl d ++ pt .PARENTHESIS_CLOSE :: pt .BRACKET_CURLY_OPEN ::
      printList b ++ pt .BRACKET_CURLY_CLOSE :: printHandlers hs
  | (.fin, b) :: hs => kw "finally" :: pt .BRACKET_CURLY_OPEN :: printList b ++ pt .BRACKET_CURLY_CLOSE :: printHandlers hs

end

def FineOpt (e : Option Syn) : Prop := ∀ x, e = some x → WellFormed x

def FineOptSimple (e : Option Simple) : Prop := ∀ x, e = some x → FineSimple x

mutual

/-- Operators stand where they belong, names are no words the parser looks for, and the branch in front of an `else` does not end
with an `if` of its own. -/
def FineStmt : Src → Prop
  | .simple i => FineSimple i
  | .block b => FineList b
  | .ifThen c t => WellFormed c ∧ FineStmt t
  | .ifElse c t e => WellFormed c ∧ endsIf t = false ∧ FineStmt t ∧ FineStmt e
  | .while c b => WellFormed c ∧ FineStmt b
  | .for i c p b => FineOptSimple i ∧ FineOpt c ∧ FineOptSimple p ∧ FineStmt b
  | .foreach d e b => FineDecl d ∧ WellFormed e ∧ FineStmt b
  | .switch e cs => WellFormed e ∧ FineCases cs
  | .try b hs => FineList b ∧ FineHandlers hs
  | .ret e => FineOpt e
  | .throw e => FineOpt e
  | .assert c m => WellFormed c ∧ FineOpt m
  | .print e => WellFormed e
  | .exit e => WellFormed e
  | .delete e => WellFormed e
  | _ => True

def FineList : List Src → Prop
  | [] => True
  | s :: b => FineStmt s ∧ FineList b

def FineCases : List (Option Syn × List Src) → Prop
  | [] => True
  | (e, b) :: cs => FineOpt e ∧ FineList b ∧ FineCases cs

def FineHandlers : List (Handler × List Src) → Prop
  | [] => True
  | (.catch d, b) :: hs => FineDecl d ∧ FineList b ∧ FineHandlers hs
  | (_, b) :: hs => FineList b ∧ FineHandlers hs

end

theorem printOpt_text (w : Site) {e : Option Syn} (h : FineOpt e) : OptText (ExprText w .expression) e (printOpt e) := by
  cases e with
  | none => exact .none
  | some x => exact .some _ _ (print_text w x (h x rfl))

theorem printOptSimple_text (w : Site) {e : Option Simple} (h : FineOptSimple e) : OptText (SimpleText w) e (printOptSimple e) := by
  cases e with
  | none => exact .none
  | some x => exact .some _ _ (printSimple_text w (h x rfl))

mutual

theorem printStmt_spells (w : Site) : ∀ s, FineStmt s → Spells w s (printStmt s)
  | .empty, _ => .empty _ (mark_pt _)
  | .simple i, h => .simple _ _ _ (printSimple_text w h) (mark_pt _)
  | .block b, h => .block _ _ _ _ (mark_pt _) (mark_pt _) (printList_spells w b h)
  | .ifThen c t, h => .ifThen _ _ _ _ _ _ _ (word_kw _) (mark_pt _) (mark_pt _) (print_text w c h.1) (printStmt_spells w t h.2)
  | .ifElse c t e, h => .ifElse _ _ _ _ _ _ _ _ _ _ (word_kw _) (mark_pt _) (mark_pt _) (word_kw _) (print_text w c h.1)
      (printStmt_spells w t h.2.2.1) h.2.1 (printStmt_spells w e h.2.2.2)
  | .while c b, h => .while _ _ _ _ _ _ _ (word_kw _) (mark_pt _) (mark_pt _) (print_text w c h.1) (printStmt_spells w b h.2)
  | .for i c p b, h => .for _ _ _ _ _ _ _ _ _ _ _ _ _ (word_kw _) (mark_pt _) (mark_pt _) (mark_pt _) (mark_pt _)
      (printOptSimple_text w h.1) (printOpt_text w h.2.1) (printOptSimple_text w h.2.2.1) (printStmt_spells w b h.2.2.2)
  | .foreach d e b, h => .foreach _ _ _ _ _ _ _ _ _ _ (word_kw _) (mark_pt _) (mark_pt _) (mark_pt _) (printDecl_text h.1)
      (wrap_text w e h.2.1) (printStmt_spells w b h.2.2)
  | .switch e cs, h => .switch _ _ _ _ _ _ _ _ _ (word_kw _) (mark_pt _) (mark_pt _) (mark_pt _) (mark_pt _) (print_text w e h.1)
      (printCases_spells w cs h.2)
  | .try b hs, h => .try _ _ _ _ _ _ _ (word_kw _) (mark_pt _) (mark_pt _) (printList_spells w b h.1) (printHandlers_spells w hs h.2)
  | .ret e, h => .ret _ _ _ _ (word_kw _) (mark_pt _) (printOpt_text w h)
  | .throw e, h => .throw _ _ _ _ (word_kw _) (mark_pt _) (printOpt_text w h)
  | .brk, _ => .brk _ _ (word_kw _) (mark_pt _)
  | .cont, _ => .cont _ _ (word_kw _) (mark_pt _)
  | .assert c none, h => .assert _ _ _ _ _ _ (word_kw _) (mark_pt _) (mark_pt _) (mark_pt _) (print_text w c h.1)
  | .assert c (some m), h => .assertMsg _ _ _ _ _ _ _ _ _ (word_kw _) (mark_pt _) (mark_pt _) (mark_pt _) (mark_pt _)
      (print_text w c h.1) (print_text w m (h.2 m rfl))
  | .print e, h => .print _ _ _ _ _ _ (word_kw _) (mark_pt _) (mark_pt _) (mark_pt _) (print_text w e h)
  | .exit e, h => .exit _ _ _ _ _ _ (word_kw _) (mark_pt _) (mark_pt _) (mark_pt _) (print_text w e h)
  | .delete e, h => .delete _ _ _ _ (word_kw _) (mark_pt _) (print_text w e h)

theorem printList_spells (w : Site) : ∀ b, FineList b → SpellsList w b (printList b)
  | [], _ => .nil
  | s :: b, h => .cons _ _ _ _ (printStmt_spells w s h.1) (printList_spells w b h.2)

theorem printCases_spells (w : Site) : ∀ cs, FineCases cs → SpellsCases w cs (printCases cs)
  | [], _ => .nil
  | (some e, b) :: cs, h => .case _ _ _ _ _ _ _ _ _ _ (word_kw _) (mark_pt _) (mark_pt _) (mark_pt _) (print_text w e (h.1 e rfl))
      (printList_spells w b h.2.1) (printCases_spells w cs h.2.2)
  | (none, b) :: cs, h => .default _ _ _ _ _ _ _ _ (word_kw _) (mark_pt _) (mark_pt _) (mark_pt _)
      (printList_spells w b h.2.1) (printCases_spells w cs h.2.2)

theorem printHandlers_spells (w : Site) : ∀ hs, FineHandlers hs → SpellsHandlers w hs (printHandlers hs)
  | [], _ => .nil
  | (.catchAll, b) :: hs, h => .catchAll _ _ _ _ _ _ _ (word_kw _) (mark_pt _) (mark_pt _) (printList_spells w b h.1)
      (printHandlers_spells w hs h.2)
  | (.catch d, b) :: hs, h => .catch _ _ _ _ _ _ _ _ _ _ _ (word_kw _) (mark_pt _) (mark_pt _) (mark_pt _) (mark_pt _)
      (printDecl_text h.1) (printList_spells w b h.2.1) (printHandlers_spells w hs h.2.2)
  | (.fin, b) :: hs, h => .fin _ _ _ _ _ _ _ (word_kw _) (mark_pt _) (mark_pt _) (printList_spells w b h.1)
      (printHandlers_spells w hs h.2)

end

end Verif.Stmt
