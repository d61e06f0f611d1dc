import Verif.Whole.Reading
import Verif.Brackets.Model

/-! # The brackets of a program are balanced -/

namespace Verif.Whole

open Verif.Str (Text)
open Verif.Lex (Tok Ty)
open Verif.Calc (erase)

/-- How a token changes the number of open brackets. -/
def turn (opn cls : Ty) (t : Tok) : Int := (if t.ty = opn then 1 else 0) - (if t.ty = cls then 1 else 0)

theorem open_fold (opn cls : Ty) : ∀ (ts : List Tok) (o : Int), ts.foldl (fun o t =>
    let o := if t.ty = opn then o + 1 else o
    if t.ty = cls then o - 1 else o) o = o + (ts.map (turn opn cls)).sum
  | [], o => by simp
  | t :: ts, o => by
    rw [List.foldl_cons, open_fold opn cls ts]
    simp only [List.map_cons, List.sum_cons, turn]
    split <;> split <;> omega

theorem openCount_sum (opn cls : Ty) (ts : List Tok) : Brackets.openCount opn cls ts = (ts.map (turn opn cls)).sum := by
  rw [Brackets.openCount, open_fold]; omega

/-- Marks weigh nothing, but brackets may, if the closing one makes up for the opening one. -/
structure Fair (w : Mark → Int) : Prop where
  paren : w .lparen + w .rparen = 0
  curly : w .lcurly + w .rcurly = 0
  rest : ∀ m, m ≠ .lparen → m ≠ .rparen → m ≠ .lcurly → m ≠ .rcurly → w m = 0

/-- The weight of marks. -/
def weigh (w : Mark → Int) (ms : List Mark) : Int := (ms.map w).sum

theorem weigh_nil (w : Mark → Int) : weigh w [] = 0 := rfl
theorem weigh_cons (w : Mark → Int) (m : Mark) (ms : List Mark) : weigh w (m :: ms) = w m + weigh w ms := by simp [weigh]
theorem weigh_append (w : Mark → Int) (ms ns : List Mark) : weigh w (ms ++ ns) = weigh w ms + weigh w ns := by simp [weigh]

variable {w : Mark → Int}

theorem num_even (h : Fair w) {pl : Calc.Place} {a : Calc.Num} {ms : List Calc.Mark} (hs : Calc.SpellsNum pl a ms) :
    weigh w (marks ms) = 0 := by
  have hp : w (.formula .open) + w (.formula .close) = 0 := h.paren
  induction hs with
  | num k => simp [weigh_cons, weigh_nil, h.rest (.formula (.num k))]
  | var n => simp [weigh_cons, weigh_nil, h.rest (.formula (.name n))]
  | paren _ ih =>
    simp only [marks, List.map_append, List.map_cons, List.map_nil, weigh_append, weigh_cons, weigh_nil] at ih ⊢
    omega
  | neg _ ih => simp only [marks, List.map_cons, weigh_cons, h.rest (.formula (.op .sub)) nofun nofun nofun nofun] at ih ⊢; omega
  | product _ _ _ i1 i2 =>
    rename_i op _ _ _ _ _ _ _
    simp only [marks, List.map_append, List.map_cons, weigh_append, weigh_cons, h.rest (.formula (.op op)) nofun nofun nofun nofun] at i1 i2 ⊢
    omega
  | sum _ _ _ i1 i2 =>
    rename_i op _ _ _ _ _ _ _
    simp only [marks, List.map_append, List.map_cons, weigh_append, weigh_cons, h.rest (.formula (.op op)) nofun nofun nofun nofun] at i1 i2 ⊢
    omega
  | atom _ ih => exact ih
  | signed _ ih => exact ih
  | factor _ ih => exact ih

theorem cond_even (h : Fair w) {pl : Calc.CPlace} {c : Calc.Cond} {ms : List Calc.Mark} (hs : Calc.SpellsCond pl c ms) :
    weigh w (marks ms) = 0 := by
  have hp : w (.formula .open) + w (.formula .close) = 0 := h.paren
  induction hs with
  | flag n => simp [weigh_cons, weigh_nil, h.rest (.formula (.name n))]
  | const b => simp [weigh_cons, weigh_nil, h.rest (.formula (.const b))]
  | paren _ ih =>
    simp only [marks, List.map_append, List.map_cons, List.map_nil, weigh_append, weigh_cons, weigh_nil] at ih ⊢
    omega
  | not _ ih => simp only [marks, List.map_cons, weigh_cons, h.rest (.formula .not) nofun nofun nofun nofun] at ih ⊢; omega
  | @cmp r _ _ _ _ ha hb =>
    have i1 := num_even h ha
    have i2 := num_even h hb
    simp only [marks, List.map_append, List.map_cons, weigh_append, weigh_cons, h.rest (.formula (.rel r)) nofun nofun nofun nofun] at i1 i2 ⊢
    omega
  | and _ _ i1 i2 =>
    simp only [marks, List.map_append, List.map_cons, weigh_append, weigh_cons, h.rest (.formula .and) nofun nofun nofun nofun] at i1 i2 ⊢
    omega
  | or _ _ i1 i2 =>
    simp only [marks, List.map_append, List.map_cons, weigh_append, weigh_cons, h.rest (.formula .or) nofun nofun nofun nofun] at i1 i2 ⊢
    omega
  | atom _ ih => exact ih
  | negated _ ih => exact ih
  | conjOne _ ih => exact ih
  | disjOne _ ih => exact ih
  | conj _ ih => exact ih
  | disj _ ih => exact ih

theorem args_even (h : Fair w) {as : List Calc.Num} {ms : List Mark} (hs : WritesArgs as ms) : weigh w ms = 0 := by
  induction hs with
  | nil => rfl
  | one h1 => exact num_even h h1.1
  | more h1 _ ih =>
    rw [weigh_append, weigh_cons, num_even h h1.1, ih, h.rest .comma nofun nofun nofun nofun]; rfl

theorem change_even (h : Fair w) {d : Change} {ms : List Mark} (hs : WritesChange d ms) : weigh w ms = 0 := by
  cases hs with
  | to h1 =>
    rename_i n _ _
    rw [weigh_cons, weigh_cons, num_even h h1.1, h.rest (.name n) nofun nofun nofun nofun, h.rest .assign nofun nofun nofun nofun]; rfl
  | «by» h1 =>
    rename_i n op _ _
    rw [weigh_cons, weigh_cons, num_even h h1.1, h.rest (.name n) nofun nofun nofun nofun, h.rest (.change op) nofun nofun nofun nofun]; rfl
  | step =>
    rename_i up n
    rw [weigh_cons, weigh_cons, h.rest (.name n) nofun nofun nofun nofun, h.rest (.twice up) nofun nofun nofun nofun]; rfl

theorem parts_even (h : Fair w) {ps : List Part} {ms : List Mark} (hs : WritesParts ps ms) : weigh w ms = 0 := by
  have ho : w (.formula (.op .add)) = 0 := h.rest _ nofun nofun nofun nofun
  induction hs with
  | nil => rfl
  | num h1 _ _ i => rw [weigh_cons, weigh_append, num_even h h1, i, ho]; rfl
  | truth h1 _ _ i => rw [weigh_cons, weigh_append, cond_even h h1, i, ho]; rfl
  | text _ i => rw [weigh_cons, weigh_cons, i, ho, h.rest (.text _) nofun nofun nofun nofun]; rfl
  | var _ i => rw [weigh_cons, weigh_cons, i, ho, h.rest (.name _) nofun nofun nofun nofun]; rfl

theorem writes_even (h : Fair w) {cs : List Cmd} {ms : List Mark} (hs : Writes cs ms) : weigh w ms = 0 := by
  have hp := h.paren
  have hc := h.curly
  have hn : ∀ n, w (.name n) = 0 := fun n => h.rest _ nofun nofun nofun nofun
  have hw : ∀ n, w (.word n) = 0 := fun n => h.rest _ nofun nofun nofun nofun
  have ht : ∀ x : Start, w x.mark = 0 := fun x => by cases x <;> exact h.rest _ nofun nofun nofun nofun
  have ha : w .assign = 0 := h.rest _ nofun nofun nofun nofun
  have hs' : w .semi = 0 := h.rest _ nofun nofun nofun nofun
  induction hs with
  | nil => rfl
  | int h1 _ i => simp only [weigh_append, weigh_cons, hn, ha, hs', num_even h h1.1, i]; rfl
  | bool h1 _ i => simp only [weigh_append, weigh_cons, hn, ha, hs', cond_even h h1.1, i]; rfl
  | set h1 _ i => simp only [weigh_append, weigh_cons, hs', change_even h h1, i]; rfl
  | fresh _ i => simp only [weigh_cons, hn, hs', i]; rfl
  | text h1 _ i => simp only [weigh_append, weigh_cons, hn, ht, ha, hs', parts_even h h1, i]; rfl
  | write h1 _ i => simp only [weigh_append, weigh_cons, hn, ht, ha, hs', parts_even h h1, i]; rfl
  | check h1 _ i => simp only [weigh_append, weigh_cons, hw, hs', cond_even h h1.1, i]; omega
  | mark h1 _ i => simp only [weigh_append, weigh_cons, hn, ha, hs', cond_even h h1.1, i]; rfl
  | call h1 _ i => simp only [weigh_append, weigh_cons, hn, ha, hs', args_even h h1, i]; omega
  | callNew h1 _ i => simp only [weigh_append, weigh_cons, hn, ha, hs', args_even h h1, i]; omega
  | callPrint h1 _ i => simp only [weigh_append, weigh_cons, hn, hw, hs', args_even h h1, i]; omega
  | callRet h1 _ i => simp only [weigh_append, weigh_cons, hn, hw, hs', args_even h h1, i]; omega
  | act h1 _ i => simp only [weigh_append, weigh_cons, hn, hs', args_even h h1, i]; omega
  | print h1 _ i => simp only [weigh_append, weigh_cons, hw, hs', num_even h h1.1, i]; omega
  | say h1 _ i => simp only [weigh_append, weigh_cons, hw, ht, hs', parts_even h h1, i]; omega
  | when h1 _ _ i j => simp only [weigh_append, weigh_cons, hw, cond_even h h1.1, i, j]; omega
  | choose h1 _ _ _ i j k => simp only [weigh_append, weigh_cons, hw, cond_even h h1.1, i, j, k]; omega
  | chain h1 _ _ _ _ i j k => simp only [weigh_append, weigh_cons, hw, cond_even h h1.1, i, j, k]; omega
  | @pick _ xs _ _ _ h1 hm _ _ i j =>
    have harms : weigh w (xs.flatMap Arm.marks) = 0 := by
      rename_i hx0 _
      clear h1 j hx0
      induction xs with
      | nil => rfl
      | cons x xs ih =>
        have ih := ih (fun y hy => hm y (List.mem_cons_of_mem _ hy)) (fun y hy => i y (List.mem_cons_of_mem _ hy))
        have hx := i x List.mem_cons_self
        have hm := hm x List.mem_cons_self
        obtain ⟨label, cmds, ms, ts⟩ := x
        cases label with
        | none =>
          simp only [List.flatMap_cons, Arm.marks, weigh_append, weigh_cons, weigh_nil, hw, h.rest .colon nofun nofun nofun nofun, ih, hx]; omega
        | some a =>
          simp only [List.flatMap_cons, Arm.marks, weigh_append, weigh_cons, weigh_nil, hw, h.rest .colon nofun nofun nofun nofun, ih, hx,
            num_even h (hm a rfl).1]; omega
    simp only [weigh_append, weigh_cons, hw, num_even h h1.1, harms, j]; omega
  | loop h1 _ _ i j => simp only [weigh_append, weigh_cons, hw, cond_even h h1.1, i, j]; omega
  | count h1 h2 h3 _ _ i j =>
    simp only [weigh_append, weigh_cons, hw, hn, ha, hs', num_even h h1.1, cond_even h h2.1, change_even h h3, i, j]; omega
  | block _ _ i j => simp only [weigh_append, weigh_cons, i, j]; omega
  | brk _ i => simp only [weigh_cons, hw, hs', i]; rfl
  | cont _ i => simp only [weigh_cons, hw, hs', i]; rfl
  | ret h1 _ i => simp only [weigh_append, weigh_cons, hw, hs', num_even h h1.1, i]; rfl
  | leave _ i => simp only [weigh_cons, hw, hs', i]; rfl

theorem params_even (h : Fair w) : ∀ ns : List Text, weigh w (paramMarks ns) = 0
  | [] => rfl
  | [n] => by
    have hn : ∀ n, w (.name n) = 0 := fun n => h.rest _ nofun nofun nofun nofun
    simp only [paramMarks, weigh_cons, weigh_nil, hn]; rfl
  | n :: m :: ns => by
    have hn : ∀ n, w (.name n) = 0 := fun n => h.rest _ nofun nofun nofun nofun
    simp only [paramMarks, weigh_cons, hn, h.rest .comma nofun nofun nofun nofun, params_even h (m :: ns)]
    rfl

theorem program_even (h : Fair w) {p : Program} {ms : List Mark} (hs : WritesProgram p ms) : weigh w ms = 0 := by
  have hp := h.paren
  have hc := h.curly
  induction hs with
  | nil => rfl
  | cons h1 _ ih =>
    have hn : ∀ n, w (.name n) = 0 := fun n => h.rest _ nofun nofun nofun nofun
    simp only [weigh_append, weigh_cons, hn, params_even h, writes_even h h1, ih]; omega

/-- The weight of a mark is that of its token. -/
theorem toks_weigh {opn cls : Ty} {ts : List Tok} {ms : List Mark} (h : Toks ts ms) :
    (ts.map (turn opn cls)).sum = weigh (fun m => turn opn cls (fin m)) ms := by
  have e : ts.map (turn opn cls) = (ts.map erase).map (turn opn cls) := by rw [List.map_map]; rfl
  rw [e, h, weigh, List.map_map]; rfl

theorem fair (opn cls : Ty) (h : (opn, cls) ∈ [(Ty.BRACKET_OPEN, Ty.BRACKET_CLOSE), (.BRACKET_CURLY_OPEN, .BRACKET_CURLY_CLOSE),
    (.PARENTHESIS_OPEN, .PARENTHESIS_CLOSE)]) : Fair fun m => turn opn cls (fin m) := by
  simp only [List.mem_cons, Prod.mk.injEq, List.not_mem_nil, or_false] at h
  rcases h with ⟨rfl, rfl⟩ | ⟨rfl, rfl⟩ | ⟨rfl, rfl⟩
  all_goals
    refine ⟨rfl, rfl, fun m h1 h2 h3 h4 => ?_⟩
    cases m with
    | formula m =>
      cases m with
      | «open» => exact absurd rfl h1
      | close => exact absurd rfl h2
      | op o => cases o <;> rfl
      | rel r => cases r <;> rfl
      | _ => rfl
    | word x => cases x <;> rfl
    | change o => cases o <;> rfl
    | twice up => cases up <;> rfl
    | lcurly => exact absurd rfl h3
    | rcurly => exact absurd rfl h4
    | _ => rfl

/-- The tokens of a program pass the sanity check. -/
theorem program_sane {p : Program} {ms : List Mark} (h : WritesProgram p ms) {ts : List Tok} (ht : Toks ts ms) {e : Tok}
    (he : e.ty = .ENDOFFILE) : Brackets.sane (ts ++ [e]) = true := by
  have key : ∀ opn cls : Ty, (opn, cls) ∈ [(Ty.BRACKET_OPEN, Ty.BRACKET_CLOSE), (.BRACKET_CURLY_OPEN, .BRACKET_CURLY_CLOSE),
      (.PARENTHESIS_OPEN, .PARENTHESIS_CLOSE)] → opn ≠ .ENDOFFILE → cls ≠ .ENDOFFILE →
      Brackets.openCount opn cls (ts ++ [e]) = 0 := by
    intro opn cls hm h1 h2
    rw [openCount_sum, List.map_append, List.sum_append, toks_weigh ht, program_even (fair opn cls hm) h]
    simp [turn, he, h1.symm, h2.symm]
  simp only [Brackets.sane, key .BRACKET_OPEN .BRACKET_CLOSE (by decide) nofun nofun,
    key .BRACKET_CURLY_OPEN .BRACKET_CURLY_CLOSE (by decide) nofun nofun,
    key .PARENTHESIS_OPEN .PARENTHESIS_CLOSE (by decide) nofun nofun]
  rfl

end Verif.Whole
