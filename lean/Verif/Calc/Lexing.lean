import Verif.Calc.Spec
import Verif.Lex.Props
import Verif.Lex.Numbers
import Verif.Str.Lemmas

/-! # The tokens of a formula -/

namespace Verif.Calc

open Verif.Str (Text)
open Verif.Lex
open Verif.Ints (Op)

/-- A token without its line. -/
def erase (t : Tok) : Tok := { t with line := 0 }

theorem erase_ty (t : Tok) : (erase t).ty = t.ty := rfl

theorem mergeLoop_erase (rule : Ty → Ty → Option (Cat × Ty × Text)) (ts : List Tok) : ∀ tmp : List Tok,
    (mergeLoop rule tmp ts).map erase = mergeLoop rule (tmp.map erase) (ts.map erase) := by
  induction ts with
  | nil => intro tmp; simp [mergeLoop]
  | cons t ts ih =>
    intro tmp
    cases tmp with
    | nil => simp only [mergeLoop, List.map_cons, List.map_nil]; exact ih [t]
    | cons l tmp =>
      simp only [mergeLoop, List.map_cons, erase_ty]
      cases rule l.ty t.ty with
      | none => exact ih (t :: l :: tmp)
      | some x => exact ih (⟨x.1, x.2.1, x.2.2, t.line, false⟩ :: tmp)

theorem mk_erase (w : Text) (l : Nat) : (mk w l).map erase = mk w 0 := by
  unfold mk
  cases classify w with
  | none => rfl
  | some x => rfl

/-- The tokens of a piece, without their lines. -/
def pieceToks (p : Piece) : List Tok := (p.expect 0).map erase

theorem piece_erase (p : Piece) (l : Nat) : (p.expect l).map erase = pieceToks p := by
  cases p <;> simp [Piece.expect, pieceToks, mk_erase, erase]

theorem expect_erase (ps : List Piece) : ∀ l, (expect l ps).map erase = (ps.filter fun p => !isGap p).flatMap pieceToks := by
  induction ps with
  | nil => intro l; rfl
  | cons p ps ih =>
    intro l
    simp only [expect, List.map_append, ih, piece_erase]
    cases hp : isGap p with
    | false => simp [List.filter_cons, hp]
    | true =>
      have : pieceToks p = [] := by cases p <;> simp [isGap] at hp <;> rfl
      simp [List.filter_cons, hp, this]

/-! ## The tokens of a mark before, between and after the two passes -/

def tok (c : Cat) (t : Ty) (s : Text) : Tok := ⟨c, t, s, 0, false⟩

def opTy : Op → Ty
  | .add => .MATH_ADDITION
  | .sub => .MATH_SUBTRACT
  | .mul => .MATH_MULTIPLY
  | .div => .MATH_DIVIDE
  | .mod => .MATH_MODULO

def boolText (b : Bool) : Text := if b then "true".toList else "false".toList

def rawRel : Rel → List Tok
  | .lt => [tok .operator .COMPARE_LESS ['<']]
  | .le => [tok .operator .COMPARE_LESS ['<'], tok .assignment .ASSIGN ['=']]
  | .gt => [tok .operator .COMPARE_GREATER ['>']]
  | .ge => [tok .operator .COMPARE_GREATER ['>'], tok .assignment .ASSIGN ['=']]
  | .eq => [tok .assignment .ASSIGN ['='], tok .assignment .ASSIGN ['=']]
  | .ne => [tok .operator .OPERATOR_NOT ['!'], tok .assignment .ASSIGN ['=']]

def relTok : Rel → Tok
  | .lt => tok .operator .COMPARE_LESS ['<']
  | .le => tok .comparator .COMPARE_LESS_EQUAL "<=".toList
  | .gt => tok .operator .COMPARE_GREATER ['>']
  | .ge => tok .comparator .COMPARE_GREATER_EQUAL ">=".toList
  | .eq => tok .comparator .COMPARE_EQUAL "==".toList
  | .ne => tok .comparator .COMPARE_UNEQUAL "!=".toList

def raw : Mark → List Tok
  | .name n => [tok .none .IDENTIFIER n]
  | .num k => [tok .constant .CONST_INTEGER (Str.natDigits k)]
  | .const b => [tok .constant .CONST_BOOLEAN (boolText b)]
  | .op o => [tok .operator (opTy o) [opChar o]]
  | .rel r => rawRel r
  | .and => [tok .operator .BITAND ['&'], tok .operator .BITAND ['&']]
  | .or => [tok .operator .BITOR ['|'], tok .operator .BITOR ['|']]
  | .not => [tok .operator .OPERATOR_NOT ['!']]
  | .open => [tok .none .PARENTHESIS_OPEN ['(']]
  | .close => [tok .none .PARENTHESIS_CLOSE [')']]

def mid : Mark → List Tok
  | .rel r => [relTok r]
  | m => raw m

def fin : Mark → Tok
  | .name n => tok .none .IDENTIFIER n
  | .num k => tok .constant .CONST_INTEGER (Str.natDigits k)
  | .const b => tok .constant .CONST_BOOLEAN (boolText b)
  | .op o => tok .operator (opTy o) [opChar o]
  | .rel r => relTok r
  | .and => tok .operator .AND "&&".toList
  | .or => tok .operator .OR "||".toList
  | .not => tok .operator .OPERATOR_NOT ['!']
  | .open => tok .none .PARENTHESIS_OPEN ['(']
  | .close => tok .none .PARENTHESIS_CLOSE [')']

theorem digits_natDigits (k : Nat) : Digits (Str.natDigits k) := by
  refine ⟨Str.natDigits_ne_nil k, fun c hc => ?_⟩
  have hd := Str.natDigits_isDigit k c hc
  simp only [Str.isDigit, Bool.and_eq_true, decide_eq_true_eq, Char.le_def] at hd
  obtain ⟨h1, h2⟩ : 48 ≤ c.toNat ∧ c.toNat ≤ 57 := ⟨hd.1, hd.2⟩
  obtain ⟨i, hi, e⟩ : ∃ i, i < 10 ∧ c = Char.ofNat (48 + i) := ⟨c.toNat - 48, by omega, by
    rw [show 48 + (c.toNat - 48) = c.toNat by omega]; simp⟩
  subst e
  have : ∀ i, i < 10 → Char.ofNat (48 + i) ∈ ['0', '1', '2', '3', '4', '5', '6', '7', '8', '9'] := by decide
  exact this i hi

theorem pieceToks_marks {m : Mark} (h : ∀ n ∈ m.names, PlainName n) : m.pieces.flatMap pieceToks = raw m := by
  cases m with
  | name n =>
    have hn := h n (by simp [Mark.names])
    simp [Mark.pieces, pieceToks, Piece.expect, mk, classify_word (fun c hc => (hn.2.1 c hc).1), hn.2.2, raw, tok, erase]
  | num k =>
    have hd := digits_natDigits k
    have hw : ∀ c ∈ Str.natDigits k, c ∉ delimiters := by
      have : ∀ c ∈ ['0', '1', '2', '3', '4', '5', '6', '7', '8', '9'], c ∉ delimiters := by decide
      exact fun c hc => this c (hd.2 c hc)
    simp [Mark.pieces, pieceToks, Piece.expect, mk, classify_word hw, classify_digits hd, raw, tok, erase]
  | const b => cases b <;> rfl
  | op o => cases o <;> rfl
  | rel r => cases r <;> rfl
  | _ => rfl

/-! ## Which marks may stand side by side -/

/-- A mark that ends an operand. -/
def ender : Mark → Bool
  | .name _ => true
  | .num _ => true
  | .const _ => true
  | .close => true
  | _ => false

/-- A mark that begins an operand. -/
def starter : Mark → Bool
  | .name _ => true
  | .num _ => true
  | .const _ => true
  | .open => true
  | .not => true
  | .op .sub => true
  | _ => false

/-- A mark between operands. -/
def between : Mark → Bool
  | .op _ => true
  | .rel _ => true
  | .and => true
  | .or => true
  | _ => false

def leads : Mark → Bool
  | .open => true
  | .not => true
  | m => between m

def closes : Mark → Bool
  | .close => true
  | m => between m

/-- Two marks may stand side by side. -/
def follows (a b : Mark) : Bool := (ender a && closes b) || (leads a && starter b)

def Chain (R : Mark → Mark → Bool) : List Mark → Prop
  | [] => True
  | [_] => True
  | a :: b :: ms => R a b = true ∧ Chain R (b :: ms)

theorem chain_append {R : Mark → Mark → Bool} : ∀ {as bs : List Mark}, Chain R as → Chain R bs →
    (∀ x ∈ as.getLast?, ∀ y ∈ bs.head?, R x y = true) → Chain R (as ++ bs)
  | [], _, _, hb, _ => hb
  | [a], [], _, _, _ => trivial
  | [a], b :: bs, _, hb, h => ⟨h a (by simp) b (by simp), hb⟩
  | a :: a' :: as, bs, ha, hb, h =>
    ⟨ha.1, chain_append (as := a' :: as) ha.2 hb (fun x hx y hy => h x (by simpa using hx) y hy)⟩

/-- What a formula looks like from outside. -/
structure Shape (ms : List Mark) : Prop where
  chain : Chain follows ms
  first : ∃ m rest, ms = m :: rest ∧ starter m = true
  last : ∃ m rest, ms = rest ++ [m] ∧ ender m = true

theorem shape_single {m : Mark} (h1 : starter m = true) (h2 : ender m = true) : Shape [m] :=
  ⟨trivial, ⟨m, [], rfl, h1⟩, ⟨m, [], rfl, h2⟩⟩

theorem shape_lead {m : Mark} {ms : List Mark} (h1 : starter m = true) (h2 : leads m = true) (h : Shape ms) : Shape (m :: ms) := by
  obtain ⟨a, r, rfl, ha⟩ := h.first
  obtain ⟨z, q, hq, hz⟩ := h.last
  exact ⟨⟨by simp [follows, h2, ha], h.chain⟩, ⟨m, _, rfl, h1⟩, ⟨z, m :: q, by simp [hq], hz⟩⟩

theorem shape_join {m : Mark} {as bs : List Mark} (hm : between m = true) (ha : Shape as) (hb : Shape bs) :
    Shape (as ++ m :: bs) := by
  have hl : leads m = true := by cases m <;> simp_all [between, leads]
  have hc : closes m = true := by cases m <;> simp_all [between, closes]
  obtain ⟨a, r, hr, hs⟩ := ha.first
  obtain ⟨z, q, hq, hz⟩ := ha.last
  obtain ⟨b, r', hr', hs'⟩ := hb.first
  obtain ⟨z', q', hq', hz'⟩ := hb.last
  refine ⟨chain_append ha.chain ?_ ?_, ⟨a, r ++ m :: bs, by simp [hr], hs⟩, ⟨z', as ++ m :: q', by simp [hq'], hz'⟩⟩
  · have := hb.chain
    subst hr'
    exact ⟨by simp [follows, hl, hs'], this⟩
  · intro x hx y hy
    rw [hq] at hx
    simp at hx hy
    subst hx hy
    simp [follows, hz, hc]

theorem shape_paren {ms : List Mark} (h : Shape ms) : Shape (.open :: ms ++ [.close]) := by
  obtain ⟨a, r, hr, hs⟩ := h.first
  obtain ⟨z, q, hq, hz⟩ := h.last
  refine ⟨chain_append (as := .open :: ms) ?_ trivial ?_, ⟨.open, _, rfl, rfl⟩, ⟨.close, .open :: ms, rfl, rfl⟩⟩
  · have := h.chain
    subst hr
    exact ⟨by simp [follows, leads, hs], this⟩
  · intro x hx y hy
    rw [hq] at hx
    rw [← List.cons_append] at hx
    simp only [List.getLast?_append, List.getLast?_singleton, Option.some_or, Option.mem_def, Option.some.injEq,
      List.head?_cons] at hx hy
    subst hx hy
    simp [follows, hz, closes]

theorem num_shape {p : Place} {a : Num} {ms : List Mark} (h : SpellsNum p a ms) : Shape ms := by
  induction h with
  | num k => exact shape_single rfl rfl
  | var n => exact shape_single rfl rfl
  | paren _ ih => exact shape_paren ih
  | neg _ ih => exact shape_lead rfl rfl ih
  | atom _ ih => exact ih
  | product _ _ _ iha ihb => exact shape_join rfl iha ihb
  | signed _ ih => exact ih
  | sum _ _ _ iha ihb => exact shape_join rfl iha ihb
  | factor _ ih => exact ih

theorem cond_shape {p : CPlace} {c : Cond} {ms : List Mark} (h : SpellsCond p c ms) : Shape ms := by
  induction h with
  | flag n => exact shape_single rfl rfl
  | const b => exact shape_single rfl rfl
  | paren _ ih => exact shape_paren ih
  | not _ ih => exact shape_lead rfl rfl ih
  | cmp ha hb => exact shape_join rfl (num_shape ha) (num_shape hb)
  | and _ _ iha ihb => exact shape_join rfl iha ihb
  | or _ _ iha ihb => exact shape_join rfl iha ihb
  | atom _ ih => exact ih
  | negated _ ih => exact ih
  | conjOne _ ih => exact ih
  | disjOne _ ih => exact ih
  | conj _ ih => exact ih
  | disj _ ih => exact ih

/-- Side by side, and not two minus signs. -/
def joins (a b : Mark) : Bool := follows a b && !(decide (a = .op .sub) && decide (b = .op .sub))

theorem chain_joins : ∀ {ms : List Mark}, Chain follows ms → Apart ms → Chain joins ms
  | [], _, _ => trivial
  | [_], _, _ => trivial
  | a :: b :: ms, hc, ha => by
    refine ⟨?_, chain_joins hc.2 ha.2⟩
    have := ha.1
    simp only [joins, hc.1, Bool.true_and, Bool.not_eq_true', Bool.and_eq_false_iff, decide_eq_false_iff_not]
    by_cases h : a = .op .sub
    · exact Or.inr fun h' => this ⟨h, h'⟩
    · exact Or.inl h

/-! ## The passes, mark by mark -/

def headTy (ts : List Tok) : Ty := match ts with | [] => .UNKNOWN | t :: _ => t.ty

theorem merge_none {rule : Ty → Ty → Option (Cat × Ty × Text)} {l t : Tok} {tmp rest : List Tok} (h : rule l.ty t.ty = none) :
    mergeLoop rule (l :: tmp) (t :: rest) = mergeLoop rule (t :: l :: tmp) rest := by simp [mergeLoop, h]

theorem assign_block (m : Mark) (l : Tok) (tmp rest : List Tok) (h : assignRule l.ty (headTy (raw m)) = none) :
    mergeLoop assignRule (l :: tmp) (raw m ++ rest) = mergeLoop assignRule ((mid m).reverse ++ l :: tmp) rest := by
  cases m with
  | rel r => cases r <;> exact (merge_none h).trans rfl
  | op o => cases o <;> exact (merge_none h).trans rfl
  | _ => exact (merge_none h).trans rfl

theorem assign_first (m : Mark) (rest : List Tok) :
    mergeLoop assignRule [] (raw m ++ rest) = mergeLoop assignRule (mid m).reverse rest := by
  cases m with
  | rel r => cases r <;> rfl
  | op o => cases o <;> rfl
  | _ => rfl

theorem operator_block (m : Mark) (l : Tok) (tmp rest : List Tok) (h : operatorRule l.ty (headTy (mid m)) = none) :
    mergeLoop operatorRule (l :: tmp) (mid m ++ rest) = mergeLoop operatorRule (fin m :: l :: tmp) rest := by
  cases m with
  | rel r => cases r <;> exact (merge_none h).trans rfl
  | op o => cases o <;> exact (merge_none h).trans rfl
  | _ => exact (merge_none h).trans rfl

theorem operator_first (m : Mark) (rest : List Tok) :
    mergeLoop operatorRule [] (mid m ++ rest) = mergeLoop operatorRule [fin m] rest := by
  cases m with
  | rel r => cases r <;> rfl
  | op o => cases o <;> rfl
  | _ => rfl

/-- The last token of a mark after the first pass. -/
def lastTy : Mark → Ty
  | .and => .BITAND
  | .or => .BITOR
  | m => (fin m).ty

theorem mid_reverse (m : Mark) : ∃ l tmp, (mid m).reverse = l :: tmp ∧ l.ty = lastTy m := by
  cases m with
  | rel r => exact ⟨_, [], rfl, rfl⟩
  | and => exact ⟨_, _, rfl, rfl⟩
  | or => exact ⟨_, _, rfl, rfl⟩
  | _ => exact ⟨_, [], rfl, rfl⟩

theorem assign_join {a b : Mark} (h : joins a b = true) : assignRule (lastTy a) (headTy (raw b)) = none := by
  cases a with
  | op o => cases b with
    | rel r => cases o <;> cases r <;> exact absurd h (by decide)
    | op p => cases o <;> cases p <;> first | rfl | exact absurd h (by decide)
    | _ => cases o <;> rfl
  | rel q => cases b with
    | rel r => cases q <;> cases r <;> exact absurd h (by decide)
    | op p => cases q <;> cases p <;> rfl
    | _ => cases q <;> rfl
  | _ => cases b with
    | rel r => cases r <;> first | rfl | exact absurd h (by decide)
    | op p => cases p <;> rfl
    | _ => rfl

theorem operator_join {a b : Mark} (h : joins a b = true) : operatorRule (fin a).ty (headTy (mid b)) = none := by
  cases a with
  | op o => cases b with
    | rel r => cases o <;> cases r <;> exact absurd h (by decide)
    | op p => cases o <;> cases p <;> first | rfl | exact absurd h (by decide)
    | _ => cases o <;> rfl
  | rel q => cases b with
    | rel r => cases q <;> cases r <;> exact absurd h (by decide)
    | op p => cases q <;> cases p <;> rfl
    | _ => cases q <;> rfl
  | _ => cases b with
    | rel r => cases r <;> first | rfl | exact absurd h (by decide)
    | op p => cases p <;> first | rfl | exact absurd h (by decide)
    | _ => first | rfl | exact absurd h (by decide)

/-- The semicolon and the end of the file. -/
def tail : List Tok := [tok .none .SEMICOLON [';'], eof]

theorem assign_pass : ∀ (ms : List Mark) (a : Mark) (l : Tok) (tmp : List Tok), l.ty = lastTy a → Chain joins (a :: ms) →
    mergeLoop assignRule (l :: tmp) (ms.flatMap raw ++ tail) = (l :: tmp).reverse ++ (ms.flatMap mid ++ tail)
  | [], a, l, tmp, hl, _ => by
    rw [mergeLoop_id]
    · rfl
    · show NoMerge assignRule [l.ty, .SEMICOLON, .ENDOFFILE]
      refine ⟨?_, rfl, trivial⟩
      cases l.ty <;> rfl
  | b :: ms, a, l, tmp, hl, h => by
    obtain ⟨l', tmp', e, hl'⟩ := mid_reverse b
    simp only [List.flatMap_cons, List.append_assoc]
    rw [assign_block b l tmp _ (hl ▸ assign_join h.1), e, List.cons_append, assign_pass ms b l' (tmp' ++ l :: tmp) hl' h.2,
      ← List.cons_append, ← e]
    simp

theorem operator_pass : ∀ (ms : List Mark) (a : Mark) (tmp : List Tok), Chain joins (a :: ms) →
    mergeLoop operatorRule (fin a :: tmp) (ms.flatMap mid ++ tail) = (fin a :: tmp).reverse ++ (ms.map fin ++ tail)
  | [], a, tmp, _ => by
    rw [mergeLoop_id]
    · rfl
    · show NoMerge operatorRule [(fin a).ty, .SEMICOLON, .ENDOFFILE]
      refine ⟨?_, rfl, trivial⟩
      cases (fin a).ty <;> rfl
  | b :: ms, a, tmp, h => by
    simp only [List.flatMap_cons, List.append_assoc]
    rw [operator_block b (fin a) tmp _ (operator_join h.1), operator_pass ms b (fin a :: tmp) h.2]
    simp

theorem both_passes (a : Mark) (ms : List Mark) (h : Chain joins (a :: ms)) :
    mergeOperators (mergeAssignments ((a :: ms).flatMap raw ++ tail)) = (a :: ms).map fin ++ tail := by
  have h1 : mergeAssignments ((a :: ms).flatMap raw ++ tail) = (a :: ms).flatMap mid ++ tail := by
    obtain ⟨l, tmp, e, hl⟩ := mid_reverse a
    rw [mergeAssignments, List.flatMap_cons, List.append_assoc, assign_first, e, assign_pass ms a l tmp hl h, ← e]
    simp
  rw [h1, mergeOperators, List.flatMap_cons, List.append_assoc, operator_first, operator_pass ms a [] h]
  rfl

theorem fin_ty (m : Mark) : (fin m).ty ≠ .OPERATOR_SCOPE ∧ (fin m).ty ≠ .RESERVED_WORD := by
  cases m with
  | rel r => cases r <;> decide
  | op o => cases o <;> decide
  | _ => simp [fin, tok]

theorem no_number_name : ∀ (ms : List Mark), Chain joins ms →
    ¬ Adjacent .CONST_INTEGER .IDENTIFIER (ms.map (fun m => (fin m).ty) ++ [Ty.SEMICOLON, Ty.ENDOFFILE])
  | [], _ => by simp [Adjacent]
  | [a], _ => by simp [Adjacent]
  | a :: b :: ms, h => by
    intro hadj
    rcases hadj with ⟨h1, h2⟩ | hadj
    · have := h.1
      have ha : ∃ k, a = .num k := by
        cases a with
        | num k => exact ⟨k, rfl⟩
        | op o => cases o <;> cases h1
        | rel r => cases r <;> cases h1
        | _ => cases h1
      have hb : ∃ n, b = .name n := by
        cases b with
        | name n => exact ⟨n, rfl⟩
        | op o => cases o <;> cases h2
        | rel r => cases r <;> cases h2
        | _ => cases h2
      obtain ⟨k, rfl⟩ := ha
      obtain ⟨n, rfl⟩ := hb
      exact absurd this (by simp [joins, follows, ender, closes, leads, between])
    · exact no_number_name (b :: ms) h.2 hadj

/-- The tokens of a formula that is laid out in any way. -/
theorem formula_tokens {ms : List Mark} {text : Text} (hs : Shape ms) (ha : Apart ms) (hl : Laid ms text)
    (hn : ∀ n ∈ ms.flatMap Mark.names, PlainName n) :
    ∃ ts, tokenize text = .ok ts ∧ ts.map erase = ms.map fin ++ tail := by
  obtain ⟨ps, hw, rfl, hf⟩ := hl
  obtain ⟨a, r, rfl, -⟩ := hs.first
  have hc := chain_joins hs.chain ha
  have hr := tokens_as_written ps hw
  have hraw : (expect 1 ps ++ [eof]).map erase = (a :: r).flatMap raw ++ tail := by
    rw [List.map_append, expect_erase, hf, List.flatMap_append, List.flatMap_assoc]
    have : (a :: r).flatMap (fun m => m.pieces.flatMap pieceToks) = (a :: r).flatMap raw := by
      rw [List.flatMap_def, List.flatMap_def]
      exact congrArg List.flatten (List.map_congr_left fun m hm =>
        pieceToks_marks fun n hnm => hn n (List.mem_flatMap.2 ⟨m, hm, hnm⟩))
    rw [this, List.append_assoc]
    rfl
  have hmerged : (mergeOperators (mergeAssignments (expect 1 ps ++ [eof]))).map erase = (a :: r).map fin ++ tail := by
    rw [mergeOperators, mergeLoop_erase, mergeAssignments, mergeLoop_erase]
    have := both_passes a r hc
    rw [← hraw] at this
    exact this
  generalize hts : mergeOperators (mergeAssignments (expect 1 ps ++ [eof])) = ts at hmerged
  have hty : ts.map Tok.ty = (a :: r).map (fun m => (fin m).ty) ++ [Ty.SEMICOLON, Ty.ENDOFFILE] := by
    have := congrArg (List.map Tok.ty) hmerged
    rw [List.map_map, List.map_append, List.map_map] at this
    exact this
  have hconst : NoConst ts := by
    apply noConst_words
    · rw [hty]
      simp only [List.mem_append, List.mem_map, not_or, not_exists, not_and]
      exact ⟨fun m _ => (fin_ty m).1, by decide⟩
    · rw [hty]; exact no_number_name _ hc
  have hword : NoOperatorWord ts := by
    intro t ht h
    have h1 := h.1
    have : Ty.RESERVED_WORD ∈ ts.map Tok.ty := List.mem_map.2 ⟨t, ht, h1⟩
    rw [hty] at this
    simp only [List.mem_append, List.mem_map] at this
    rcases this with ⟨m, -, h⟩ | h
    · exact (fin_ty m).2 h
    · exact absurd h (by decide)
  refine ⟨ts, ?_, hmerged⟩
  rw [tokenize, hr]
  show passes (expect 1 ps ++ [eof]) = .ok ts
  simp only [passes, hts, replaceConsts_id hconst]
  rw [replaceOps_id ts [] (by simp [NoOperatorWord]) hword]
  rfl

end Verif.Calc
