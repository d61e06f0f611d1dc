import Verif.Lex.Props
import Verif.AMap

/-!
# Number literals (C73) and the words of the language
-/

namespace Verif.Lex

open Verif.Str

/-- A non-empty sequence of decimal digits. -/
def Digits (t : Text) : Prop := t ≠ [] ∧ ∀ c ∈ t, c ∈ ['0', '1', '2', '3', '4', '5', '6', '7', '8', '9']

private theorem digit_facts : ∀ c ∈ ['0', '1', '2', '3', '4', '5', '6', '7', '8', '9'],
    c ∉ delimiters ∧ c ≠ nul ∧ isDigitChar c = true := by decide

private theorem digits_all {t : Text} (h : Digits t) : t.all isDigitChar = true := by
  rw [List.all_eq_true]
  intro c hc
  exact (digit_facts c (h.2 c hc)).2.2

private theorem digits_chars {t : Text} (h : Digits t) : ∀ c ∈ t, c ∉ delimiters ∧ c ≠ nul := by
  intro c hc
  have := digit_facts c (h.2 c hc)
  exact ⟨this.1, this.2.1⟩

/-- A word that begins with a digit is in none of the word lists. -/
private theorem not_word {t : Text} {c : Char} (hc : t.head? = some c) (hd : isDigitChar c = true) (L : List Text)
    (hL : ∀ u ∈ L, ∀ d, u.head? = some d → isDigitChar d = false) : t ∉ L := by
  intro hm
  have := hL t hm c hc
  rw [hd] at this
  cases this

private theorem head_digit {t : Text} (h : Digits t) (x : Text) : ∃ c, (t ++ x).head? = some c ∧ isDigitChar c = true := by
  cases t with
  | nil => exact absurd rfl h.1
  | cons c t => exact ⟨c, rfl, (digit_facts c (h.2 c (by simp))).2.2⟩

private theorem numberWith_append {t : Text} (h : Digits t) (l m : Char) :
    isNumberWith m (t ++ [l]) = (l == m) := by
  have h1 : (t ++ [l]).length > 1 := by
    have := List.length_pos_iff.2 h.1
    simp; omega
  unfold isNumberWith
  rw [List.dropLast_concat, digits_all h, List.getLast?_concat]
  simp only [h1, decide_true, Bool.true_and]
  by_cases e : l = m <;> simp [e]

private theorem numberWith_digits {t : Text} (h : Digits t) (m : Char) (hm : isDigitChar m = false) :
    isNumberWith m t = false := by
  unfold isNumberWith
  have hl : (t.getLast? == some m) = false := by
    rw [List.getLast?_eq_some_getLast h.1]
    simp only [beq_eq_false_iff_ne, ne_eq, Option.some.injEq]
    intro e
    have := (digit_facts _ (h.2 _ (List.getLast_mem h.1))).2.2
    rw [e, hm] at this
    cases this
  simp [hl]

/-- A run of digits is an integer constant. -/
theorem classify_digits {t : Text} (h : Digits t) : classifyWord t = (.constant, .CONST_INTEGER, t, false) := by
  obtain ⟨c, hc, hd⟩ := head_digit h []
  rw [List.append_nil] at hc
  unfold classifyWord
  rw [if_neg (fun e => not_word hc hd ["is".toList] (by decide) (by simp [e])),
    if_neg (fun e => not_word hc hd ["..".toList] (by decide) (by simp [e])),
    if_neg (not_word hc hd accessModes (by decide)), if_neg (not_word hc hd booleans (by decide)),
    numberWith_digits h 'd' (by decide), numberWith_digits h 'f' (by decide), numberWith_digits h 'i' (by decide)]
  have : isInteger t = true := by
    unfold isInteger
    rw [digits_all h]
    cases t with
    | nil => exact absurd rfl h.1
    | cons a t => rfl
  simp [this]

/-- Digits followed by one of the marks. -/
theorem classify_marked {t : Text} (h : Digits t) :
    classifyWord (t ++ ['d']) = (.constant, .CONST_DOUBLE, t, false) ∧
    classifyWord (t ++ ['f']) = (.constant, .CONST_FLOAT, t, false) ∧
    classifyWord (t ++ ['i']) = (.constant, .CONST_INTEGER, t, false) := by
  have key : ∀ l, l ∈ ['d', 'f', 'i'] → classifyWord (t ++ [l]) =
      (.constant, if l = 'd' then .CONST_DOUBLE else if l = 'f' then .CONST_FLOAT else .CONST_INTEGER, t, false) := by
    intro l hl
    obtain ⟨c, hc, hd⟩ := head_digit h [l]
    unfold classifyWord
    rw [if_neg (fun e => not_word hc hd ["is".toList] (by decide) (by simp [e])),
      if_neg (fun e => not_word hc hd ["..".toList] (by decide) (by simp [e])),
      if_neg (not_word hc hd accessModes (by decide)), if_neg (not_word hc hd booleans (by decide)),
      numberWith_append h l 'd', numberWith_append h l 'f', numberWith_append h l 'i']
    have ht : (t ++ [l]).take ((t ++ [l]).length - 1) = t := by simp
    rw [ht]
    simp only [List.mem_cons, List.not_mem_nil, or_false] at hl
    rcases hl with rfl | rfl | rfl <;> rfl
  exact ⟨key 'd' (by simp), key 'f' (by simp), key 'i' (by simp)⟩

private theorem mk_digits {t : Text} (h : Digits t) (l : Nat) : mk t l = [⟨.constant, .CONST_INTEGER, t, l, false⟩] := by
  rw [mk, classify_word (fun c hc => (digits_chars h c hc).1), classify_digits h]

private theorem marked_chars {t : Text} (h : Digits t) {m : Char} (hm : m ∈ ['d', 'f', 'i']) :
    ∀ c ∈ t ++ [m], c ∉ delimiters ∧ c ≠ nul := by
  intro c hc
  rcases List.mem_append.1 hc with hc | hc
  · exact digits_chars h c hc
  · rw [List.mem_singleton.1 hc]
    have : ∀ m ∈ ['d', 'f', 'i'], m ∉ delimiters ∧ m ≠ nul := by decide
    exact this m hm

private theorem lines_zero {w : Text} (h : ∀ c ∈ w, c ∉ delimiters ∧ c ≠ nul) : (Piece.word w).lines = 0 :=
  List.count_eq_zero.2 fun hn => (h _ hn).1 (by decide)

private theorem mk_name {w : Text} (hw : PlainName w) : mk w 1 = [⟨.none, .IDENTIFIER, w, 1, false⟩] := by
  rw [mk, classify_word (fun c hc => (hw.2.1 c hc).1), hw.2.2]

/-- The tokens of `x = a;` for a single word `a`. -/
private theorem assign_word (x a : Text) (hx : PlainName x) (ha : a ≠ [] ∧ ∀ c ∈ a, c ∉ delimiters ∧ c ≠ nul) :
    rawTokens (x ++ " = ".toList ++ a ++ ";".toList) =
      some ([⟨.none, .IDENTIFIER, x, 1, false⟩, ⟨.assignment, .ASSIGN, ['='], 1, false⟩] ++ mk a 1 ++
        [⟨.none, .SEMICOLON, [';'], 1, false⟩, eof]) := by
  have hwf : WellFormed none [.word x, .blank ' ', .sym '=', .blank ' ', .word a, .sym ';'] :=
    ⟨⟨hx.1, hx.2.1⟩, trivial, by simp [Piece.Ok, whitespaces], trivial, by simp [Piece.Ok, symbols], trivial,
      by simp [Piece.Ok, whitespaces], trivial, ha, trivial, by simp [Piece.Ok, symbols], trivial, trivial⟩
  have hr := tokens_as_written _ hwf
  have hren : render [.word x, .blank ' ', .sym '=', .blank ' ', .word a, .sym ';'] =
      x ++ " = ".toList ++ a ++ ";".toList := by simp [render, Piece.render]
  rw [hren] at hr
  have e1 : (Piece.sym '=').lines = 0 := by decide
  have e2 : (Piece.blank ' ').lines = 0 := by decide
  simp only [expect, Piece.expect, lines_zero hx.2.1, lines_zero ha.2, e1, e2, Nat.add_zero, mk_name hx] at hr
  rw [hr]
  simp [mk, classify]

/-- The tokens of `x = a.b;` for two words. -/
private theorem assign_dotted (x a b : Text) (hx : PlainName x) (ha : a ≠ [] ∧ ∀ c ∈ a, c ∉ delimiters ∧ c ≠ nul)
    (hb : b ≠ [] ∧ ∀ c ∈ b, c ∉ delimiters ∧ c ≠ nul) :
    rawTokens (x ++ " = ".toList ++ a ++ ".".toList ++ b ++ ";".toList) =
      some ([⟨.none, .IDENTIFIER, x, 1, false⟩, ⟨.assignment, .ASSIGN, ['='], 1, false⟩] ++ mk a 1 ++
        [⟨.none, .OPERATOR_SCOPE, ['.'], 1, false⟩] ++ mk b 1 ++ [⟨.none, .SEMICOLON, [';'], 1, false⟩, eof]) := by
  have hwf : WellFormed none [.word x, .blank ' ', .sym '=', .blank ' ', .word a, .sym '.', .word b, .sym ';'] :=
    ⟨⟨hx.1, hx.2.1⟩, trivial, by simp [Piece.Ok, whitespaces], trivial, by simp [Piece.Ok, symbols], trivial,
      by simp [Piece.Ok, whitespaces], trivial, ha, trivial, by simp [Piece.Ok, symbols], trivial, hb, trivial,
      by simp [Piece.Ok, symbols], trivial, trivial⟩
  have hr := tokens_as_written _ hwf
  have hren : render [.word x, .blank ' ', .sym '=', .blank ' ', .word a, .sym '.', .word b, .sym ';'] =
      x ++ " = ".toList ++ a ++ ".".toList ++ b ++ ";".toList := by simp [render, Piece.render]
  rw [hren] at hr
  have e1 : (Piece.sym '=').lines = 0 := by decide
  have e2 : (Piece.blank ' ').lines = 0 := by decide
  have e3 : (Piece.sym '.').lines = 0 := by decide
  simp only [expect, Piece.expect, lines_zero hx.2.1, lines_zero ha.2, lines_zero hb.2, e1, e2, e3, Nat.add_zero,
    mk_name hx] at hr
  rw [hr]
  simp [mk, classify]

/-- The tokens of the statement `x = <constant>;`. -/
def assigned (x : Text) (ty : Ty) (content : Text) : List Tok :=
  [⟨.none, .IDENTIFIER, x, 1, false⟩, ⟨.assignment, .ASSIGN, ['='], 1, false⟩, ⟨.constant, ty, content, 1, false⟩,
   ⟨.none, .SEMICOLON, [';'], 1, false⟩, eof]

/-- C73: an integer literal keeps its digits, and the marks `i`, `f` and `d` choose its type. -/
theorem integer_literals (x a : Text) (hx : PlainName x) (ha : Digits a) :
    tokenize (x ++ " = ".toList ++ a ++ ";".toList) = .ok (assigned x .CONST_INTEGER a) ∧
    tokenize (x ++ " = ".toList ++ (a ++ ['i']) ++ ";".toList) = .ok (assigned x .CONST_INTEGER a) ∧
    tokenize (x ++ " = ".toList ++ (a ++ ['f']) ++ ";".toList) = .ok (assigned x .CONST_FLOAT a) ∧
    tokenize (x ++ " = ".toList ++ (a ++ ['d']) ++ ";".toList) = .ok (assigned x .CONST_DOUBLE a) := by
  have hm : ∀ m, m ∈ ['d', 'f', 'i'] → mk (a ++ [m]) 1 =
      [⟨.constant, (classifyWord (a ++ [m])).2.1, (classifyWord (a ++ [m])).2.2.1, 1, false⟩] := by
    intro m hm
    rw [mk, classify_word (fun c hc => (marked_chars ha hm c hc).1)]
    have := classify_marked ha
    simp only [List.mem_cons, List.not_mem_nil, or_false] at hm
    rcases hm with rfl | rfl | rfl
    · rw [this.1]
    · rw [this.2.1]
    · rw [this.2.2]
  refine ⟨?_, ?_, ?_, ?_⟩
  · rw [tokenize, assign_word x a hx ⟨ha.1, digits_chars ha⟩, mk_digits ha]; rfl
  · rw [tokenize, assign_word x _ hx ⟨by simp, marked_chars ha (m := 'i') (by simp)⟩, hm 'i' (by simp),
      (classify_marked ha).2.2]; rfl
  · rw [tokenize, assign_word x _ hx ⟨by simp, marked_chars ha (m := 'f') (by simp)⟩, hm 'f' (by simp),
      (classify_marked ha).2.1]; rfl
  · rw [tokenize, assign_word x _ hx ⟨by simp, marked_chars ha (m := 'd') (by simp)⟩, hm 'd' (by simp),
      (classify_marked ha).1]; rfl

/-- C73: a decimal fraction marked `f` or `d` becomes one constant with exactly its digits; without fraction digits the mark
alone behind the dot is accepted as well; a fraction without mark, or marked `i`, is rejected. -/
theorem fraction_literals (x a b : Text) (hx : PlainName x) (ha : Digits a) (hb : Digits b) :
    tokenize (x ++ " = ".toList ++ a ++ ".".toList ++ (b ++ ['f']) ++ ";".toList)
      = .ok (assigned x .CONST_FLOAT (a ++ ".".toList ++ b)) ∧
    tokenize (x ++ " = ".toList ++ a ++ ".".toList ++ (b ++ ['d']) ++ ";".toList)
      = .ok (assigned x .CONST_DOUBLE (a ++ ".".toList ++ b)) ∧
    tokenize (x ++ " = ".toList ++ a ++ ".".toList ++ ['f'] ++ ";".toList)
      = .ok (assigned x .CONST_FLOAT (a ++ ".".toList)) ∧
    tokenize (x ++ " = ".toList ++ a ++ ".".toList ++ ['d'] ++ ";".toList)
      = .ok (assigned x .CONST_DOUBLE (a ++ ".".toList)) ∧
    tokenize (x ++ " = ".toList ++ a ++ ".".toList ++ b ++ ";".toList) = .syntaxError ∧
    tokenize (x ++ " = ".toList ++ a ++ ".".toList ++ (b ++ ['i']) ++ ";".toList) = .syntaxError ∧
    tokenize (x ++ " = ".toList ++ a ++ ".".toList ++ ['i'] ++ ";".toList) = .syntaxError := by
  have hac := And.intro ha.1 (digits_chars ha)
  have hm : ∀ m, m ∈ ['d', 'f', 'i'] → mk (b ++ [m]) 1 =
      [⟨.constant, (classifyWord (b ++ [m])).2.1, (classifyWord (b ++ [m])).2.2.1, 1, false⟩] := by
    intro m hm
    rw [mk, classify_word (fun c hc => (marked_chars hb hm c hc).1)]
    have := classify_marked hb
    simp only [List.mem_cons, List.not_mem_nil, or_false] at hm
    rcases hm with rfl | rfl | rfl
    · rw [this.1]
    · rw [this.2.1]
    · rw [this.2.2]
  refine ⟨?_, ?_, ?_, ?_, ?_, ?_, ?_⟩
  · rw [tokenize, assign_dotted x a _ hx hac ⟨by simp, marked_chars hb (m := 'f') (by simp)⟩, mk_digits ha,
      hm 'f' (by simp), (classify_marked hb).2.1]; rfl
  · rw [tokenize, assign_dotted x a _ hx hac ⟨by simp, marked_chars hb (m := 'd') (by simp)⟩, mk_digits ha,
      hm 'd' (by simp), (classify_marked hb).1]; rfl
  · rw [tokenize, assign_dotted x a _ hx hac ⟨by simp, by decide⟩, mk_digits ha]; rfl
  · rw [tokenize, assign_dotted x a _ hx hac ⟨by simp, by decide⟩, mk_digits ha]; rfl
  · rw [tokenize, assign_dotted x a _ hx hac ⟨hb.1, digits_chars hb⟩, mk_digits ha, mk_digits hb]; rfl
  · rw [tokenize, assign_dotted x a _ hx hac ⟨by simp, marked_chars hb (m := 'i') (by simp)⟩, mk_digits ha,
      hm 'i' (by simp), (classify_marked hb).2.2]; rfl
  · rw [tokenize, assign_dotted x a _ hx hac ⟨by simp, by decide⟩, mk_digits ha]; rfl

example : PlainName "rate".toList ∧ Digits "3".toList ∧ Digits "1415".toList :=
  ⟨⟨by decide, by decide, by decide⟩, ⟨by decide, by decide⟩, ⟨by decide, by decide⟩⟩

/-- The words of the language, each with the kind of token it must become. -/
def languageWords : List (Text × Ty) :=
  [("is".toList, .OPERATOR_IS), ("ref".toList, .ACCESS_MODE), ("val".toList, .ACCESS_MODE), ("true".toList, .CONST_BOOLEAN),
   ("false".toList, .CONST_BOOLEAN), ("assert".toList, .KEYWORD), ("break".toList, .KEYWORD), ("case".toList, .KEYWORD),
   ("cast".toList, .KEYWORD), ("catch".toList, .KEYWORD), ("continue".toList, .KEYWORD), ("copy".toList, .KEYWORD),
   ("default".toList, .KEYWORD), ("delete".toList, .KEYWORD), ("else".toList, .KEYWORD), ("exit".toList, .KEYWORD),
   ("finally".toList, .KEYWORD), ("for".toList, .KEYWORD), ("foreach".toList, .KEYWORD), ("if".toList, .KEYWORD),
   ("new".toList, .KEYWORD), ("print".toList, .KEYWORD), ("return".toList, .KEYWORD), ("streval".toList, .KEYWORD),
   ("switch".toList, .KEYWORD), ("throw".toList, .KEYWORD), ("try".toList, .KEYWORD), ("typeid".toList, .KEYWORD),
   ("var".toList, .KEYWORD), ("while".toList, .KEYWORD), ("deprecated".toList, .LANGUAGE_FEATURE_STATE),
   ("notimplemented".toList, .LANGUAGE_FEATURE_STATE), ("stable".toList, .LANGUAGE_FEATURE_STATE),
   ("unstable".toList, .LANGUAGE_FEATURE_STATE), ("abstract".toList, .MEMORY_LAYOUT), ("final".toList, .MEMORY_LAYOUT),
   ("override".toList, .MEMORY_LAYOUT), ("static".toList, .MEMORY_LAYOUT), ("virtual".toList, .MEMORY_LAYOUT),
   ("recursive".toList, .MODIFIER), ("sealed".toList, .MODIFIER), ("throws".toList, .MODIFIER),
   ("const".toList, .MUTABILITY), ("modify".toList, .MUTABILITY), ("enum".toList, .RESERVED_WORD),
   ("extends".toList, .RESERVED_WORD), ("implements".toList, .RESERVED_WORD), ("import".toList, .RESERVED_WORD),
   ("interface".toList, .RESERVED_WORD), ("namespace".toList, .RESERVED_WORD), ("object".toList, .RESERVED_WORD),
   ("operator".toList, .RESERVED_WORD), ("replicates".toList, .RESERVED_WORD), ("private".toList, .VISIBILITY),
   ("protected".toList, .VISIBILITY), ("public".toList, .VISIBILITY)]

private theorem words_hold : ∀ p ∈ languageWords, (classifyWord p.1).2.1 = p.2 ∧ (classifyWord p.1).2.2.1 = p.1 := by
  decide +kernel

private theorem not_number {w : Text} (hdig : ∀ c, w.head? = some c → isDigitChar c = false) (m : Char) :
    isNumberWith m w = false ∧ isInteger w = false := by
  cases w with
  | nil => exact ⟨rfl, rfl⟩
  | cons c w =>
    have hc := hdig c rfl
    refine ⟨?_, by simp [isInteger, hc]⟩
    cases w with
    | nil => rfl
    | cons d w => simp [isNumberWith, hc]

/-- C79: a word that does not begin with a digit is classified by the table of language words; every other such word is a
name.  Its text is kept. -/
theorem words_classified (w : Text) (hd : ∀ c ∈ w, c ∉ delimiters) (hdig : ∀ c, w.head? = some c → isDigitChar c = false) :
    (classifyWord w).2.1 = (Verif.AMap.find w languageWords).getD .IDENTIFIER ∧ (classifyWord w).2.2.1 = w := by
  cases hf : Verif.AMap.find w languageWords with
  | some ty => exact words_hold _ (Verif.AMap.mem_of_find hf)
  | none =>
    have hk := (Verif.AMap.find_eq_none_iff w languageWords).1 hf
    have sub : ∀ L : List Text, (∀ u ∈ L, u ∈ Verif.AMap.keys languageWords ∨ ∃ c ∈ u, c ∈ delimiters) → w ∉ L := by
      intro L hL hm
      rcases hL w hm with h | ⟨c, hc, h⟩
      · exact hk h
      · exact hd c hc h
    have hq : isLiteral w = false := by
      cases w with
      | nil => rfl
      | cons a w =>
        have : a ≠ '"' := by rintro rfl; exact hd '"' (by simp) (by decide)
        simp [isLiteral, this]
    unfold classifyWord
    rw [if_neg (fun e => sub ["is".toList] (by decide +kernel) (by simp [e])),
      if_neg (fun e => sub ["..".toList] (by decide +kernel) (by simp [e])),
      if_neg (sub accessModes (by decide +kernel)), if_neg (sub booleans (by decide +kernel)),
      (not_number hdig 'd').1, (not_number hdig 'f').1, (not_number hdig 'i').1, (not_number hdig 'd').2, hq,
      if_neg (sub keywords (by decide +kernel)), if_neg (sub languageFeatures (by decide +kernel)),
      if_neg (sub memoryLayouts (by decide +kernel)), if_neg (sub modifiers (by decide +kernel)),
      if_neg (sub mutabilities (by decide +kernel)), if_neg (sub reservedWords (by decide +kernel)),
      if_neg (sub visibilities (by decide +kernel))]
    exact ⟨rfl, rfl⟩

example : Verif.AMap.find "counter".toList languageWords = none ∧
    Verif.AMap.find "while".toList languageWords = some .KEYWORD := by decide +kernel

end Verif.Lex
