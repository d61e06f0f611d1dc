import Verif.Expr.Print
import Verif.Str.Lemmas

/-!
# Properties of the expression parser

C17 reading inverts printing, C18 chains of operators, C19 precedence, C77 malformed expressions, C80 operators of classes.
-/

namespace Verif.Expr

open Verif.Str (Text)
open Verif.Lex (Tok Ty Cat)
open Verif.Types (TName)

/-! ## Surroundings for the examples -/

/-- A variable of a built-in type. -/
def boolVar : Sym := ⟨.var, .b .bool, true, false⟩
def intVar : Sym := ⟨.var, .b .int32, true, false⟩

/-- The name of a class. -/
def className : TName := .user "C".toList
def objVar : Sym := ⟨.var, className, false, false⟩

/-- `a`, `b`, `c`, `d` are boolean, `i`, `j`, `k` integers, `x`, `y`, `z` objects of a class that can be added, `f` is a
function of two integers. -/
def sample : Env where
  lookup n :=
    if n ∈ ["a".toList, "b".toList, "c".toList, "d".toList] then some boolVar
    else if n ∈ ["i".toList, "j".toList, "k".toList] then some intVar
    else if n ∈ ["x".toList, "y".toList, "z".toList] then some objVar
    else if n = "f".toList then some ⟨.func, .b .int32, true, true⟩
    else if n = "int".toList then some ⟨.type, .b .int32, true, true⟩
    else none
  table := Types.registerAll [⟨className, .MATH_ADDITION, className, className⟩,
    ⟨.b .int32, .MATH_ADDITION, .b .int32, .b .int32⟩, ⟨.b .int32, .MATH_SUBTRACT, .b .int32, .b .int32⟩,
    ⟨.b .int32, .MATH_MULTIPLY, .b .int32, .b .int32⟩, ⟨.b .int32, .COMPARE_EQUAL, .b .int32, .b .bool⟩,
    ⟨.b .bool, .COMPARE_EQUAL, .b .bool, .b .bool⟩, ⟨.b .int32, .ASSIGN, .b .int32, .b .int32⟩,
    ⟨.b .int32, .MATH_SUBTRACT, .b .unary, .b .int32⟩] []
  isType _ := true
  method n ts := if n = "f".toList ∧ ts = [.b .int32, .b .int32] then some (.b .int32) else none
  classMethod c n ts := if c = className ∧ n = "operator+".toList ∧ ts = [className] then some className else none

def semicolon : Tok := ⟨.none, .SEMICOLON, [';'], 1, false⟩

theorem ends_semicolon (rest : List Tok) : Ends (semicolon :: rest) :=
  ⟨semicolon, rest, rfl, by simp [Plain, semicolon], by simp [semicolon, terminators]⟩

/-- A name and a number as operands. -/
def v (n : String) : Tok := nameTok n.toList
def num (n : String) : Tok := ⟨.constant, .CONST_INTEGER, n.toList, 1, false⟩

/-! ## C17: reading inverts printing -/

/-- C17: every spelling of an expression, whatever redundant parentheses it has, is read as that expression; the outcome is an
error exactly when a name is unknown or the types do not fit. -/
theorem spelling_read {env : Env} {s : Syn} {b : Bool} {ts rest : List Tok} (h : Der env true (.lvl .expression) b s ts)
    (he : Ends rest) : parse env (ts ++ rest) = Res.ofOption (typed env s) rest :=
  parse_of_ev (reads_ends (complete h rest he.follow) he)

/-- C17: printing with the necessary parentheses and reading again gives the same tree. -/
theorem parse_print {env : Env} {s : Syn} {e : Expr} {rest : List Tok} (hw : WellFormed s) (ht : typed env s = some e)
    (he : Ends rest) : parse env (print s ++ rest) = .ok e rest ∧ Mirrors s e := by
  refine ⟨?_, typed_mirrors env s e ht⟩
  rw [spelling_read (print_der env s hw).top he, ht]; rfl

/-- C17: an expression that does not type check is refused, however it is nested. -/
theorem parse_print_error {env : Env} {s : Syn} {rest : List Tok} (hw : WellFormed s) (ht : typed env s = none)
    (he : Ends rest) : parse env (print s ++ rest) = .error := by
  rw [spelling_read (print_der env s hw).top he, ht]; rfl

/-- C17: the printed text determines the tree. -/
theorem print_unambiguous {env : Env} {s s' : Syn} (hw : WellFormed s) (hw' : WellFormed s') (h : print s = print s') :
    typed env s = typed env s' := by
  have h1 := spelling_read (print_der env s hw).top (ends_semicolon [])
  have h2 := spelling_read (print_der env s' hw').top (ends_semicolon [])
  rw [h, h2] at h1
  cases ht : typed env s <;> cases ht' : typed env s' <;> rw [ht, ht'] at h1 <;> simp_all [Res.ofOption]

/-- C17: parentheses around an expression change nothing. -/
theorem parentheses_redundant {env : Env} {s : Syn} {b : Bool} {ts rest : List Tok}
    (h : Der env true (.lvl .expression) b s ts) (he : Ends rest) :
    parse env (paren ts ++ rest) = parse env (ts ++ rest) := by
  have hp : Der env true (.lvl .expression) false s (paren ts) :=
    der_lift (k := 0) (.paren _ _ _ _ _ rfl rfl (fun _ => ⟨plain_tk _, plain_tk _⟩) h) 7 (by omega)
  rw [spelling_read hp he, spelling_read h he]

/-- `(i - (j - k)) * f(i, -j)`: parentheses are printed where they are needed. -/
def sampleTree : Syn :=
  .bin .factor .MATH_MULTIPLY
    (.bin .arith .MATH_SUBTRACT (.name "i".toList) (.bin .arith .MATH_SUBTRACT (.name "j".toList) (.name "k".toList)))
    (.call "f".toList [.name "i".toList, .prefix .MATH_SUBTRACT (.name "j".toList)])

example : WellFormed sampleTree ∧ (typed sample sampleTree).isSome ∧ Ends [semicolon] ∧
    print sampleTree = [tk .PARENTHESIS_OPEN, v "i", tk .MATH_SUBTRACT, tk .PARENTHESIS_OPEN, v "j", tk .MATH_SUBTRACT, v "k",
      tk .PARENTHESIS_CLOSE, tk .PARENTHESIS_CLOSE, tk .MATH_MULTIPLY, v "f", tk .PARENTHESIS_OPEN, v "i", tk .COMMA,
      tk .MATH_SUBTRACT, v "j", tk .PARENTHESIS_CLOSE] := by
  refine ⟨?_, by decide, ends_semicolon [], by rfl⟩
  simp [sampleTree, WellFormed, WellFormedArgs, Lvl.ops]

example : WellFormed (.bin .arith .MATH_ADDITION (.name "i".toList) (.name "a".toList)) ∧
    typed sample (.bin .arith .MATH_ADDITION (.name "i".toList) (.name "a".toList)) = none := by
  refine ⟨by simp [WellFormed, Lvl.ops], by rfl⟩

/-! ## C18: chains of operators of one level -/

/-- One more operand of a chain: the operator, the operand and its text. -/
structure Link where
  op : Tok
  operand : Syn
  text : List Tok

/-- `a₁ op₂ a₂ op₃ a₃ ...`. -/
def chainText (t : List Tok) (ls : List Link) : List Tok := t ++ ls.flatMap fun l => l.op :: l.text

/-- `((a₁ op₂ a₂) op₃ a₃) ...`. -/
def leftNested (lvl : Lvl) (s : Syn) (ls : List Link) : Syn := ls.foldl (fun acc l => .bin lvl l.op.ty acc l.operand) s

theorem chain_der {env : Env} {lvl : Lvl} (ls : List Link) : ∀ (s : Syn) (t : List Tok), Der env true (.lvl lvl) false s t →
    (∀ l ∈ ls, l.op.ty ∈ lvl.ops ∧ Plain l.op ∧ Der env true (.lvl lvl.next) false l.operand l.text) →
    Der env true (.lvl lvl) false (leftNested lvl s ls) (chainText t ls) := by
  induction ls with
  | nil => intro s t h _; simpa [leftNested, chainText] using h
  | cons l ls ih =>
    intro s t h hl
    obtain ⟨h1, h2, h3⟩ := hl l (by simp)
    have := ih _ _ (Der.bin lvl l.op false false s l.operand t l.text h1 (fun _ => ⟨rfl, h2⟩) h h3)
      (fun x hx => hl x (by simp [hx]))
    simpa [leftNested, chainText] using this

theorem level_le (l : Lvl) : lvlStrength l ≤ 7 := by cases l <;> decide

/-- C18: a chain of operators of one level, of any length, with operands that bind tighter, groups from left to right. -/
theorem chain_left_to_right {env : Env} {lvl : Lvl} {s : Syn} {t rest : List Tok} {ls : List Link}
    (hs : Der env true (.lvl lvl) false s t)
    (hl : ∀ l ∈ ls, l.op.ty ∈ lvl.ops ∧ Plain l.op ∧ Der env true (.lvl lvl.next) false l.operand l.text) (he : Ends rest) :
    parse env (chainText t ls ++ rest) = Res.ofOption (typed env (leftNested lvl s ls)) rest := by
  have h := chain_der ls s t hs hl
  rw [← posOf_lvl lvl] at h
  exact spelling_read (der_lift h 7 (level_le lvl)) he

/-- C18: read off the result: the tree of a chain of `+` and `-` on variables of built-in types has its last operand on the
right and the tree of everything before on the left. -/
theorem chain_last_operand {env : Env} {lvl : Lvl} (s : Syn) (ls : List Link) (l : Link) {e : Expr}
    (h : typed env (leftNested lvl s (ls ++ [l])) = some e) :
    ∃ x y, typed env (leftNested lvl s ls) = some x ∧ typed env l.operand = some y ∧ build env lvl l.op.ty x y = some e := by
  simp only [leftNested, List.foldl_append, List.foldl_cons, List.foldl_nil, typed] at h
  obtain ⟨x, hx, h⟩ := bind_some_eq h
  obtain ⟨y, hy, h⟩ := bind_some_eq h
  exact ⟨x, y, hx, hy, h⟩

theorem der_name {env : Env} (n : String) (k : Nat) : Der env true (posOf k) false (.name n.toList) [v n] :=
  der_lift (k := 0) (Der.name (v n) rfl) k (by omega)

/-- `i - j - k` is `(i - j) - k`. -/
example : parse sample (chainText [v "i"] [⟨tk .MATH_SUBTRACT, .name "j".toList, [v "j"]⟩,
      ⟨tk .MATH_SUBTRACT, .name "k".toList, [v "k"]⟩] ++ [semicolon]) =
    .ok (.binary .MATH_SUBTRACT (.binary .MATH_SUBTRACT (.sym "i".toList intVar) (.sym "j".toList intVar) (.b .int32))
      (.sym "k".toList intVar) (.b .int32)) [semicolon] := by
  rw [chain_left_to_right (lvl := .arith) (s := .name "i".toList) (der_name "i" 5) ?_ (ends_semicolon [])]
  · rfl
  · intro l hl
    simp only [List.mem_cons, List.not_mem_nil, or_false] at hl
    rcases hl with rfl | rfl
    · exact ⟨by decide, plain_tk _, der_name "j" 4⟩
    · exact ⟨by decide, plain_tk _, der_name "k" 4⟩

/-! ## C19: precedence of boolean operators and of the conditional -/

/-- C19 does not hold: `a || b && c` is not read as `a || (b && c)`. -/
theorem and_binds_tighter_refuted :
    ¬ ∀ (env : Env) (p q r : Text), parse env ([nameTok p, tk .OR, nameTok q, tk .AND, nameTok r] ++ [semicolon]) =
      Res.ofOption (typed env (.bin .expression .OR (.name p) (.bin .expression .AND (.name q) (.name r)))) [semicolon] := by
  intro h
  have h1 := h sample "a".toList "b".toList "c".toList
  have h2 : parse sample ([nameTok "a".toList, tk .OR, nameTok "b".toList, tk .AND, nameTok "c".toList] ++ [semicolon]) =
    .ok (.boolean .AND (.boolean .OR (.sym "a".toList boolVar) (.sym "b".toList boolVar)) (.sym "c".toList boolVar)) [semicolon] := by rfl
  have h3 : Res.ofOption (typed sample (.bin .expression .OR (.name "a".toList) (.bin .expression .AND (.name "b".toList) (.name "c".toList)))) [semicolon] =
    .ok (.boolean .OR (.sym "a".toList boolVar) (.boolean .AND (.sym "b".toList boolVar) (.sym "c".toList boolVar))) [semicolon] := by rfl
  rw [h2, h3] at h1
  injection h1 with h1 _
  injection h1 with h1 _ _
  cases h1

/-- C19 does not hold: `a == b ? c : d` is not read as `(a == b) ? c : d`. -/
theorem conditional_binds_weaker_refuted :
    ¬ ∀ (env : Env) (p q r s : Text),
      parse env ([nameTok p, tk .COMPARE_EQUAL, nameTok q, tk .QUESTION_MARK, nameTok r, tk .COLON, nameTok s] ++ [semicolon]) =
      Res.ofOption (typed env (.ternary (.bin .condition .COMPARE_EQUAL (.name p) (.name q)) (.name r) (.name s))) [semicolon] := by
  intro h
  have h1 := h sample "a".toList "b".toList "c".toList "d".toList
  have h2 : parse sample ([nameTok "a".toList, tk .COMPARE_EQUAL, nameTok "b".toList, tk .QUESTION_MARK, nameTok "c".toList, tk .COLON, nameTok "d".toList] ++ [semicolon]) =
    .ok (.boolean .COMPARE_EQUAL (.sym "a".toList boolVar) (.ternary (.sym "b".toList boolVar) (.sym "c".toList boolVar) (.sym "d".toList boolVar))) [semicolon] := by rfl
  have h3 : Res.ofOption (typed sample (.ternary (.bin .condition .COMPARE_EQUAL (.name "a".toList) (.name "b".toList)) (.name "c".toList) (.name "d".toList))) [semicolon] =
    .ok (.ternary (.boolean .COMPARE_EQUAL (.sym "a".toList boolVar) (.sym "b".toList boolVar)) (.sym "c".toList boolVar) (.sym "d".toList boolVar)) [semicolon] := by rfl
  rw [h2, h3] at h1
  injection h1 with h1 _
  injection h1

/-- C19, what holds instead: operators `&&`, `||`, `!&`, `!|` have one precedence: a chain of them groups from left to right,
and a comparison binds tighter than all of them.  With parentheses every grouping can be written (`parse_print`). -/
theorem boolean_precedence_partial {env : Env} {s₁ s₂ s₃ : Syn} {t₁ t₂ t₃ rest : List Tok} {o p : Tok}
    (h₁ : Der env true (.lvl .condition) false s₁ t₁) (h₂ : Der env true (.lvl .condition) false s₂ t₂)
    (h₃ : Der env true (.lvl .condition) false s₃ t₃) (ho : o.ty ∈ Lvl.ops .expression) (hp : p.ty ∈ Lvl.ops .expression)
    (hop : Plain o) (hpp : Plain p) (he : Ends rest) :
    parse env (t₁ ++ o :: t₂ ++ p :: t₃ ++ rest) =
      Res.ofOption (typed env (.bin .expression p.ty (.bin .expression o.ty s₁ s₂) s₃)) rest := by
  have := chain_left_to_right (env := env) (lvl := .expression) (s := s₁) (t := t₁) (rest := rest) (ls := [⟨o, s₂, t₂⟩, ⟨p, s₃, t₃⟩])
    (.up .expression _ _ _ (by decide) h₁) (by
      intro l hl
      simp only [List.mem_cons, List.not_mem_nil, or_false] at hl
      rcases hl with rfl | rfl
      · exact ⟨ho, hop, h₂⟩
      · exact ⟨hp, hpp, h₃⟩) he
  simpa [chainText, leftNested] using this

/-- C19, what holds instead: a conditional behind a binary operator belongs to the right operand of the operator, whatever the
operator. -/
theorem conditional_precedence_partial {env : Env} {l : Lvl} {s c x y : Syn} {b₁ b₂ : Bool} {t t₀ t₁ t₂ rest : List Tok}
    {o q k : Tok} (hs : Der env true (.lvl l) false s t) (ho : o.ty ∈ l.ops) (hc : Der env true .pre false c t₀)
    (hx : Der env true (.lvl .expression) b₁ x t₁) (hy : Der env true (.lvl .expression) b₂ y t₂)
    (hq : q.ty = .QUESTION_MARK) (hk : k.ty = .COLON) (hop : Plain o) (hqp : Plain q) (hkp : Plain k) (he : Ends rest) :
    parse env (t ++ o :: (t₀ ++ q :: t₁ ++ k :: t₂) ++ rest) =
      Res.ofOption (typed env (.bin l o.ty s (.ternary c x y))) rest := by
  have h := Der.ternary (env := env) (strict := true) q k false b₁ b₂ c x y t₀ t₁ t₂ hq hk (fun _ => ⟨rfl, hqp, hkp⟩) hc hx hy
  have h' : Der env true (.lvl l.next) true (.ternary c x y) (t₀ ++ q :: t₁ ++ k :: t₂) := by
    rw [← posOf_lvl]
    exact der_lift (k := 3) h _ (by cases l <;> decide)
  have h2 := Der.bin l o false true s _ t _ ho (fun _ => ⟨rfl, hop⟩) hs h'
  rw [← posOf_lvl] at h2
  exact spelling_read (der_lift h2 7 (level_le l)) he

/-- `a || b && c` and `a + b ? c : d` have operands as required. -/
example : Der sample true (.lvl .condition) false (.name "a".toList) [v "a"] ∧ Plain (tk .OR) ∧
    (tk .OR).ty ∈ Lvl.ops .expression ∧ Der sample true .pre false (.name "b".toList) [v "b"] :=
  ⟨der_name "a" 6, plain_tk _, by decide, der_name "b" 1⟩

/-! ## C77: malformed expressions -/

/-- C77: the parser stops on every input. -/
theorem parser_terminates (env : Env) (ts : List Tok) : parse env ts ≠ .noFuel := parse_fuel env ts

/-- C77, the part that holds: an accepted text is a spelling of the expression that was read, according to the grammar
without its conditions on ambiguity; in argument lists tokens may have been skipped, which the grammar allows too.  Missing: the
two refutations below. -/
theorem accepted_is_spelled_partial {env : Env} {ts rest : List Tok} {e : Expr} (h : parse env ts = .ok e rest) :
    ∃ used b s, ts = used ++ rest ∧ used ≠ [] ∧ Der env false (.lvl .expression) b s used ∧ typed env s = some e ∧ Mirrors s e := by
  obtain ⟨used, b, s, h1, h2, h3⟩ := (soundAt env _).1 _ _ _ _ h
  obtain ⟨t, r, e', _⟩ := h2.head
  exact ⟨used, b, s, h1, by rw [e']; simp, h2, h3, typed_mirrors env s e h3⟩

theorem level_error {env : Env} {ts : List Tok} (h : Ev (fun n => parseLevel env n .infix ts) .error) (l : Lvl) :
    Ev (fun n => parseLevel env n l ts) .error := by
  have step : ∀ l, l ≠ .infix → Ev (fun n => parseLevel env n l.next ts) .error → Ev (fun n => parseLevel env n l ts) .error := by
    intro l hl h
    apply Ev.succ
    exact (Ev.error h).congr fun n => parseLevel_eq env n l hl ts
  cases l with
  | «infix» => exact h
  | factor => exact step _ (by decide) h
  | arith => exact step _ (by decide) (step .factor (by decide) h)
  | condition => exact step _ (by decide) (step .arith (by decide) (step .factor (by decide) h))
  | expression => exact step _ (by decide) (step .condition (by decide) (step .arith (by decide) (step .factor (by decide) h)))

/-- An error at one level is an error of the expression. -/
theorem expression_error {env : Env} {ts : List Tok} (l : Lvl) (h : Ev (fun n => parseLevel env n l ts) .error) :
    Ev (fun n => parseLevel env n .expression ts) .error := by
  have step : ∀ l, l ≠ .infix → Ev (fun n => parseLevel env n l.next ts) .error → Ev (fun n => parseLevel env n l ts) .error := by
    intro l hl h
    apply Ev.succ
    exact (Ev.error h).congr fun n => parseLevel_eq env n l hl ts
  cases l with
  | expression => exact h
  | condition => exact step .expression (by decide) h
  | arith => exact step .expression (by decide) (step .condition (by decide) h)
  | factor => exact step .expression (by decide) (step .condition (by decide) (step .arith (by decide) h))
  | «infix» => exact level_error h _

theorem not_begins_error {env : Env} {t : Tok} {rest : List Tok} (h : ¬ Begins t) (l : Lvl) :
    Ev (fun n => parseLevel env n l (t :: rest)) .error := by
  unfold Begins BeginsTerm at h
  simp only [not_or] at h
  obtain ⟨⟨h1, h2, h3, h4⟩, h5, h6, h7⟩ := h
  refine level_error ?_ l
  refine ⟨3, fun n hn => ?_⟩
  obtain ⟨m, rfl⟩ : ∃ m, n = m + 3 := ⟨n - 3, by omega⟩
  show parseInfix env (m + 2) (t :: rest) = .error
  rw [parseInfix_term env _ t rest (by simp [h5, h6, h7]), parseTerm.eq_def]
  simp only
  rw [show literal t.ty t.content = none by simpa using h1]
  simp only
  rw [if_neg h2, if_neg h3, if_neg h4]; rfl

/-- C77: a token that cannot begin an expression is refused. -/
theorem no_expression_rejected (env : Env) (t : Tok) (rest : List Tok) (h : ¬ Begins t) : parse env (t :: rest) = .error :=
  parse_of_ev (not_begins_error h _)

/-- C77: a binary operator without a right operand is refused, after any left operand. -/
theorem missing_operand_rejected {env : Env} {l : Lvl} {s : Syn} {ts rest : List Tok} {o t : Tok}
    (hs : Der env true (.lvl l) false s ts) (ho : o.ty ∈ l.ops) (hop : Plain o) (ht : ¬ Begins t) :
    parse env (ts ++ o :: t :: rest) = .error := by
  apply parse_of_ev
  refine expression_error l ?_
  have hf : Follow (.lvl l) false ts (o :: t :: rest) :=
    ⟨o, _, rfl, hop, ops_looser l _ ho, (fun h => nomatch h), fun h => by
      have := looser_no_step l _ (ops_looser l _ ho)
      rcases h with h | h <;> simp_all⟩
  have hr := complete hs _ hf
  have hl : l ≠ .infix := by rintro rfl; cases ho
  have hr : ∀ r, After (typed env s) (fun e => Ev (fun n => parseLoop env n l e (o :: t :: rest)) r) r →
      Ev (fun n => parseLevel env n l (ts ++ o :: t :: rest)) r := by
    cases l <;> first | exact hr | exact absurd rfl hl
  apply hr
  cases typed env s with
  | none => rfl
  | some e =>
    show Ev (fun n => parseLoop env n l e (o :: t :: rest)) .error
    apply Ev.succ
    exact (Ev.error (not_begins_error ht l.next)).congr fun n => parseLoop_op env n l e o _ ho

/-- C77: a parenthesis that is not closed where the expression ends is refused. -/
theorem unclosed_parenthesis_rejected {env : Env} {s : Syn} {b : Bool} {ts rest : List Tok} {o t : Tok}
    (ho : o.ty = .PARENTHESIS_OPEN) (hs : Der env true (.lvl .expression) b s ts) (he : Ends (t :: rest))
    (ht : t.ty ≠ .PARENTHESIS_CLOSE) : parse env (o :: ts ++ t :: rest) = .error := by
  apply parse_of_ev
  refine level_error (l := .expression) ?_
  have h1 := reads_ends (complete hs _ he.follow) he
  have h2 : Ev (fun n => parseTerm env n (o :: ts ++ t :: rest)) .error := by
    apply Ev.succ
    have := h1.bind (k := fun e ts => (expect .PARENTHESIS_CLOSE ts).bind fun _ ts => .ok e ts)
    have e : (Res.ofOption (typed env s) (t :: rest)).bind
        (fun e ts => (expect .PARENTHESIS_CLOSE ts).bind fun _ ts => Res.ok e ts) = .error := by
      cases typed env s with
      | none => rfl
      | some e => simp [Res.ofOption, Res.bind, expect, ht]
    rw [e] at this
    exact this.congr fun n => parseTerm_paren env n o _ ho
  apply Ev.succ
  show Ev (fun n => parseInfix env n (o :: ts ++ t :: rest)) .error
  apply Ev.succ
  exact (Ev.error h2).congr fun n => parseInfix_term env n o _ (by simp [ho])

example : ¬ Begins semicolon ∧ ¬ Begins (tk .MATH_MULTIPLY) ∧ Plain (tk .MATH_ADDITION) ∧ Ends [semicolon] := by
  refine ⟨?_, ?_, plain_tk _, ends_semicolon []⟩ <;> simp [Begins, BeginsTerm, semicolon, tk, literal]

/-- C77 does not hold: after a variable, another name makes the parser follow a null pointer instead of refusing the text. -/
theorem malformed_rejected_refuted : ¬ ∀ (env : Env) (ts : List Tok), (∃ e rest, parse env ts = .ok e rest) ∨
    parse env ts = .error ∨ parse env ts = .outside := by
  intro h
  have h2 : parse sample [v "a", v "b", semicolon] = .undefined := by rfl
  rcases h sample [v "a", v "b", semicolon] with ⟨e, r, h1⟩ | h1 | h1 <;> rw [h2] at h1 <;> cases h1

/-- C77 does not hold: a superfluous token in an argument list is accepted and ignored: `f(1 2, 3)` is read as `f(1, 3)`. -/
theorem superfluous_argument_accepted_refuted :
    ¬ ∀ (env : Env) (a b c : Tok) (e : Expr), (literal a.ty a.content).isSome → (literal b.ty b.content).isSome →
      parse env [v "f", tk .PARENTHESIS_OPEN, a, b, tk .COMMA, c, tk .PARENTHESIS_CLOSE, semicolon] ≠ .ok e [semicolon] := by
  intro h
  exact h sample (num "1") (num "2") (num "3") (.call "f".toList [.lit (.int32 1), .lit (.int32 3)] (.b .int32))
    (by decide) (by decide) (by rfl)

/-- C77 does not hold: a superfluous token after the last argument is undefined behaviour: `f(1, 2 3)`. -/
theorem superfluous_last_argument_refuted :
    ¬ ∀ (env : Env) (a b c : Tok), (literal a.ty a.content).isSome → (literal b.ty b.content).isSome → (literal c.ty c.content).isSome →
      parse env [v "f", tk .PARENTHESIS_OPEN, a, tk .COMMA, b, c, tk .PARENTHESIS_CLOSE, semicolon] ≠ .undefined := by
  intro h
  exact h sample (num "1") (num "2") (num "3") (by decide) (by decide) (by decide) (by rfl)

/-- C77 does not hold: the name of a type is accepted as an operand: `int + 3`. -/
theorem type_as_operand_refuted :
    ¬ ∀ (env : Env) (t u : Tok) (y : Sym) (e : Expr), t.ty = .IDENTIFIER → env.lookup t.content = some y → y.kind = .type →
      parse env [t, tk .MATH_ADDITION, u, semicolon] ≠ .ok e [semicolon] := by
  intro h
  exact h sample (v "int") (num "3") ⟨.type, .b .int32, true, true⟩
    (.binary .MATH_ADDITION (.sym "int".toList ⟨.type, .b .int32, true, true⟩) (.lit (.int32 3)) (.b .int32)) rfl rfl rfl (by rfl)

/-! ## C80: operators of classes -/

/-- C80 does not hold: in `x + y + z` on objects of a class with `operator+`, only the first operator calls the method.  The
second one becomes a built-in addition, which no object supports. -/
theorem class_operator_chain_refuted :
    ¬ ∀ (env : Env) (p q r : Tok) (e : Expr),
      parse env [p, tk .MATH_ADDITION, q, tk .MATH_ADDITION, r, semicolon] = .ok e [semicolon] →
      ∀ (l m : Expr) (t : TName), e = .binary .MATH_ADDITION l m t → ∃ b, l.ty = .b b := by
  intro h
  have h1 : parse sample [v "x", tk .MATH_ADDITION, v "y", tk .MATH_ADDITION, v "z", semicolon] =
    .ok (.binary .MATH_ADDITION (.opCall (.sym "x".toList objVar) "operator+".toList [.sym "y".toList objVar] className)
      (.sym "z".toList objVar) className) [semicolon] := by rfl
  obtain ⟨b, hb⟩ := h _ _ _ _ _ h1 _ _ _ rfl
  cases hb

/-- C80, the part that holds: if the left operand is the name of an object, the operator method is called with the right
operand, or the text is refused. -/
theorem class_operator_called_partial {env : Env} {op : Ty} {n : Text} {y : Sym} {r e : Expr} (hy : y.atomic = false)
    (h : build env .arith op (.sym n y) r = some e ∨ build env .factor op (.sym n y) r = some e) :
    ∃ t f, NamesOperator op f ∧ env.classMethod y.ty f [r.ty] = some t ∧ e = .opCall (.sym n y) f [r] t := by
  have h : buildArith env op (.sym n y) r = some e := h.elim id id
  unfold buildArith at h
  split at h
  · cases h
  · simp only [Expr.isSym, Expr.atomicSym, hy, Bool.not_true, Bool.or_self, Bool.false_eq_true, if_false] at h
    split at h
    · cases h
    · unfold callOperator at h
      split at h
      · next t ht => cases h; exact ⟨t, _, opName_names op, ht, rfl⟩
      · cases h

/-- C80: everywhere else, on the result of a call, in parentheses behind another operator and so on, the operator is taken as a
built-in one whatever the class defines. -/
theorem class_operator_not_called {env : Env} {op : Ty} {l r e : Expr} (hl : l.isSym = false)
    (h : build env .arith op l r = some e) : ∃ t, e = .binary op l r t := by
  have h : buildArith env op l r = some e := h
  unfold buildArith at h
  split at h
  · cases h
  · simp only [hl, Bool.not_false, Bool.true_or, if_true] at h
    cases h; exact ⟨_, rfl⟩

example : objVar.atomic = false ∧ (build sample .arith .MATH_ADDITION (.sym "x".toList objVar) (.sym "y".toList objVar)).isSome ∧
    (build sample .arith .MATH_ADDITION (.opCall (.sym "x".toList objVar) "operator+".toList [.sym "y".toList objVar] className)
      (.sym "y".toList objVar)).isSome := by
  refine ⟨by decide, by rfl, by rfl⟩

/-! ## C82: integer constants -/

open Verif.Str in
theorem digitsVal_zeros (k : Nat) (ds : Text) : digitsVal (List.replicate k '0' ++ ds) = digitsVal ds := by
  induction k with
  | zero => simp
  | succ k ih => simp only [List.replicate_succ, List.cons_append]; rw [← ih]; simp [digitsVal, digitVal]

open Verif.Str in
theorem stringToInt_digits {ds : Text} (h : ∀ c ∈ ds, isDigit c = true) (hne : ds ≠ []) :
    stringToInt ds = clamp64 (digitsVal ds) := by
  cases ds with
  | nil => exact absurd rfl hne
  | cons c cs =>
    obtain ⟨h1, h2, -, h4⟩ := isDigit_not_special (h c (by simp))
    have hsp : (c :: cs).dropWhile isSpace = c :: cs := by simp [List.dropWhile_cons, h4]
    have ht := takeWhile_digits_append (rest := []) h (by simp)
    simp only [List.append_nil] at ht
    simp only [stringToInt, List.isEmpty_cons, Bool.false_eq_true, if_false, streamInt]
    rw [hsp]
    simp only [if_neg h1, if_neg h2]
    rw [ht]

/-- The token of an integer constant with leading zeros. -/
def intTok (k n : Nat) : Tok := ⟨.constant, .CONST_INTEGER, List.replicate k '0' ++ Str.natDigits n, 1, false⟩

/-- Every integer constant is read as a number of one of two types; numbers that do not fit become the largest number. -/
theorem integer_constant_read (env : Env) (k n : Nat) :
    parse env [intTok k n, semicolon] = .ok (.lit
      (if n < 2 ^ 31 then .int32 n else if n < 2 ^ 63 then .int64 n else .int64 (2 ^ 63 - 1))) [semicolon] := by
  have hl : literal .CONST_INTEGER (List.replicate k '0' ++ Str.natDigits n) = some
      (if n < 2 ^ 31 then .int32 n else if n < 2 ^ 63 then .int64 n else .int64 (2 ^ 63 - 1)) := by
    have hd : ∀ c ∈ List.replicate k '0' ++ Str.natDigits n, Str.isDigit c = true := by
      intro c hc
      rcases List.mem_append.1 hc with h | h
      · rw [List.eq_of_mem_replicate h]; rfl
      · exact Str.natDigits_isDigit n c h
    simp only [literal]
    rw [stringToInt_digits hd (by simp [Str.natDigits_ne_nil]), digitsVal_zeros, Str.digitsVal_natDigits]
    by_cases h1 : n < 2 ^ 31
    · have : Str.clamp64 n = n := by unfold Str.clamp64; omega
      rw [this, if_pos (by omega), if_pos h1]
    · by_cases h2 : n < 2 ^ 63
      · have : Str.clamp64 n = n := by unfold Str.clamp64; omega
        rw [this, if_neg (by omega), if_neg h1, if_pos h2]
      · have : Str.clamp64 n = 9223372036854775807 := by unfold Str.clamp64; omega
        rw [this, if_neg (by omega), if_neg h1, if_neg h2]; rfl
  have hr := spelling_read (env := env) (s := .lit .CONST_INTEGER (List.replicate k '0' ++ Str.natDigits n)) (rest := [semicolon])
    (Printed.top (env := env) (s := .lit .CONST_INTEGER (List.replicate k '0' ++ Str.natDigits n))
      (Der.lit (intTok k n) (by simp only [intTok]; rw [hl]; rfl))) (ends_semicolon [])
  rw [show [intTok k n] ++ [semicolon] = [intTok k n, semicolon] from rfl] at hr
  rw [hr]; simp only [typed, hl]; rfl

/-- C82, the part that holds: the constant denotes the number written, as a 32 bit number if it fits and as a 64 bit number
otherwise.  Missing: numbers of 2^63 and above, see `large_constant_refuted`. -/
theorem integer_constant_partial (env : Env) (k n : Nat) (h : n < 2 ^ 63) :
    parse env [intTok k n, semicolon] = .ok (.lit (if n < 2 ^ 31 then .int32 n else .int64 n)) [semicolon] := by
  rw [integer_constant_read]; by_cases h1 : n < 2 ^ 31 <;> simp [h1, h]

/-- C82 does not hold: 2^63 is read as 2^63 - 1, without an error. -/
theorem large_constant_refuted :
    ¬ ∀ (env : Env) (k n : Nat), parse env [intTok k n, semicolon] = .error ∨
      ∃ l, parse env [intTok k n, semicolon] = .ok (.lit l) [semicolon] ∧ (l = .int32 n ∨ l = .int64 n) := by
  intro h
  have h := h sample 0 (2 ^ 63)
  rw [integer_constant_read] at h
  simp at h

example : intTok 2 2147483648 = ⟨.constant, .CONST_INTEGER, "002147483648".toList, 1, false⟩ ∧
    parse sample [num "2147483648", semicolon] = .ok (.lit (.int64 2147483648)) [semicolon] ∧
    parse sample [num "2147483647", semicolon] = .ok (.lit (.int32 2147483647)) [semicolon] := by
  refine ⟨by unfold intTok; simp [Str.natDigits, Str.digitChar], by rfl, by rfl⟩

end Verif.Expr
