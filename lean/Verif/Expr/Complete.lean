import Verif.Expr.Spec
import Verif.Brackets.Props

/-! # Every spelling of an expression is read as that expression -/

namespace Verif.Expr

open Verif.Str (Text)
open Verif.Lex (Tok Ty Cat)
open Verif.Types (TName)

/-! ## Parsing with enough fuel -/

/-- With enough fuel the outcome is `r`. -/
def Ev {α : Type} (f : Nat → Res α) (r : Res α) : Prop := ∃ N, ∀ n, N ≤ n → f n = r

theorem Ev.succ {α : Type} {f : Nat → Res α} {r : Res α} (h : Ev (fun n => f (n + 1)) r) : Ev f r := by
  obtain ⟨N, h⟩ := h
  refine ⟨N + 1, fun n hn => ?_⟩
  obtain ⟨m, rfl⟩ : ∃ m, n = m + 1 := ⟨n - 1, by omega⟩
  exact h m (by omega)

theorem Ev.const {α : Type} (r : Res α) : Ev (fun _ => r) r := ⟨0, fun _ _ => rfl⟩

theorem Ev.congr {α : Type} {f g : Nat → Res α} {r : Res α} (h : Ev f r) (e : ∀ n, g n = f n) : Ev g r := by
  obtain ⟨N, h⟩ := h
  exact ⟨N, fun n hn => (e n).trans (h n hn)⟩

theorem Ev.ok {α β : Type} {f : Nat → Res α} {k : Nat → α → List Tok → Res β} {a : α} {rest : List Tok} {r : Res β}
    (h : Ev f (.ok a rest)) (h' : Ev (fun n => k n a rest) r) : Ev (fun n => (f n).bind (k n)) r := by
  obtain ⟨N, h⟩ := h
  obtain ⟨M, h'⟩ := h'
  refine ⟨max N M, fun n hn => ?_⟩
  have e := h n (by omega)
  simp only [e, Res.bind]
  exact h' n (by omega)

theorem Ev.error {α β : Type} {f : Nat → Res α} {k : Nat → α → List Tok → Res β}
    (h : Ev f .error) : Ev (fun n => (f n).bind (k n)) .error := by
  obtain ⟨N, h⟩ := h
  refine ⟨N, fun n hn => ?_⟩
  simp only [h n hn, Res.bind]

/-- What the parser does behind an expression: it goes on with the tree, or there is none and parsing has failed. -/
def After (o : Option Expr) (P : Expr → Prop) (r : Res Expr) : Prop :=
  match o with
  | some e => P e
  | none => r = .error

theorem After.step {o : Option Expr} {f : Nat → Res Expr} {k : Nat → Expr → List Tok → Res Expr} {rest : List Tok}
    {r : Res Expr} (h : Ev f (Res.ofOption o rest)) (h' : After o (fun e => Ev (fun n => k n e rest) r) r) :
    Ev (fun n => (f n).bind (k n)) r := by
  cases o with
  | none => cases h'; exact Ev.error h
  | some e => exact Ev.ok h h'

/-! ## Shapes of spellings -/

/-- The token can begin a term. -/
def BeginsTerm (t : Tok) : Prop :=
  (literal t.ty t.content).isSome ∨ t.ty = .IDENTIFIER ∨ t.ty = .KEYWORD ∨ t.ty = .PARENTHESIS_OPEN

/-- The token can begin an expression. -/
def Begins (t : Tok) : Prop := BeginsTerm t ∨ t.ty = .MATH_ADDITION ∨ t.ty = .MATH_SUBTRACT ∨ t.ty = .OPERATOR_NOT

theorem Der.head {env : Env} {st : Bool} {pos : Pos} {b : Bool} {s : Syn} {ts : List Tok} (h : Der env st pos b s ts) :
    ∃ t r, ts = t :: r ∧ Begins t ∧ (pos = .term → BeginsTerm t) := by
  refine Der.rec (env := env) (strict := st)
    (motive_1 := fun pos _ _ ts _ => ∃ t r, ts = t :: r ∧ Begins t ∧ (pos = .term → BeginsTerm t))
    (motive_2 := fun _ _ _ => True) ?lit ?name ?paren ?call ?incdec ?cast ?ccast ?assign ?prefx ?pre ?postfx ?post ?is
    ?ternary ?elvis ?infx ?bin ?up ?nil ?last ?cons h
  case lit => intro t h; exact ⟨t, [], rfl, .inl (.inl h), fun _ => .inl h⟩
  case name => intro t h; exact ⟨t, [], rfl, .inl (.inr (.inl h)), fun _ => .inr (.inl h)⟩
  case paren => intro o c b s ts ho hc hp h ih; exact ⟨o, _, rfl, .inl (by simp [BeginsTerm, ho]), fun _ => by simp [BeginsTerm, ho]⟩
  case call => intro f o c args ts hf ho hc hp h ih; exact ⟨f, _, rfl, .inl (by simp [BeginsTerm, hf]), fun _ => by simp [BeginsTerm, hf]⟩
  case incdec => intro t p ht ho hp; exact ⟨t, _, rfl, .inl (by simp [BeginsTerm, ht]), fun _ => by simp [BeginsTerm, ht]⟩
  case cast => intro k l t g o c b s ts hk _ _ _ _ _ _ _ _; exact ⟨k, _, rfl, .inl (by simp [BeginsTerm, hk]), fun _ => by simp [BeginsTerm, hk]⟩
  case ccast => intro t u b s ts ht _ _ _ _ _; exact ⟨t, _, rfl, .inl (by simp [BeginsTerm, ht]), fun _ => by simp [BeginsTerm, ht]⟩
  case assign => intro t a b s ts ht _ _ _ _; exact ⟨t, _, rfl, .inl (by simp [BeginsTerm, ht]), fun _ => by simp [BeginsTerm, ht]⟩
  case prefx => intro p b s ts ho h ih; exact ⟨p, ts, rfl, .inr ho, fun h => nomatch h⟩
  case pre => rintro b s ts h ⟨t, r, e, h1, h2⟩; exact ⟨t, r, e, h1, fun h => nomatch h⟩
  case postfx => rintro p b s ts ho hs h ⟨t, r, e, h1, h2⟩; exact ⟨t, r ++ [p], by simp [e], h1, fun h => nomatch h⟩
  case post => rintro b s ts h ⟨t, r, e, h1, h2⟩; exact ⟨t, r, e, h1, fun h => nomatch h⟩
  case is => rintro k t b s ts hk hs h ⟨t', r, e, h1, h2⟩; exact ⟨t', _, by rw [e]; rfl, h1, fun h => nomatch h⟩
  case ternary =>
    rintro q c b b₁ b₂ s x y ts t₁ t₂ hq hc hs h hx hy ⟨t', r, e, h1, h2⟩ _ _
    exact ⟨t', _, by rw [e]; rfl, h1, fun h => nomatch h⟩
  case elvis =>
    rintro q c b b₂ s y ts t₂ hq hc hs h hy ⟨t', r, e, h1, h2⟩ _
    exact ⟨t', _, by rw [e]; rfl, h1, fun h => nomatch h⟩
  case infx => rintro b s ts h ⟨t, r, e, h1, h2⟩; exact ⟨t, r, e, h1, fun h => nomatch h⟩
  case bin =>
    rintro l o b₁ b₂ x y t₁ t₂ ho hs hx hy ⟨t', r, e, h1, h2⟩ _
    exact ⟨t', _, by rw [e]; rfl, h1, fun h => nomatch h⟩
  case up => rintro l b s ts hl h ⟨t, r, e, h1, h2⟩; exact ⟨t, r, e, h1, fun h => nomatch h⟩
  case nil => trivial
  case last => intros; trivial
  case cons => intros; trivial

/-- Well nested with respect to parentheses. -/
abbrev NP := Brackets.Nested .PARENTHESIS_OPEN .PARENTHESIS_CLOSE

theorem NP.append {a b : List Tok} (ha : NP a) (hb : NP b) : NP (a ++ b) := by
  induction ha with
  | nil => exact hb
  | other h1 h2 _ ih => exact .other h1 h2 ih
  | @group o c a b' h1 h2 h3 _ _ ih =>
    rw [List.cons_append, List.append_assoc, List.cons_append]
    exact .group h1 h2 h3 ih

theorem NP.one {t : Tok} (h1 : t.ty ≠ .PARENTHESIS_OPEN) (h2 : t.ty ≠ .PARENTHESIS_CLOSE) : NP [t] := .other h1 h2 .nil

theorem ops_not_paren {l : Lvl} {o : Ty} (h : o ∈ l.ops) : o ≠ .PARENTHESIS_OPEN ∧ o ≠ .PARENTHESIS_CLOSE := by
  constructor <;> rintro rfl <;> revert h <;> cases l <;> decide

theorem literal_ty {ty : Ty} {c : Text} (h : (literal ty c).isSome) :
    ty = .CONST_BOOLEAN ∨ ty = .CONST_DOUBLE ∨ ty = .CONST_FLOAT ∨ ty = .CONST_INTEGER ∨ ty = .CONST_LITERAL := by
  cases ty <;> simp_all [literal]

theorem Der.nested {env : Env} {pos : Pos} {b : Bool} {s : Syn} {ts : List Tok} (h : Der env true pos b s ts) : NP ts := by
  refine Der.rec (env := env) (strict := true) (motive_1 := fun _ _ _ ts _ => NP ts) (motive_2 := fun _ ts _ => NP ts)
    ?lit ?name ?paren ?call ?incdec ?cast ?ccast ?assign ?prefx ?pre ?postfx ?post ?is
    ?ternary ?elvis ?infx ?bin ?up ?nil ?last ?cons h
  case lit =>
    intro t h
    rcases literal_ty h with e | e | e | e | e <;> exact NP.one (by rw [e]; decide) (by rw [e]; decide)
  case name => intro t h; exact NP.one (by rw [h]; decide) (by rw [h]; decide)
  case paren => intro o c b s ts ho hc hp h ih; exact .group ho hc ih .nil
  case call =>
    intro f o c args ts hf ho hc hp h ih
    exact .other (by rw [hf]; decide) (by rw [hf]; decide) (.group ho hc ih .nil)
  case incdec =>
    intro t p ht ho hp
    refine .other (by rw [ht]; decide) (by rw [ht]; decide) (NP.one ?_ ?_) <;> rcases ho with e | e <;> rw [e] <;> decide
  case cast =>
    intro k l t g o c b s ts hk hkc hl hg ho hc hp h ih
    obtain ⟨_, h1, h2⟩ := hp rfl
    exact .other (by rw [hk]; decide) (by rw [hk]; decide) (.other (by rw [hl]; decide) (by rw [hl]; decide)
      (.other h1 h2 (.other (by rw [hg]; decide) (by rw [hg]; decide) (.group ho hc ih .nil))))
  case ccast => intro t u b s ts ht hu hk hs h ih; exact .other (by rw [ht]; decide) (by rw [ht]; decide) ih
  case assign =>
    intro t a b s ts ht ha hs h ih
    obtain ⟨_, _, h1, h2⟩ := hs rfl
    exact .other (by rw [ht]; decide) (by rw [ht]; decide) (.other h1 h2 ih)
  case prefx =>
    intro p b s ts ho h ih
    refine .other ?_ ?_ ih <;> rcases ho with e | e | e <;> rw [e] <;> decide
  case pre => intro b s ts h ih; exact ih
  case postfx =>
    intro p b s ts ho hs h ih
    refine ih.append (NP.one ?_ ?_) <;> rcases ho with e | e | e <;> rw [e] <;> decide
  case post => intro b s ts h ih; exact ih
  case is =>
    intro k t b s ts hk hs h ih
    obtain ⟨_, _, h1, h2⟩ := hs rfl
    exact ih.append (.other (by rw [hk]; decide) (by rw [hk]; decide) (NP.one h1 h2))
  case ternary =>
    intro q c b b₁ b₂ s x y ts t₁ t₂ hq hc hs h hx hy ih ih1 ih2
    rw [List.append_assoc]
    exact ih.append (.other (by rw [hq]; decide) (by rw [hq]; decide) (ih1.append
      (.other (by rw [hc]; decide) (by rw [hc]; decide) ih2)))
  case elvis =>
    intro q c b b₂ s y ts t₂ hq hc hs h hy ih ih2
    exact ih.append (.other (by rw [hq]; decide) (by rw [hq]; decide)
      (.other (by rw [hc]; decide) (by rw [hc]; decide) ih2))
  case infx => intro b s ts h ih; exact ih
  case bin =>
    intro l o b₁ b₂ x y t₁ t₂ ho hs hx hy ih1 ih2
    exact ih1.append (.other (ops_not_paren ho).1 (ops_not_paren ho).2 ih2)
  case up => intro l b s ts hl h ih; exact ih
  case nil => exact .nil
  case last => intro b s ts h ih; exact ih
  case cons =>
    intro c b s ss t₁ junk t₂ hc hs hj h ht ih1 ih2
    obtain ⟨_, rfl⟩ := hs rfl
    rw [List.append_nil]
    exact ih1.append (.other (by rw [hc]; decide) (by rw [hc]; decide) ih2)

theorem DerArgs.nested {env : Env} {ss : List Syn} {ts : List Tok} (h : DerArgs env true ss ts) : NP ts := by
  cases h with
  | nil => exact .nil
  | last b s ts h => exact h.nested
  | cons c b s ss t₁ junk t₂ hc hs hj h ht =>
    obtain ⟨_, rfl⟩ := hs rfl
    rw [List.append_nil]
    exact h.nested.append (.other (by rw [hc]; decide) (by rw [hc]; decide) ht.nested)
termination_by ts.length
decreasing_by simp; omega

theorem closing_eq {ts rest : List Tok} {c : Tok} (h : NP ts) (hc : c.ty = .PARENTHESIS_CLOSE) :
    closing (ts ++ c :: rest) = some ts.length := by
  unfold closing
  rw [Brackets.balanced_found (by decide) 0 none ts rest c hc h (by simp) (.inl rfl)]

/-! ## What may follow -/

/-- The tokens that may follow a text at a level: the ends of expressions and the operators of this and of all looser
levels. -/
def looser : Lvl → List Ty
  | .expression => terminators ++ Lvl.ops .expression
  | .condition => terminators ++ Lvl.ops .expression ++ Lvl.ops .condition
  | .arith => terminators ++ Lvl.ops .expression ++ Lvl.ops .condition ++ Lvl.ops .arith
  | _ => terminators ++ Lvl.ops .expression ++ Lvl.ops .condition ++ Lvl.ops .arith ++ Lvl.ops .factor

/-- The tokens that may follow a text at a position. -/
def follow : Pos → List Ty
  | .lvl l => looser l
  | .post => looser .infix ++ [.OPERATOR_NOT, .OPERATOR_DECREMENT, .OPERATOR_INCREMENT]
  | _ => looser .infix ++ [.OPERATOR_NOT, .OPERATOR_DECREMENT, .OPERATOR_INCREMENT, .OPERATOR_IS, .QUESTION_MARK]

/-- The text goes on with a token that may follow. -/
def Follow (pos : Pos) (b : Bool) (ts rest : List Tok) : Prop :=
  ∃ t r, rest = t :: r ∧ Plain t ∧ t.ty ∈ follow pos ∧ (b = true → t.ty ∈ terminators) ∧
    (t.ty = .OPERATOR_DECREMENT ∨ t.ty = .OPERATOR_INCREMENT → NotAfterName ts)

theorem follow_term (ty : Ty) (h : ty ∈ follow .term) :
    ty ≠ .OPERATOR_SCOPE ∧ ty ≠ .IDENTIFIER ∧ ty ≠ .KEYWORD ∧ ty ≠ .PARENTHESIS_OPEN ∧ ty ≠ .BRACKET_OPEN ∧
    ty ≠ .OPERATOR_RANGE := by
  revert h; cases ty <;> decide

theorem follow_post (ty : Ty) (h : ty ∈ follow .post) :
    ty ≠ .OPERATOR_IS ∧ ty ≠ .QUESTION_MARK ∧ ty ≠ .OPERATOR_RANGE ∧ ty ∈ follow .pre := by
  revert h; cases ty <;> decide

theorem follow_infix (ty : Ty) (h : ty ∈ looser .infix) :
    ty ≠ .OPERATOR_IS ∧ ty ≠ .QUESTION_MARK ∧ ty ≠ .OPERATOR_RANGE ∧ ty ≠ .OPERATOR_NOT ∧ ty ≠ .OPERATOR_DECREMENT ∧
    ty ≠ .OPERATOR_INCREMENT ∧ ty ≠ .BRACKET_OPEN ∧ ty ≠ .OPERATOR_SCOPE ∧ ty ∈ follow .post ∧ ty ∈ follow .pre := by
  revert h; cases ty <;> decide

theorem looser_next (l : Lvl) (ty : Ty) (h : ty ∈ looser l) : ty ∈ looser l.next := by
  revert h; cases l <;> cases ty <;> decide

theorem looser_not_op (l : Lvl) (ty : Ty) (h : ty ∈ looser l) : ty ∉ l.next.ops := by
  revert h; cases l <;> cases ty <;> decide

theorem ops_looser (l : Lvl) (ty : Ty) (h : ty ∈ l.ops) : ty ∈ looser l := by
  revert h; cases l <;> cases ty <;> decide

theorem term_looser (l : Lvl) (ty : Ty) (h : ty ∈ terminators) : ty ∈ looser l ∧ ty ∉ l.ops := by
  revert h; cases l <;> cases ty <;> decide

theorem term_follow (pos : Pos) (ty : Ty) (h : ty ∈ terminators) : ty ∈ follow pos := by
  revert h; cases pos with
  | lvl l => exact fun h => (term_looser l ty h).1
  | _ => cases ty <;> decide

theorem term_no_step (ty : Ty) (h : ty ∈ terminators) : ty ≠ .OPERATOR_DECREMENT ∧ ty ≠ .OPERATOR_INCREMENT := by
  revert h; cases ty <;> decide

theorem looser_no_step (l : Lvl) (ty : Ty) (h : ty ∈ looser l) : ty ≠ .OPERATOR_DECREMENT ∧ ty ≠ .OPERATOR_INCREMENT := by
  revert h; cases l <;> cases ty <;> decide

/-- Whatever precedes it, an end may follow. -/
theorem Ends.follow {pos : Pos} {b : Bool} {ts rest : List Tok} (h : Ends rest) : Follow pos b ts rest := by
  obtain ⟨t, r, e, hp, ht⟩ := h
  refine ⟨t, r, e, hp, term_follow pos _ ht, fun _ => ht, fun h => ?_⟩
  have := term_no_step _ ht
  rcases h with h | h <;> simp_all

theorem Follow.loosen {pos pos' : Pos} {b : Bool} {ts rest : List Tok} (h : Follow pos b ts rest)
    (e : ∀ ty ∈ follow pos, ty ∈ follow pos') : Follow pos' b ts rest := by
  obtain ⟨t, r, h1, h2, h3, h4, h5⟩ := h
  exact ⟨t, r, h1, h2, e _ h3, h4, h5⟩

theorem bindOpt {α : Type} (o : Option α) (f : α → Option Expr) (rest : List Tok) :
    (Res.ofOption o rest).bind (fun a rest => Res.ofOption (f a) rest) = Res.ofOption (o.bind f) rest := by
  cases o <;> rfl

/-! ## One step of the parser -/

theorem bind_ok {α β : Type} (a : α) (rest : List Tok) (k : α → List Tok → Res β) : (Res.ok a rest).bind k = k a rest := rfl

theorem bind_error {α β : Type} (k : α → List Tok → Res β) : (Res.error).bind k = .error := rfl

theorem parseLevel_eq (env : Env) (n : Nat) (l : Lvl) (hl : l ≠ .infix) (ts : List Tok) :
    parseLevel env (n + 1) l ts = (parseLevel env n l.next ts).bind fun e rest => parseLoop env n l e rest := by
  cases l <;> first | rfl | exact absurd rfl hl

theorem parseLoop_stop (env : Env) (n : Nat) (l : Lvl) (e : Expr) (t : Tok) (ts : List Tok) (h : t.ty ∉ l.ops) :
    parseLoop env (n + 1) l e (t :: ts) = .ok e (t :: ts) := by
  rw [parseLoop, if_neg h]

theorem parseLoop_op (env : Env) (n : Nat) (l : Lvl) (e : Expr) (t : Tok) (ts : List Tok) (h : t.ty ∈ l.ops) :
    parseLoop env (n + 1) l e (t :: ts) = (parseLevel env n l.next ts).bind fun r rest =>
        (Res.ofOption (build env l t.ty e r) rest).bind fun e' rest => parseLoop env n l e' rest := by
  rw [parseLoop, if_pos h]

theorem parseTerm_lit (env : Env) (n : Nat) (t : Tok) (ts : List Tok) (l : Lit) (h : literal t.ty t.content = some l) :
    parseTerm env (n + 1) (t :: ts) = .ok (.lit l) ts := by
  rw [parseTerm.eq_def]; simp only; rw [h]

theorem parseTerm_name (env : Env) (n : Nat) (t : Tok) (ts : List Tok) (h : t.ty = .IDENTIFIER) :
    parseTerm env (n + 1) (t :: ts) = parseName env n (t :: ts) := by
  rw [parseTerm.eq_def]; simp [h, literal]

theorem parseTerm_paren (env : Env) (n : Nat) (t : Tok) (ts : List Tok) (h : t.ty = .PARENTHESIS_OPEN) :
    parseTerm env (n + 1) (t :: ts) = (parseLevel env n .expression ts).bind fun e ts =>
      (expect .PARENTHESIS_CLOSE ts).bind fun _ ts => .ok e ts := by
  rw [parseTerm.eq_def]; simp [h, literal]

theorem parseTerm_cast (env : Env) (n : Nat) (t : Tok) (ts : List Tok) (h : t.ty = .KEYWORD) (hc : t.content = "cast".toList) :
    parseTerm env (n + 1) (t :: ts) = (expect .COMPARE_LESS ts).bind fun _ ts =>
            (resolve env ts).bind fun s ts =>
              if s.2.kind ≠ .type then .error
              else
                (expect .COMPARE_GREATER ts).bind fun _ ts =>
                  (expect .PARENTHESIS_OPEN ts).bind fun _ ts =>
                    (parseLevel env n .expression ts).bind fun e ts =>
                      (expect .PARENTHESIS_CLOSE ts).bind fun _ ts => Res.ofOption (buildCast env s.2 e) ts := by
  rw [parseTerm.eq_def]; simp only; rw [hc, if_pos rfl, h, if_pos rfl]; simp [literal]

theorem resolve_some (env : Env) (t u : Tok) (ts : List Tok) (s : Sym) (h : env.lookup t.content = some s)
    (hu : u.ty ≠ .OPERATOR_SCOPE) : resolve env (t :: u :: ts) = .ok (t.content, s) (u :: ts) := by
  simp [resolve, h, hu]

theorem resolve_none (env : Env) (t : Tok) (ts : List Tok) (h : env.lookup t.content = none) :
    resolve env (t :: ts) = .error := by
  simp [resolve, h]

theorem expect_ok (ty : Ty) (t : Tok) (ts : List Tok) (h : t.ty = ty) : expect ty (t :: ts) = .ok () ts := by
  simp [expect, h]

theorem parseName_none (env : Env) (n : Nat) (t : Tok) (ts : List Tok) (h : env.lookup t.content = none) :
    parseName env (n + 1) (t :: ts) = .error := by
  rw [parseName, resolve_none env t ts h]; rfl

theorem parseName_sym (env : Env) (n : Nat) (t u : Tok) (ts : List Tok) (s : Sym) (h : env.lookup t.content = some s)
    (hp : Plain u) (hf : u.ty ∈ follow .term) (h1 : u.ty ≠ .OPERATOR_DECREMENT) (h2 : u.ty ≠ .OPERATOR_INCREMENT) :
    parseName env (n + 1) (t :: u :: ts) = .ok (.sym t.content s) (u :: ts) := by
  obtain ⟨k1, k2, k3, k4, k5, k6⟩ := follow_term _ hf
  rw [parseName, resolve_some env t u ts s h k1]
  simp [Res.bind, hp.1, hp.2, k2, k3, k4, k5, h1, h2]

theorem parseName_incdec (env : Env) (n : Nat) (t u : Tok) (ts : List Tok) (s : Sym) (h : env.lookup t.content = some s)
    (hp : Plain u) (hu : u.ty = .OPERATOR_DECREMENT ∨ u.ty = .OPERATOR_INCREMENT) :
    parseName env (n + 1) (t :: u :: ts) = Res.ofOption (buildIncDec env t.content s u.ty) ts := by
  have k1 : u.ty ≠ .OPERATOR_SCOPE := by rcases hu with e | e <;> rw [e] <;> decide
  rw [parseName, resolve_some env t u ts s h k1]
  rcases hu with e | e <;> simp [Res.bind, hp.1, hp.2, e]

theorem parseName_assign (env : Env) (n : Nat) (t u : Tok) (ts : List Tok) (s : Sym) (h : env.lookup t.content = some s)
    (hu : u.cat = .assignment) (hn : ¬ Starts u) (k1 : u.ty ≠ .OPERATOR_SCOPE) :
    parseName env (n + 1) (t :: u :: ts) = (parseLevel env n .expression ts).bind fun e rest =>
      Res.ofOption (buildAssign env t.content s u.ty e) rest := by
  rw [parseName, resolve_some env t u ts s h k1]
  simp only [bind_ok]
  unfold Starts at hn; rw [if_neg hn, if_pos hu]

theorem parseName_ccast (env : Env) (n : Nat) (t u : Tok) (ts : List Tok) (s : Sym) (h : env.lookup t.content = some s)
    (hk : s.kind = .type) (hn : Starts u) (k1 : u.ty ≠ .OPERATOR_SCOPE) :
    parseName env (n + 1) (t :: u :: ts) = (parseLevel env n .expression (u :: ts)).bind fun e rest =>
      .ok (.cast s.ty e) rest := by
  rw [parseName, resolve_some env t u ts s h k1]
  simp only [bind_ok]
  unfold Starts at hn; rw [if_pos hn, if_pos hk]

theorem parseName_call (env : Env) (n : Nat) (t u : Tok) (ts : List Tok) (s : Sym) (k : Nat) (h : env.lookup t.content = some s)
    (hu : u.ty = .PARENTHESIS_OPEN) (hp : Plain u) (hk : closing ts = some k) :
    parseName env (n + 1) (t :: u :: ts) = (parseArgs env n (ts.length - k) ts []).bind fun args _ =>
              Res.ofOption (buildCall env t.content args) (ts.drop (k + 1)) := by
  have k1 : u.ty ≠ .OPERATOR_SCOPE := by rw [hu]; decide
  rw [parseName, resolve_some env t u ts s h k1]
  simp [Res.bind, hp.1, hp.2, hu, hk]

theorem parsePostfix_loop (env : Env) (n : Nat) (e : Expr) (t : Tok) (ts : List Tok)
    (h1 : t.ty ≠ .OPERATOR_IS) (h2 : t.ty ≠ .QUESTION_MARK) (h3 : t.ty ≠ .OPERATOR_RANGE) :
    parsePostfix env (n + 1) e (t :: ts) = postLoop e (t :: ts) := by
  rw [parsePostfix.eq_def]; simp only; rw [if_neg h1, if_neg h3, if_neg h2]

theorem parsePostfix_is (env : Env) (n : Nat) (e : Expr) (t : Tok) (ts : List Tok)
    (h1 : t.ty = .OPERATOR_IS) : parsePostfix env (n + 1) e (t :: ts) = parseIs env e ts := by
  rw [parsePostfix.eq_def]; simp only; rw [if_pos h1]

theorem parsePostfix_elvis (env : Env) (n : Nat) (e : Expr) (t u : Tok) (ts : List Tok) (h : t.ty = .QUESTION_MARK)
    (hu : u.ty = .COLON) : parsePostfix env (n + 1) e (t :: u :: ts) =
      (parseLevel env n .expression ts).bind fun b rest => Res.ofOption (buildTernary e e b) rest := by
  rw [parsePostfix]; simp [h, hu]

theorem parsePostfix_ternary (env : Env) (n : Nat) (e : Expr) (t u : Tok) (ts : List Tok) (h : t.ty = .QUESTION_MARK)
    (hu : u.ty ≠ .COLON) : parsePostfix env (n + 1) e (t :: u :: ts) =
      (parseLevel env n .expression (u :: ts)).bind fun a rest =>
            (expect .COLON rest).bind fun _ rest =>
              (parseLevel env n .expression rest).bind fun b rest => Res.ofOption (buildTernary e a b) rest := by
  rw [parsePostfix]; simp [h, hu]

theorem parseInfix_prefix (env : Env) (n : Nat) (t : Tok) (ts : List Tok)
    (h : t.ty = .MATH_ADDITION ∨ t.ty = .MATH_SUBTRACT ∨ t.ty = .OPERATOR_NOT) :
    parseInfix env (n + 1) (t :: ts) = (parseTerm env n ts).bind fun e rest =>
        match rest with
        | [] => .undefined
        | u :: rest => (Res.ofOption (buildPrefix env t.ty e) (u :: rest)).bind fun e rest => parsePostfix env n e rest := by
  rw [parseInfix, if_pos h]; rfl

theorem parseInfix_term (env : Env) (n : Nat) (t : Tok) (ts : List Tok)
    (h : ¬ (t.ty = .MATH_ADDITION ∨ t.ty = .MATH_SUBTRACT ∨ t.ty = .OPERATOR_NOT)) :
    parseInfix env (n + 1) (t :: ts) = (parseTerm env n (t :: ts)).bind fun e rest => parsePostfix env n e rest := by
  rw [parseInfix, if_neg h]

theorem beginsTerm_no_prefix {t : Tok} (h : BeginsTerm t) :
    ¬ (t.ty = .MATH_ADDITION ∨ t.ty = .MATH_SUBTRACT ∨ t.ty = .OPERATOR_NOT) := by
  rcases h with h | h | h | h
  · rcases literal_ty h with e | e | e | e | e <;> simp [e]
  all_goals simp [h]

theorem begins_no_colon {t : Tok} (h : Begins t) : t.ty ≠ .COLON := by
  rcases h with (h | h | h | h) | h | h | h
  · rcases literal_ty h with e | e | e | e | e <;> simp [e]
  all_goals simp [h]

/-! ## The main theorem -/

/-- What is shown of a text at each position. -/
def Reads (env : Env) (s : Syn) (ts rest : List Tok) : Pos → Prop
  | .lvl .infix => Ev (fun n => parseLevel env n .infix (ts ++ rest)) (Res.ofOption (typed env s) rest)
  | .lvl l => ∀ r, After (typed env s) (fun e => Ev (fun n => parseLoop env n l e rest) r) r →
      Ev (fun n => parseLevel env n l (ts ++ rest)) r
  | .post => ∀ r, After (typed env s) (fun e => postLoop e rest = r) r → Ev (fun n => parseInfix env n (ts ++ rest)) r
  | .pre => ∀ r, After (typed env s) (fun e => Ev (fun n => parsePostfix env n e rest) r) r →
      Ev (fun n => parseInfix env n (ts ++ rest)) r
  | .term => Ev (fun n => parseTerm env n (ts ++ rest)) (Res.ofOption (typed env s) rest)

/-- The same for the arguments of a call. -/
def ReadsArgs (env : Env) (ss : List Syn) (ts : List Tok) : Prop :=
  ∀ (c : Tok) (rest : List Tok) (acc : List Expr), c.ty = .PARENTHESIS_CLOSE → Plain c →
    Ev (fun n => parseArgs env n (rest.length + 1) (ts ++ c :: rest) acc)
      (Res.ofOption ((typedList env ss).map (acc ++ ·)) (c :: rest))

/-- An expression followed by one of the ends. -/
theorem reads_ends {env : Env} {s : Syn} {ts rest : List Tok} (h : Reads env s ts rest (.lvl .expression)) (he : Ends rest) :
    Ev (fun n => parseLevel env n .expression (ts ++ rest)) (Res.ofOption (typed env s) rest) := by
  refine h _ ?_
  cases ht : typed env s with
  | none => rfl
  | some e =>
    obtain ⟨t, r, rfl, hp, ht⟩ := he
    refine Ev.succ (Ev.congr (Ev.const _) fun n => ?_)
    exact parseLoop_stop env n .expression e t r (term_looser .expression _ ht).2

theorem notAfterName_single (t : Tok) (h : t.ty = .IDENTIFIER) : ¬ NotAfterName [t] := fun k => k t rfl h

theorem ofOption_map {α β : Type} (o : Option α) (f : α → β) (rest : List Tok) :
    (Res.ofOption o rest).bind (fun a rest => .ok (f a) rest) = Res.ofOption (o.map f) rest := by
  cases o <;> rfl

theorem Ev.bind {α β : Type} {f : Nat → Res α} {k : α → List Tok → Res β} {r : Res α} (h : Ev f r) :
    Ev (fun n => (f n).bind k) (r.bind k) := by
  obtain ⟨N, h⟩ := h
  exact ⟨N, fun n hn => by simp only [h n hn]⟩

/-- Go on with an optional tree. -/
theorem Ev.opt {α β : Type} {f : Nat → Res α} {k : Nat → α → List Tok → Res β} {o : Option α} {g : α → Option β}
    {rest rest' : List Tok} (h : Ev f (Res.ofOption o rest)) (hk : ∀ a, o = some a → Ev (fun n => k n a rest) (Res.ofOption (g a) rest')) :
    Ev (fun n => (f n).bind (k n)) (Res.ofOption (o.bind g) rest') := by
  cases o with
  | none => exact Ev.error h
  | some a => exact Ev.ok h (hk a rfl)

theorem complete {env : Env} {pos : Pos} {b : Bool} {s : Syn} {ts : List Tok} (h : Der env true pos b s ts) :
    ∀ rest, Follow pos b ts rest → Reads env s ts rest pos := by
  refine Der.rec (env := env) (strict := true)
    (motive_1 := fun pos b s ts _ => ∀ rest, Follow pos b ts rest → Reads env s ts rest pos)
    (motive_2 := fun ss ts _ => ReadsArgs env ss ts)
    ?lit ?name ?paren ?call ?incdec ?cast ?ccast ?assign ?prefx ?pre ?postfx ?post ?is
    ?ternary ?elvis ?infx ?bin ?up ?nil ?last ?cons h
  case lit =>
    intro t h rest _
    obtain ⟨l, hl⟩ := Option.isSome_iff_exists.1 h
    simp only [Reads, typed, hl, Option.map_some]
    exact Ev.succ (Ev.congr (Ev.const _) fun n => parseTerm_lit env n t rest l hl)
  case name =>
    rintro t h _ ⟨u, r, rfl, hp, hf, _, hn⟩
    simp only [Reads, typed]
    refine Ev.succ (Ev.congr ?_ fun n => parseTerm_name env n t (u :: r) h)
    refine Ev.succ ?_
    cases hl : env.lookup t.content with
    | none => exact Ev.congr (Ev.const _) fun n => parseName_none env n t _ hl
    | some y =>
      refine Ev.congr (Ev.const _) fun n => parseName_sym env n t u r y hl hp hf ?_ ?_
      · exact fun e => notAfterName_single t h (hn (.inl e))
      · exact fun e => notAfterName_single t h (hn (.inr e))
  case paren =>
    intro o c b s ts ho hc hp h ih rest _
    have he : Ends (c :: rest) := ⟨c, rest, rfl, (hp rfl).2, by rw [hc]; decide⟩
    have := reads_ends (ih (c :: rest) he.follow) he
    simp only [Reads]
    refine Ev.succ (Ev.congr (?_ : Ev (fun n => (parseLevel env n .expression (ts ++ c :: rest)).bind
      fun e ts => (expect .PARENTHESIS_CLOSE ts).bind fun _ ts => .ok e ts) _) fun n => ?_)
    · have := this.bind (k := fun e ts => (expect .PARENTHESIS_CLOSE ts).bind fun _ ts => .ok e ts)
      refine cast (congrArg _ ?_) this
      cases typed env s with
      | none => rfl
      | some e => simp [Res.ofOption, bind_ok, expect_ok _ c rest hc]
    · have e : (o :: ts ++ [c]) ++ rest = o :: (ts ++ c :: rest) := by simp
      rw [e, parseTerm_paren env n o _ ho]
  case call =>
    intro f o c args ts hf ho hc hp h ih rest _
    have hc' := closing_eq (rest := rest) h.nested hc
    have e : (f :: o :: ts ++ [c]) ++ rest = f :: o :: (ts ++ c :: rest) := by simp
    simp only [Reads, typed, e]
    refine Ev.succ (Ev.congr ?_ fun n => parseTerm_name env n f _ hf)
    refine Ev.succ ?_
    cases hl : env.lookup f.content with
    | none => exact Ev.congr (Ev.const _) fun n => parseName_none env n f _ hl
    | some y =>
      refine Ev.congr ?_ fun n => parseName_call env n f o _ y ts.length hl ho (hp rfl).1 hc'
      have k1 : (ts ++ c :: rest).length - ts.length = rest.length + 1 := by simp
      have k2 : (ts ++ c :: rest).drop (ts.length + 1) = rest := by
        rw [← List.drop_drop]; simp
      rw [k1, k2]
      have := (ih c rest [] hc (hp rfl).2).bind (k := fun args _ => Res.ofOption (buildCall env f.content args) rest)
      refine cast (congrArg _ ?_) this
      cases typedList env args <;> rfl
  case incdec =>
    intro t p ht ho hp rest _
    simp only [Reads, typed, List.cons_append, List.nil_append]
    refine Ev.succ (Ev.congr ?_ fun n => parseTerm_name env n t _ ht)
    refine Ev.succ ?_
    cases hl : env.lookup t.content with
    | none => exact Ev.congr (Ev.const _) fun n => parseName_none env n t _ hl
    | some y => exact Ev.congr (Ev.const _) fun n => parseName_incdec env n t p rest y hl (hp rfl) ho
  case cast =>
    intro k l t g o c b s ts hk hkc hl hg ho hc hp h ih rest _
    have he : Ends (c :: rest) := ⟨c, rest, rfl, (hp rfl).1, by rw [hc]; decide⟩
    have := reads_ends (ih (c :: rest) he.follow) he
    have e : (k :: l :: t :: g :: o :: ts ++ [c]) ++ rest = k :: l :: t :: g :: o :: (ts ++ c :: rest) := by simp
    simp only [Reads, typed, e]
    refine Ev.succ (Ev.congr ?_ fun n => parseTerm_cast env n k _ hk hkc)
    simp only [expect_ok _ l _ hl, bind_ok]
    cases hy : env.lookup t.content with
    | none => exact Ev.congr (Ev.const _) fun n => by rw [resolve_none env t _ hy]; rfl
    | some y =>
      have hg' : g.ty ≠ .OPERATOR_SCOPE := by rw [hg]; decide
      simp only [resolve_some env t g _ y hy hg', bind_ok]
      by_cases hk : y.kind = .type
      · simp only [hk, ne_eq, not_true_eq_false, if_false, expect_ok _ g _ hg, expect_ok _ o _ ho, bind_ok]
        have := this.bind (k := fun e ts => (expect .PARENTHESIS_CLOSE ts).bind fun _ ts => Res.ofOption (buildCast env y e) ts)
        refine cast (congrArg _ ?_) this
        cases typed env s with
        | none => rfl
        | some e => simp [Res.ofOption, bind_ok, expect_ok _ c rest hc]
      · simp only [hk, ne_eq, not_false_eq_true, if_true]
        exact Ev.const _
  case ccast =>
    rintro t u b s ts ht hu hk hs h ih rest ⟨v, r, rfl, hp, hf, hb, hn⟩
    have he : Ends (v :: r) := ⟨v, r, rfl, hp, hb rfl⟩
    have := reads_ends (ih (v :: r) he.follow) he
    simp only [Reads, typed, List.cons_append] at this ⊢
    refine Ev.succ (Ev.congr ?_ fun n => parseTerm_name env n t _ ht)
    refine Ev.succ ?_
    cases hl : env.lookup t.content with
    | none => exact Ev.congr (Ev.const _) fun n => parseName_none env n t _ hl
    | some y =>
      refine Ev.congr ?_ fun n => parseName_ccast env n t u _ y hl (hk y hl) hu (hs rfl)
      have := this.bind (k := fun e rest => .ok (Expr.cast y.ty e) rest)
      rw [ofOption_map] at this
      exact this
  case assign =>
    rintro t a b s ts ht ha hs h ih rest ⟨v, r, rfl, hp, hf, hb, hn⟩
    have he : Ends (v :: r) := ⟨v, r, rfl, hp, hb rfl⟩
    have := reads_ends (ih (v :: r) he.follow) he
    simp only [Reads, typed, List.cons_append]
    refine Ev.succ (Ev.congr ?_ fun n => parseTerm_name env n t _ ht)
    refine Ev.succ ?_
    cases hl : env.lookup t.content with
    | none => exact Ev.congr (Ev.const _) fun n => parseName_none env n t _ hl
    | some y =>
      refine Ev.congr ?_ fun n => parseName_assign env n t a _ y hl ha (hs rfl).1 (hs rfl).2.1
      have := this.bind (k := fun e rest => Res.ofOption (buildAssign env t.content y a.ty e) rest)
      rw [bindOpt] at this
      exact this
  case prefx =>
    rintro p b s ts ho h ih rest ⟨u, r, rfl, hp, hf, hb, hn⟩ res hres
    have hn' : u.ty = .OPERATOR_DECREMENT ∨ u.ty = .OPERATOR_INCREMENT → NotAfterName ts := by
      intro k t ht
      obtain ⟨t', r', rfl, _⟩ := h.head
      exact hn k t (by simpa using ht)
    have := ih (u :: r) ⟨u, r, rfl, hp, hf, hb, hn'⟩
    simp only [Reads] at this
    refine Ev.succ (Ev.congr ?_ fun n => parseInfix_prefix env n p _ ho)
    simp only [typed] at hres
    cases hs : typed env s with
    | none => rw [hs] at this hres; cases hres; exact Ev.error this
    | some e =>
      rw [hs] at this hres
      refine Ev.ok this ?_
      simp only
      simp only [Option.bind_some] at hres
      exact After.step (Ev.const _) hres
  case pre =>
    rintro b s ts h ih rest ⟨u, r, rfl, hp, hf, hb, hn⟩ res hres
    have := ih (u :: r) ⟨u, r, rfl, hp, hf, hb, hn⟩
    obtain ⟨t, r', rfl, _, hbt⟩ := h.head
    refine Ev.succ (Ev.congr ?_ fun n => parseInfix_term env n t _ (beginsTerm_no_prefix (hbt rfl)))
    exact After.step this hres
  case postfx =>
    rintro p b s ts ho hs h ih rest ⟨u, r, rfl, hp, hf, hb, hn⟩ res hres
    obtain ⟨rfl, hpp, hpn⟩ := hs rfl
    have e : (ts ++ [p]) ++ u :: r = ts ++ p :: u :: r := by simp
    rw [e]
    refine ih (p :: u :: r) ⟨p, u :: r, rfl, hpp, ?_, (fun h => nomatch h), ?_⟩ res ?_
    · rcases ho with e | e | e <;> rw [e] <;> decide
    · intro k; refine hpn ?_; rcases k with e | e <;> rw [e] <;> decide
    · simp only [typed] at hres
      cases hy : typed env s with
      | none => rw [hy] at hres; exact hres
      | some x =>
        rw [hy] at hres
        simp only [Option.map_some, After] at hres ⊢
        rcases ho with e | e | e <;> simp only [e, if_true, reduceCtorEq, if_false] at hres <;> rw [← hres] <;>
          simp [postLoop, e]
  case post =>
    rintro b s ts h ih rest ⟨u, r, rfl, hp, hf, hb, hn⟩ res hres
    obtain ⟨k1, k2, k3, k4⟩ := follow_post _ hf
    refine ih (u :: r) ⟨u, r, rfl, hp, k4, hb, hn⟩ res ?_
    cases hy : typed env s with
    | none => rw [hy] at hres; exact hres
    | some x =>
      rw [hy] at hres
      simp only [After] at hres ⊢
      refine Ev.succ (Ev.congr (Ev.const _) fun n => ?_)
      rw [parsePostfix_loop env n x u r k1 k2 k3, hres]
  case is =>
    rintro k t b s ts hk hs h ih rest ⟨u, r, rfl, hp, hf, hb, hn⟩
    obtain ⟨rfl, hkp, _, _⟩ := hs rfl
    have e : (ts ++ [k, t]) ++ u :: r = ts ++ k :: t :: u :: r := by simp
    simp only [Reads, e]
    refine Ev.succ (?_ : Ev (fun n => parseInfix env n _) _)
    refine ih (k :: t :: u :: r) ⟨k, _, rfl, hkp, by rw [hk]; decide, (fun h => nomatch h), by rw [hk]; simp⟩ _ ?_
    simp only [typed]
    cases typed env s with
    | none => rfl
    | some x =>
      simp only [After, Option.bind_some]
      refine Ev.succ (Ev.congr (Ev.const _) fun n => ?_)
      rw [parsePostfix_is env n x k _ hk, parseIs]
      cases hl : env.lookup t.content with
      | none => rw [resolve_none env t _ hl]; rfl
      | some y => rw [resolve_some env t u r y hl (follow_infix _ hf).2.2.2.2.2.2.2.1]; rfl
  case ternary =>
    rintro q c b b₁ b₂ s x y ts t₁ t₂ hq hc hs h hx hy ih ih1 ih2 rest ⟨u, r, rfl, hp, hf, hb, hn⟩
    obtain ⟨rfl, hqp, hcp⟩ := hs rfl
    have he : Ends (u :: r) := ⟨u, r, rfl, hp, hb rfl⟩
    have he' : Ends (c :: t₂ ++ u :: r) := ⟨c, _, rfl, hcp, by rw [hc]; decide⟩
    have r1 := reads_ends (ih1 _ he'.follow) he'
    have r2 := reads_ends (ih2 _ he.follow) he
    have e : (ts ++ q :: t₁ ++ c :: t₂) ++ u :: r = ts ++ q :: (t₁ ++ (c :: t₂ ++ u :: r)) := by simp
    simp only [Reads, e]
    refine Ev.succ (?_ : Ev (fun n => parseInfix env n _) _)
    refine ih (q :: (t₁ ++ (c :: t₂ ++ u :: r))) ⟨q, _, rfl, hqp, by rw [hq]; decide, (fun h => nomatch h), by rw [hq]; simp⟩ _ ?_
    simp only [typed]
    cases typed env s with
    | none => rfl
    | some cnd =>
      simp only [After, Option.bind_some]
      obtain ⟨w, r', rfl, hw, _⟩ := hx.head
      refine Ev.succ (Ev.congr ?_ fun n => parsePostfix_ternary env n cnd q w _ hq (begins_no_colon hw))
      refine Ev.opt r1 fun a _ => ?_
      simp only [List.cons_append, expect_ok _ c _ hc, bind_ok]
      exact Ev.opt r2 fun b _ => Ev.const _
  case elvis =>
    rintro q c b b₂ s y ts t₂ hq hc hs h hy ih ih2 rest ⟨u, r, rfl, hp, hf, hb, hn⟩
    obtain ⟨rfl, hqp⟩ := hs rfl
    have he : Ends (u :: r) := ⟨u, r, rfl, hp, hb rfl⟩
    have r2 := reads_ends (ih2 _ he.follow) he
    have e : (ts ++ q :: c :: t₂) ++ u :: r = ts ++ q :: c :: (t₂ ++ u :: r) := by simp
    simp only [Reads, e]
    refine Ev.succ (?_ : Ev (fun n => parseInfix env n _) _)
    refine ih (q :: c :: (t₂ ++ u :: r)) ⟨q, _, rfl, hqp, by rw [hq]; decide, (fun h => nomatch h), by rw [hq]; simp⟩ _ ?_
    simp only [typed]
    cases typed env s with
    | none => rfl
    | some cnd =>
      simp only [After, Option.bind_some]
      refine Ev.succ (Ev.congr ?_ fun n => parsePostfix_elvis env n cnd q c _ hq hc)
      exact Ev.opt r2 fun b _ => Ev.const _
  case infx =>
    rintro b s ts h ih rest ⟨u, r, rfl, hp, hf, hb, hn⟩
    obtain ⟨k1, k2, k3, k4, k5, k6, k7, k8, k9, k10⟩ := follow_infix _ hf
    refine Ev.succ (?_ : Ev (fun n => parseInfix env n _) _)
    refine ih (u :: r) ⟨u, r, rfl, hp, k9, hb, hn⟩ _ ?_
    cases typed env s with
    | none => rfl
    | some e => simp [After, postLoop, Res.ofOption, k4, k5, k6, k7, k8]
  case bin =>
    rintro l o b₁ b₂ x y t₁ t₂ ho hs hx hy ih1 ih2 rest ⟨u, r, rfl, hp, hf, hb, hn⟩
    obtain ⟨rfl, hop⟩ := hs rfl
    have hl : l ≠ .infix := by rintro rfl; cases ho
    have e : (t₁ ++ o :: t₂) ++ u :: r = t₁ ++ o :: (t₂ ++ u :: r) := by simp
    have r1 := ih1 (o :: (t₂ ++ u :: r)) ⟨o, _, rfl, hop, ops_looser l _ ho, (fun h => nomatch h), fun h => by
      have := looser_no_step l _ (ops_looser l _ ho); rcases h with h | h <;> simp_all⟩
    have r2 := ih2 (u :: r) ⟨u, r, rfl, hp, looser_next l _ hf, hb, fun h => by
      have := looser_no_step l _ hf; rcases h with h | h <;> simp_all⟩
    have r2' : Ev (fun n => parseLevel env n l.next (t₂ ++ u :: r)) (Res.ofOption (typed env y) (u :: r)) := by
      have hstop : ∀ e, l.next ≠ .infix → Ev (fun n => parseLoop env n l.next e (u :: r)) (.ok e (u :: r)) := fun e _ =>
        Ev.succ (Ev.congr (Ev.const _) fun n => parseLoop_stop env n _ e u r (looser_not_op l _ hf))
      have hafter : ∀ o' : Option Expr, l.next ≠ .infix → After o' (fun e => Ev (fun n => parseLoop env n l.next e (u :: r))
          (Res.ofOption o' (u :: r))) (Res.ofOption o' (u :: r)) := by
        intro o' hne
        cases o' with
        | none => rfl
        | some e => exact hstop e hne
      cases l with
      | expression => exact r2 _ (hafter _ (by decide))
      | condition => exact r2 _ (hafter _ (by decide))
      | arith => exact r2 _ (hafter _ (by decide))
      | factor => exact r2
      | «infix» => exact absurd rfl hl
    have key : ∀ res, After (typed env (.bin l o.ty x y)) (fun e => Ev (fun n => parseLoop env n l e (u :: r)) res) res →
        After (typed env x) (fun e => Ev (fun n => parseLoop env n l e (o :: (t₂ ++ u :: r))) res) res := by
      intro res hres
      simp only [typed] at hres
      cases hx' : typed env x with
      | none => rw [hx'] at hres; exact hres
      | some ex =>
        rw [hx'] at hres
        simp only [Option.bind_some] at hres
        simp only [After]
        refine Ev.succ (Ev.congr ?_ fun n => parseLoop_op env n l ex o _ ho)
        cases hy' : typed env y with
        | none => rw [hy'] at hres r2'; cases hres; exact Ev.error r2'
        | some ey =>
          rw [hy'] at hres r2'
          simp only [Option.bind_some] at hres
          exact Ev.ok r2' (After.step (Ev.const _) hres)
    rw [Reads.eq_def]
    cases l with
    | «infix» => exact absurd rfl hl
    | _ => intro res hres; rw [e]; exact r1 res (key res hres)
  case up =>
    rintro l b s ts hl h ih rest ⟨u, r, rfl, hp, hf, hb, hn⟩
    have r2 := ih (u :: r) ⟨u, r, rfl, hp, looser_next l _ hf, hb, hn⟩
    have r2' : Ev (fun n => parseLevel env n l.next (ts ++ u :: r)) (Res.ofOption (typed env s) (u :: r)) := by
      have hafter : ∀ o' : Option Expr, l.next ≠ .infix → After o' (fun e => Ev (fun n => parseLoop env n l.next e (u :: r))
          (Res.ofOption o' (u :: r))) (Res.ofOption o' (u :: r)) := by
        intro o' hne
        cases o' with
        | none => rfl
        | some e => exact Ev.succ (Ev.congr (Ev.const _) fun n => parseLoop_stop env n _ e u r (looser_not_op l _ hf))
      cases l with
      | expression => exact r2 _ (hafter _ (by decide))
      | condition => exact r2 _ (hafter _ (by decide))
      | arith => exact r2 _ (hafter _ (by decide))
      | factor => exact r2
      | «infix» => exact absurd rfl hl
    have key : ∀ res, After (typed env s) (fun e => Ev (fun n => parseLoop env n l e (u :: r)) res) res →
        Ev (fun n => parseLevel env n l (ts ++ u :: r)) res := fun res hres =>
      Ev.succ (Ev.congr (After.step r2' hres) fun n => parseLevel_eq env n l hl _)
    cases l with
    | «infix» => exact absurd rfl hl
    | _ => exact key
  case nil =>
    intro c rest acc hc hp
    refine Ev.succ (Ev.congr (Ev.const _) fun n => ?_)
    rw [parseArgs]; simp [typedList, Res.ofOption]
  case last =>
    intro b s ts h ih c rest acc hc hp
    have he : Ends (c :: rest) := ⟨c, rest, rfl, hp, by rw [hc]; decide⟩
    have r1 := reads_ends (ih _ he.follow) he
    obtain ⟨w, r', rfl, hw, _⟩ := h.head
    refine Ev.succ (Ev.congr (?_ : Ev (fun n => (parseLevel env n .expression (w :: r' ++ c :: rest)).bind
      fun e rest' => match nextComma (rest.length + 1) rest' with
      | .done => .ok (acc ++ [e]) rest'
      | .undefined => .undefined
      | .more rest' => parseArgs env n (rest.length + 1) rest' (acc ++ [e])) _) fun n => ?_)
    · simp only [typedList]
      cases hs : typed env s with
      | none => rw [hs] at r1; exact Ev.error r1
      | some e =>
        rw [hs] at r1
        refine Ev.ok r1 ?_
        simp only [nextComma, List.length_cons, if_true]
        exact Ev.const _
    · rw [parseArgs, if_neg (by simp; omega)]; rfl
  case cons =>
    intro cm b s ss t₁ junk t₂ hcm hs hj h ht ih1 ih2 c rest acc hc hp
    obtain ⟨hcp, rfl⟩ := hs rfl
    have he : Ends (cm :: t₂ ++ c :: rest) := ⟨cm, _, rfl, hcp, by rw [hcm]; decide⟩
    have r1 := reads_ends (ih1 _ he.follow) he
    have e : (t₁ ++ [] ++ cm :: t₂) ++ c :: rest = t₁ ++ (cm :: t₂ ++ c :: rest) := by simp
    rw [e]
    obtain ⟨w, r', rfl, hw, _⟩ := h.head
    refine Ev.succ (Ev.congr (?_ : Ev (fun n => (parseLevel env n .expression (w :: r' ++ (cm :: t₂ ++ c :: rest))).bind
      fun e rest' => match nextComma (rest.length + 1) rest' with
      | .done => .ok (acc ++ [e]) rest'
      | .undefined => .undefined
      | .more rest' => parseArgs env n (rest.length + 1) rest' (acc ++ [e])) _) fun n => ?_)
    · simp only [typedList]
      cases hs : typed env s with
      | none => rw [hs] at r1; exact Ev.error r1
      | some e =>
        rw [hs] at r1
        refine Ev.ok r1 ?_
        have hnc : nextComma (rest.length + 1) (cm :: t₂ ++ c :: rest) = .more (t₂ ++ c :: rest) := by
          unfold nextComma
          rw [if_neg (by simp; omega), if_neg (by simp; omega)]
          simp only [List.cons_append, Brackets.findNext, hcm, if_true, List.drop_zero]
          rw [if_neg (by simp; omega)]
          rfl
        rw [hnc]
        have := ih2 c rest (acc ++ [e]) hc hp
        refine cast (congrArg _ ?_) this
        simp only [Option.bind_some]
        cases typedList env ss <;> simp
    · rw [parseArgs, if_neg (by simp; omega)]; rfl

end Verif.Expr
