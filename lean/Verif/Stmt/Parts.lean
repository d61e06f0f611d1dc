import Verif.Stmt.Spec
import Verif.Expr.Fuel
import Verif.Brackets.Props
import Verif.Brackets.Spec

/-!
# Reading the parts of statements
-/

namespace Verif.Stmt

open Verif.Str (Text)
open Verif.Lex (Tok Ty Cat)
open Verif.Types (TName)
open Verif.Expr (Env Sym Kind Res Expr Syn Der DerArgs Plain Lvl Ends Ev Pos resolve expect bind_ok expect_ok)

/-! ## Type casts -/

/-- Type casts only use names of types, so that a spelling does not depend on the variables. -/
theorem der_mono {e₁ e₂ : Env} (hm : ∀ t, (∀ y, e₁.lookup t = some y → y.kind = .type) → ∀ y, e₂.lookup t = some y → y.kind = .type)
    {st : Bool} {pos : Pos} {b : Bool} {s : Syn} {ts : List Tok} (h : Der e₁ st pos b s ts) : Der e₂ st pos b s ts := by
  refine Der.rec (env := e₁) (strict := st) (motive_1 := fun pos b s ts _ => Der e₂ st pos b s ts)
    (motive_2 := fun ss ts _ => DerArgs e₂ st ss ts) ?lit ?name ?paren ?call ?incdec ?cast ?ccast ?assign ?prefx ?pre ?postfx
    ?post ?is ?ternary ?elvis ?infx ?bin ?up ?nil ?last ?cons h
  case lit => intro t h; exact .lit t h
  case name => intro t h; exact .name t h
  case paren => intro o c b s ts ho hc hp h ih; exact .paren o c b s ts ho hc hp ih
  case call => intro f o c args ts hf ho hc hp h ih; exact .call f o c args ts hf ho hc hp ih
  case incdec => intro t p ht ho hp; exact .incdec t p ht ho hp
  case cast => intro k l t g o c b s ts hk hkc hl hg ho hc hp h ih; exact .cast k l t g o c b s ts hk hkc hl hg ho hc hp ih
  case ccast => intro t u b s ts ht hu hk hs h ih; exact .ccast t u b s ts ht hu (hm _ hk) hs ih
  case assign => intro t a b s ts ht ha hs h ih; exact .assign t a b s ts ht ha hs ih
  case prefx => intro p b s ts ho h ih; exact .prefix p b s ts ho ih
  case pre => intro b s ts h ih; exact .pre b s ts ih
  case postfx => intro p b s ts ho hs h ih; exact .postfix p b s ts ho hs ih
  case post => intro b s ts h ih; exact .post b s ts ih
  case is => intro k t b s ts hk hs h ih; exact .is k t b s ts hk hs ih
  case ternary => intro q c b b₁ b₂ s x y ts t₁ t₂ hq hc hs h hx hy i1 i2 i3; exact .ternary q c b b₁ b₂ s x y ts t₁ t₂ hq hc hs i1 i2 i3
  case elvis => intro q c b b₂ s y ts t₂ hq hc hs h hy i1 i2; exact .elvis q c b b₂ s y ts t₂ hq hc hs i1 i2
  case infx => intro b s ts h ih; exact .infix b s ts ih
  case bin => intro l o b₁ b₂ x y t₁ t₂ ho hs hx hy i1 i2; exact .bin l o b₁ b₂ x y t₁ t₂ ho hs i1 i2
  case up => intro l b s ts hl h ih; exact .up l b s ts hl ih
  case nil => exact .nil
  case last => intro b s ts h ih; exact .last b s ts ih
  case cons => intro c b s ss t₁ junk t₂ hc hs hj h ht i1 i2; exact .cons c b s ss t₁ junk t₂ hc hs hj i1 i2

/-- The name is not that of a type. -/
def NotType (w : Site) (x : Text) : Prop := ∀ y, w.env.lookup x = some y → y.kind ≠ .type

/-- No variable has the name of a type. -/
def Names (w : Site) (s : St) : Prop := ∀ sc ∈ s.scopes, ∀ p ∈ sc, NotType w p.1

theorem lookup_mem {sc : List (Text × Sym)} {n : Text} {y : Sym} (h : sc.lookup n = some y) : (n, y) ∈ sc := by
  induction sc with
  | nil => cases h
  | cons p sc ih =>
    obtain ⟨m, z⟩ := p
    by_cases hb : n = m
    · subst hb
      rw [List.lookup_cons_self] at h
      cases h
      exact List.mem_cons_self
    · rw [List.lookup_cons, beq_eq_false_iff_ne.2 hb] at h
      exact List.mem_cons_of_mem _ (ih h)

theorem find_mem {scs : List (List (Text × Sym))} {n : Text} {y : Sym} (h : find scs n = some y) : ∃ sc ∈ scs, (n, y) ∈ sc := by
  obtain ⟨sc, h1, h2⟩ := List.exists_of_findSome?_eq_some h
  exact ⟨sc, h1, lookup_mem h2⟩

theorem Names.find {w : Site} {s : St} (h : Names w s) {n : Text} {y z : Sym} (hz : w.env.lookup n = some z) (hk : z.kind = .type) :
    find s.scopes n ≠ some y := by
  intro hf
  obtain ⟨sc, h1, h2⟩ := find_mem hf
  exact h sc h1 _ h2 z hz hk

theorem types_at {w : Site} {s : St} (h : Names w s) {pos : Pos} {b : Bool} {e : Syn} {ts : List Tok}
    (hd : Der w.types true pos b e ts) : Der (w.at s) true pos b e ts := by
  refine der_mono (fun t ht y hy => ?_) hd
  simp only [Site.types, Site.at] at ht hy
  cases hl : w.env.lookup t with
  | none =>
    rw [hl] at ht
    exact absurd (ht _ rfl) (by simp)
  | some z =>
    rw [hl] at ht hy
    have hz := ht z rfl
    cases hf : Stmt.find s.scopes t with
    | none => rw [hf] at hy; cases hy; exact hz
    | some y' => exact absurd hf (h.find hl hz)

theorem Names.push {w : Site} {s : St} (h : Names w s) : Names w s.push := by
  intro sc hsc p hp
  rcases List.mem_cons.1 hsc with rfl | hsc
  · cases hp
  · exact h sc hsc p hp

theorem Names.pop {w : Site} {s : St} (h : Names w s) : Names w s.pop :=
  fun sc hsc p hp => h sc (List.mem_of_mem_tail hsc) p hp

theorem Names.enter {w : Site} {s : St} (h : Names w s) : Names w s.enter := Names.push (s := s) h

theorem Names.of_scopes {w : Site} {s s' : St} (h : Names w s) (he : s'.scopes = s.scopes) : Names w s' := by
  intro sc hsc; rw [he] at hsc; exact h sc hsc

theorem Names.define {w : Site} {s s' : St} (h : Names w s) {n : Text} {y : Sym} (hn : NotType w n) (hd : s.define n y = some s') :
    Names w s' := by
  unfold St.define at hd
  split at hd
  · cases hd
  · rename_i sc scs hs
    split at hd
    · cases hd
    · cases hd
      intro sc' hsc p hp
      rcases List.mem_cons.1 hsc with rfl | hsc
      · rcases List.mem_cons.1 hp with rfl | hp
        · exact hn
        · exact h sc (by rw [hs]; exact List.mem_cons_self) p hp
      · exact h sc' (by rw [hs]; exact List.mem_cons_of_mem _ hsc) p hp

/-! ## Expressions -/

theorem Mark.ends {ty : Ty} {t : Tok} {rest : List Tok} (h : Mark ty t) (ht : ty ∈ Expr.terminators) : Ends (t :: rest) :=
  ⟨t, rest, rfl, h.2.1, by rw [h.1]; exact ht⟩

theorem level_of_ev {env : Env} {l : Lvl} {ts : List Tok} {r : Res Expr} (h : Ev (fun n => Expr.parseLevel env n l ts) r) :
    Expr.parseLevel env (10 * ts.length + 10) l ts = r := by
  obtain ⟨N, h⟩ := h
  have he : Expr.parseLevel env (10 * ts.length + 10) l ts ≠ .noFuel :=
    (Expr.enoughAt env _).1 _ _ (by have := (Expr.rank_bounds l).2; omega)
  have hs := (Expr.stableAt env N (10 * ts.length + 10)).1 l ts he
  rw [← hs]
  exact h _ (Nat.le_add_left _ _)

theorem level_text {w : Site} {s : St} {l : Lvl} {e : Syn} {ts rest : List Tok} (hl : l ≠ .infix) (h : ExprText w l e ts)
    (hn : Names w s) (he : Ends rest) : Expr.parseLevel (w.at s) (10 * (ts ++ rest).length + 10) l (ts ++ rest) = Res.ofOption (typedAt w s e) rest := by
  obtain ⟨⟨b, hd⟩, -⟩ := h
  have hr := Expr.complete (types_at hn hd) rest he.follow
  apply level_of_ev
  have : ∀ r, Expr.After (typedAt w s e) (fun x => Ev (fun n => Expr.parseLoop (w.at s) n l x rest) r) r →
      Ev (fun n => Expr.parseLevel (w.at s) n l (ts ++ rest)) r := by
    cases l <;> first | exact absurd rfl hl | exact hr
  refine this _ ?_
  cases typedAt w s e with
  | none => rfl
  | some x =>
    obtain ⟨t, r, rfl, hp, ht⟩ := he
    refine Ev.succ (Ev.congr (Ev.const _) fun n => ?_)
    exact Expr.parseLoop_stop _ n l x t r (Expr.term_looser l _ ht).2

theorem expression_text {w : Site} {s : St} {e : Syn} {ts rest : List Tok} (h : ExprText w .expression e ts)
    (hn : Names w s) (he : Ends rest) : expression w s (ts ++ rest) = Res.ofOption (typedAt w s e) rest :=
  level_text (by decide) h hn he

theorem inParens_text {w : Site} {s : St} {e : Syn} {o c : Tok} {es rest : List Tok} (ho : Mark .PARENTHESIS_OPEN o)
    (hc : Mark .PARENTHESIS_CLOSE c) (h : ExprText w .expression e es) (hn : Names w s) :
    inParens w s (o :: (es ++ c :: rest)) = Res.ofOption (typedAt w s e) rest := by
  simp only [inParens, expect_ok _ o _ ho.1, bind_ok, expression_text h hn (hc.ends (by decide))]
  cases typedAt w s e with
  | none => rfl
  | some x => simp only [Res.ofOption, bind_ok, expect_ok _ c _ hc.1]

/-- The first token of an expression is no punctuation mark. -/
theorem ExprText.head {w : Site} {l : Lvl} {e : Syn} {ts : List Tok} (h : ExprText w l e ts) :
    ∃ t r, ts = t :: r ∧ t.ty ≠ .SEMICOLON ∧ t.ty ≠ .PARENTHESIS_CLOSE ∧ t.ty ≠ .COMMA := by
  obtain ⟨⟨b, hd⟩, -⟩ := h
  obtain ⟨t, r, rfl, hb, -⟩ := hd.head
  refine ⟨t, r, rfl, ?_⟩
  rcases hb with (h | h | h | h) | h | h | h
  · rcases Expr.literal_ty h with e | e | e | e | e <;> simp [e]
  all_goals simp [h]

theorem optional_text {w : Site} {s : St} {e : Option Syn} {m : Tok} {es rest : List Tok} (hm : Mark .SEMICOLON m)
    (h : OptText (ExprText w .expression) e es) (hn : Names w s) :
    optional w s (es ++ m :: rest) = Res.ofOption (typedOpt w s e) (m :: rest) := by
  cases h with
  | none => simp only [List.nil_append, optional, hm.1, if_true, typedOpt, Res.ofOption]
  | some e _ h =>
    obtain ⟨t, r, rfl, h1, -⟩ := h.head
    have := expression_text (rest := m :: rest) h hn (hm.ends (by decide))
    simp only [List.cons_append] at this ⊢
    simp only [optional, if_neg h1, this, typedOpt]
    cases typedAt w s e <;> rfl

theorem forCondition_text {w : Site} {s : St} {e : Option Syn} {m : Tok} {es rest : List Tok} (hm : Mark .SEMICOLON m)
    (h : OptText (ExprText w .expression) e es) (hn : Names w s) :
    forCondition w s (es ++ m :: rest) = Res.ofOption (typedOpt w s e) rest := by
  cases h with
  | none => simp only [List.nil_append, forCondition, hm.1, if_true, typedOpt, Res.ofOption]
  | some e _ h =>
    obtain ⟨t, r, rfl, h1, -⟩ := h.head
    have := expression_text (rest := m :: rest) h hn (hm.ends (by decide))
    simp only [List.cons_append] at this ⊢
    simp only [forCondition, if_neg h1, this, typedOpt]
    cases typedAt w s e <;> rfl

/-! ## Declarations -/

theorem mutability_text {m : Option Bool} {ms : List Tok} (h : Mutability m ms) {t : Tok} {rest : List Tok} (ht : t.ty ≠ .MUTABILITY) :
    mutability (ms ++ t :: rest) = .ok (m.getD false) (t :: rest) := by
  cases h with
  | none => simp only [List.nil_append, mutability, if_neg ht]; rfl
  | const u hu hc => simp only [List.cons_append, List.nil_append, mutability, hu, hc, if_true]; rfl
  | modify u hu hc =>
    have : ("modify".toList = "const".toList) = False := by decide
    simp only [List.cons_append, List.nil_append, mutability, hu, hc, this, if_true, if_false]; rfl

theorem access_text {m : Option Bool} {ms : List Tok} (h : Access m ms) (dflt : Bool) {t : Tok} {rest : List Tok}
    (ht : t.ty ≠ .ACCESS_MODE) (hw : t.content ∉ words) :
    accessMode dflt (ms ++ t :: rest) = .ok (m.getD dflt) (t :: rest) := by
  cases h with
  | none =>
    have hd : t.content ≠ "default".toList := fun h => hw (by rw [h]; decide)
    simp only [List.nil_append, accessMode, ht, hd, or_self, if_false]; rfl
  | ref u hu hc => simp only [List.cons_append, List.nil_append, accessMode, hu, hc, true_or, if_true]; rfl
  | val u hu hc =>
    have : ("val".toList = "ref".toList) = False := by decide
    simp only [List.cons_append, List.nil_append, accessMode, hu, hc, this, true_or, if_true]; rfl

/-- The head of an access mode is no mutability. -/
theorem Access.no_mutability {m : Option Bool} {ms : List Tok} (h : Access m ms) {t : Tok} {rest : List Tok} (ht : t.ty ≠ .MUTABILITY) :
    ∃ u r, ms ++ t :: rest = u :: r ∧ u.ty ≠ .MUTABILITY := by
  cases h with
  | none => exact ⟨t, rest, rfl, ht⟩
  | ref u hu => exact ⟨u, _, rfl, by rw [hu]; decide⟩
  | val u hu => exact ⟨u, _, rfl, by rw [hu]; decide⟩

/-- What `declaration` does behind the declared name. -/
theorem declaration_text {w : Site} {s : St} {d : Decl} {ds rest : List Tok} {t : Tok} (hd : DeclText d ds) (init : Bool)
    (ht : t.ty ≠ .MUTABILITY) (ha : t.ty ≠ .ACCESS_MODE) (hw : t.content ∉ words) :
    declaration w s init (ds ++ t :: rest) =
      (Res.ofOption (declare w s d) (t :: rest)).bind fun r ts =>
        (initialisation w r.2 init r.1.ty r.1.ref ts).bind fun e ts => .ok ((r.1, e), r.2) ts := by
  cases hd with
  | mk y x m a ms as hy hx hm hac =>
    obtain ⟨u, r, he, hu⟩ := hac.no_mutability (rest := rest) ht
    have e1 : (y :: x :: ms ++ as) ++ t :: rest = y :: x :: (ms ++ (as ++ t :: rest)) := by simp
    rw [e1]
    simp only [declaration, declare]
    cases hl : (w.at s).lookup y.content with
    | none => rw [Expr.resolve_none _ _ _ hl]; rfl
    | some z =>
      rw [Expr.resolve_some _ y x _ z hl (by rw [hx.1]; decide)]
      simp only [bind_ok, Option.bind_some, hx.1, ne_eq, not_true_eq_false, if_false]
      by_cases hk : z.kind = .type
      · simp only [hk, not_true_eq_false, if_false, true_and]
        rw [he, mutability_text hm hu, bind_ok, ← he]
        by_cases hc : w.creatable z.ty = true
        · simp only [hc, if_true, Bool.true_eq_false, if_false]
          cases hdf : s.define x.content (varSym w z.ty (m.getD false)) with
          | none => rfl
          | some s' =>
            simp only [Option.map_some, Res.ofOption, bind_ok]
            rw [access_text hac _ ha hw, bind_ok]
        · simp only [hc, if_false, Bool.not_eq_true _ ▸ hc, if_true]; rfl
      · simp only [hk, not_false_eq_true, if_true, false_and, if_false]; rfl

/-- Without an initial value, in `foreach` and `catch`. -/
theorem declaration_plain {w : Site} {s : St} {d : Decl} {ds rest : List Tok} {t : Tok} {ty : Ty} (hd : DeclText d ds) (ht : Mark ty t)
    (h : ty = .COLON ∨ ty = .PARENTHESIS_CLOSE) :
    declaration w s false (ds ++ t :: rest) = Res.ofOption ((declare w s d).map fun r => ((r.1, none), r.2)) (t :: rest) := by
  have hx : t.ty = .COLON ∨ t.ty = .PARENTHESIS_CLOSE := by rw [ht.1]; exact h
  rw [declaration_text hd false (by rcases hx with h | h <;> simp [h]) (by rcases hx with h | h <;> simp [h]) ht.2.2]
  cases declare w s d with
  | none => rfl
  | some r =>
    have : t.ty ≠ .ASSIGN := by rcases hx with h | h <;> simp [h]
    simp [Res.ofOption, bind_ok, initialisation, this]

/-! ## Simple statements -/

/-- The token behind a simple statement. -/
def SimpleEnd (t : Tok) : Prop := Mark .SEMICOLON t ∨ Mark .PARENTHESIS_CLOSE t

theorem SimpleEnd.ends {t : Tok} {rest : List Tok} (h : SimpleEnd t) : Ends (t :: rest) := by
  rcases h with h | h <;> exact h.ends (by decide)

theorem SimpleEnd.ne {t : Tok} (h : SimpleEnd t) : t.ty ≠ .MUTABILITY ∧ t.ty ≠ .ACCESS_MODE ∧ t.ty ≠ .ASSIGN ∧ t.content ∉ words ∧
    t.cat ≠ .assignment ∧ t.ty ≠ .OPERATOR_SCOPE ∧ t.ty ≠ .IDENTIFIER ∧ t.ty ≠ .PARENTHESIS_OPEN ∧ t.ty ≠ .BRACKET_OPEN ∧
    t.ty ≠ .OPERATOR_DECREMENT ∧ t.ty ≠ .OPERATOR_INCREMENT := by
  rcases h with h | h <;> refine ⟨?_, ?_, ?_, h.2.2, h.2.1.2, ?_, ?_, ?_, ?_, ?_, ?_⟩ <;> (rw [h.1]; decide)

/-- A call, `x++`, `x--` or `x` as a statement. -/
theorem use_text {w : Site} {s : St} {t : Tok} {e : Syn} {ts rest : List Tok} {m : Tok} (ht : Name t)
    (h : Der w.types true .term false e (t :: ts)) (hn : Names w s) (hm : SimpleEnd m) :
    identifier w s ((t :: ts) ++ m :: rest) = Res.ofOption ((typedAt w s e).map fun x => (Node.expr x, s)) (m :: rest) := by
  have hne := hm.ne
  have hd := types_at hn h
  clear h
  cases hd with
  | lit => rename_i h; rcases Expr.literal_ty h with e | e | e | e | e <;> rw [ht.1] at e <;> cases e
  | paren => rename_i h _; rw [ht.1] at h; cases h
  | cast => rename_i h _; rw [ht.1] at h; cases h
  | name _ _ =>
    simp only [List.cons_append, List.nil_append, identifier, hne, if_false, typedAt, Expr.typed]
    cases hl : (w.at s).lookup t.content with
    | none => rw [Expr.resolve_none _ _ _ hl]; rfl
    | some y =>
      rw [Expr.resolve_some _ _ _ _ y hl hne.2.2.2.2.2.1]
      simp only [bind_ok, nameUse, hne, if_false, or_self, Option.map_some, Res.ofOption]
  | incdec _ p _ ho hp =>
    have hpl := hp rfl
    have h1 : p.ty ≠ .OPERATOR_SCOPE ∧ p.ty ≠ .IDENTIFIER ∧ p.ty ≠ .PARENTHESIS_OPEN ∧ p.ty ≠ .BRACKET_OPEN := by
      rcases ho with h | h <;> simp [h]
    simp only [List.cons_append, List.nil_append, identifier, hpl.2, if_false, typedAt, Expr.typed]
    cases hl : (w.at s).lookup t.content with
    | none => rw [Expr.resolve_none _ _ _ hl]; rfl
    | some y =>
      rw [Expr.resolve_some _ _ _ _ y hl h1.1]
      simp only [bind_ok, nameUse, h1, hpl.2, ho, if_false, if_true, Option.bind_some]
      cases Expr.buildIncDec (w.at s) t.content y p.ty <;> rfl
  | call _ o c args as _ ho hc hp ha =>
    have hpl := (hp rfl).1
    have h1 : o.ty ≠ .OPERATOR_SCOPE ∧ o.ty ≠ .IDENTIFIER := by simp [ho]
    have e1 : (t :: (o :: as ++ [c])) ++ m :: rest = t :: o :: (as ++ c :: (m :: rest)) := by simp
    have hcl := Expr.closing_eq (rest := m :: rest) ha.nested hc
    have hd' : Der (w.at s) true .term false (.call t.content args) (t :: o :: as ++ [c]) := .call t o c args as ht.1 ho hc hp ha
    obtain ⟨N, hN⟩ := Expr.complete hd' (m :: rest) (hm.ends).follow
    change identifier w s (t :: (o :: as ++ [c]) ++ m :: rest) = _
    rw [e1]
    simp only [identifier, hpl.2, if_false, typedAt]
    cases hl : (w.at s).lookup t.content with
    | none => rw [Expr.resolve_none _ _ _ hl]; simp only [Expr.typed, hl]; rfl
    | some y =>
      rw [Expr.resolve_some _ _ _ _ y hl h1.1]
      simp only [bind_ok, nameUse, h1, hpl.2, ho, if_false, if_true, hcl]
      have hf : Expr.parseArgs (w.at s) (10 * (as ++ c :: m :: rest).length + 10) ((as ++ c :: m :: rest).length - as.length)
          (as ++ c :: m :: rest) [] ≠ .noFuel := (Expr.enoughAt _ _).2.2.2.2.2.2 _ _ _ (by omega)
      have hs := (Expr.stableAt (w.at s) N (10 * (as ++ c :: m :: rest).length + 10)).2.2.2.2.2.2 _ _ _ hf
      rw [← hs]
      have := hN (10 * (as ++ c :: m :: rest).length + 10 + N + 1 + 1) (by omega)
      have e2 : (t :: o :: as ++ [c]) ++ m :: rest = t :: o :: (as ++ c :: (m :: rest)) := by simp
      simp only [] at this
      rw [e2, Expr.parseTerm_name _ _ _ _ ht.1, Expr.parseName_call _ _ _ _ _ y as.length hl ho hpl hcl] at this
      rw [this]
      cases Expr.typed (w.at s) (.call t.content args) <;> rfl

theorem statement_ident {w : Site} {n : Nat} {inner allow : Bool} {s : St} {t : Tok} {ts : List Tok} (ht : t.ty = .IDENTIFIER) :
    statement w (n + 1) inner allow s (t :: ts) = identifier w s (t :: ts) := by
  simp only [statement, ht, reduceCtorEq, if_false, if_true]

theorem statement_paren {w : Site} {n : Nat} {inner allow : Bool} {s : St} {t : Tok} {ts : List Tok} (ht : t.ty = .PARENTHESIS_OPEN) :
    statement w (n + 1) inner allow s (t :: ts) = (expression w s (t :: ts)).bind fun e ts => .ok (.expr e, s) ts := by
  simp only [statement, ht, reduceCtorEq, if_false, if_true]

theorem statement_keyword {w : Site} {n : Nat} {inner allow : Bool} {s : St} {t : Tok} {ts : List Tok} (ht : t.ty = .KEYWORD) :
    statement w (n + 1) inner allow s (t :: ts) = keyword w n allow s t ts := by
  simp only [statement, ht, reduceCtorEq, if_false, if_true]

theorem statement_semicolon {w : Site} {n : Nat} {inner allow : Bool} {s : St} {t : Tok} {ts : List Tok} (ht : t.ty = .SEMICOLON) :
    statement w (n + 1) inner allow s (t :: ts) = .ok (.nop, s) ts := by
  simp only [statement, ht, reduceCtorEq, if_false, if_true]

theorem statement_block {w : Site} {n : Nat} {inner allow : Bool} {s : St} {t : Tok} {ts : List Tok} (ht : t.ty = .BRACKET_CURLY_OPEN) :
    statement w (n + 1) inner allow s (t :: ts) = (block w n (inner || allow) false s (t :: ts)).bind fun b ts =>
        (expect .BRACKET_CURLY_CLOSE ts).bind fun _ ts => .ok (.block b.1, b.2) ts := by
  simp only [statement, ht, if_true]

theorem DeclText.shape {d : Decl} {ds : List Tok} (h : DeclText d ds) : ∃ t x r, ds = t :: x :: r ∧ Name t ∧ Name x ∧ d.ty = t.content := by
  cases h with
  | mk t x m a ms as ht hx _ _ => exact ⟨t, x, ms ++ as, rfl, ht, hx, rfl⟩

theorem identifier_decl {w : Site} {s : St} {t x : Tok} {ts : List Tok} (hx : Name x) :
    identifier w s (t :: x :: ts) = (declaration w s true (t :: x :: ts)).bind fun d ts => .ok (.decl d.1.1 d.1.2, d.2) ts := by
  simp only [identifier, hx.2.1, hx.1, if_false, if_true]
  cases hl : (w.at s).lookup t.content with
  | none => simp only [declaration, Expr.resolve_none _ _ _ hl]; rfl
  | some y => rw [Expr.resolve_some _ _ _ _ y hl (by rw [hx.1]; decide), bind_ok]

/-- The keyword `var`. -/
theorem keyword_var {w : Site} {n : Nat} {allow : Bool} {s : St} {t : Tok} {ts : List Tok} (ht : t.content = "var".toList) :
    keyword w (n + 1) allow s t ts = inference w s ts := by
  simp only [keyword, ht, String.toList_inj, String.reduceEq, if_false, if_true]

/-- The names that a simple statement declares. -/
def Simple.names : Simple → List Text
  | .expr _ => []
  | .decl d _ => [d.name]
  | .infer x _ _ _ => [x]

theorem declare_define {w : Site} {s : St} {d : Decl} {q : DeclNode × St} (h : declare w s d = some q) :
    ∃ y, s.define d.name y = some q.2 := by
  simp only [declare, Option.bind_eq_some_iff] at h
  obtain ⟨y, -, h⟩ := h
  split at h
  · simp only [Option.map_eq_some_iff] at h
    obtain ⟨s', h, rfl⟩ := h
    exact ⟨_, h⟩
  · cases h

theorem Names.declare {w : Site} {s : St} (hn : Names w s) {d : Decl} {q : DeclNode × St} (hd : NotType w d.name)
    (h : declare w s d = some q) : Names w q.2 := by
  obtain ⟨y, h⟩ := declare_define h
  exact hn.define hd h

/-- A simple statement is read up to the token behind it. -/
theorem simple_text {w : Site} {s : St} {i : Simple} {ts rest : List Tok} {m : Tok} (h : SimpleText w i ts) (hn : Names w s)
    (hx : ∀ x ∈ i.names, NotType w x) (hm : SimpleEnd m) (inner allow : Bool) (n : Nat) :
    statement w (n + 2) inner allow s (ts ++ m :: rest) = Res.ofOption (elabSimple w s i) (m :: rest) := by
  have hne := hm.ne
  cases h with
  | expr e ts h =>
    cases h with
    | assign t a e ts ht ha h =>
      rw [List.cons_append, statement_ident ht.1, List.cons_append]
      have := expression_text (rest := m :: rest) h hn hm.ends
      rw [List.cons_append, List.cons_append] at this
      simp only [identifier, ha, if_true, this, elabSimple]
      cases typedAt w s e <;> rfl
    | paren t e ts ht h =>
      have := expression_text (rest := m :: rest) h hn hm.ends
      rw [List.cons_append] at this ⊢
      rw [statement_paren ht.1, this]
      simp only [elabSimple]
      cases typedAt w s e <;> rfl
    | use t e ts ht hc h =>
      have := use_text (rest := rest) ht h hn hm
      rw [List.cons_append] at this ⊢
      rw [statement_ident ht.1, this]
      rfl
  | decl d ds hd =>
    have hdt := declaration_text (w := w) (s := s) (rest := rest) hd true hne.1 hne.2.1 hne.2.2.2.1
    obtain ⟨t, x, r, rfl, ht, hx, -⟩ := hd.shape
    simp only [List.cons_append] at hdt ⊢
    rw [statement_ident ht.1, identifier_decl hx, hdt]
    simp only [elabSimple]
    cases declare w s d with
    | none => rfl
    | some q =>
      simp only [Res.ofOption, bind_ok, initialisation, hne, if_false, Option.bind_some, initial, Bool.and_eq_true, true_and]
      by_cases hr : q.1.ref = true ∧ w.atomic q.1.ty = true
      · simp only [hr, and_self, if_true]; rfl
      · simp only [hr, if_false]; rfl
  | init d a e ds ts hd ha h =>
    have hdt := declaration_text (w := w) (s := s) (rest := ts ++ m :: rest) (t := a) hd true (by rw [ha.1]; decide)
      (by rw [ha.1]; decide) ha.2
    obtain ⟨t, x, r, rfl, ht, hxn, hty⟩ := hd.shape
    simp only [List.cons_append, List.append_assoc] at hdt ⊢
    rw [statement_ident ht.1, identifier_decl hxn, hdt]
    simp only [elabSimple]
    cases hq : declare w s d with
    | none => rfl
    | some q =>
      have hn' := hn.declare (hx _ List.mem_cons_self) hq
      simp only [Res.ofOption, bind_ok, initialisation, ha.1, if_true, Bool.true_eq_false, if_false, Option.bind_some, initial,
        expression_text h hn' hm.ends]
      cases typedAt w q.2 e with
      | none => rfl
      | some x =>
        simp only [Res.ofOption, bind_ok, Option.bind_some]
        cases Expr.typeOf w.env q.1.ty .ASSIGN x.ty <;> rfl
  | infer v x a mu r e ms as ts hv hxn hmu hr ha h =>
    obtain ⟨u, l, he, hu⟩ := hr.no_mutability (t := a) (rest := ts ++ m :: rest) (by rw [ha.1]; decide)
    have e1 : (v :: x :: ms ++ as ++ a :: ts) ++ m :: rest = v :: x :: (ms ++ (as ++ a :: (ts ++ m :: rest))) := by simp
    rw [e1, statement_keyword hv.1, keyword_var hv.2]
    simp only [inference, hxn.1, ne_eq, not_true_eq_false, if_false]
    rw [he, mutability_text hmu hu, bind_ok, ← he, access_text hr _ (by rw [ha.1]; decide) ha.2, bind_ok, expect_ok _ a _ ha.1, bind_ok,
      expression_text h hn hm.ends]
    simp only [elabSimple]
    cases typedAt w s e with
    | none => rfl
    | some z =>
      simp only [Res.ofOption, bind_ok, Option.bind_some]
      by_cases h1 : mu.getD false = false ∧ isConst w z = true ∧ w.atomic z.ty = false
      · simp only [h1, and_self, if_true, true_or]
      · simp only [h1, if_false, false_or]
        by_cases h2 : w.creatable z.ty = false
        · simp only [h2, if_true]
        · simp only [h2]
          cases s.define x.content (varSym w z.ty (mu.getD false)) <;> rfl

theorem Names.simple {w : Site} {s : St} (hn : Names w s) {i : Simple} (hx : ∀ x ∈ i.names, NotType w x) {q : Node × St}
    (h : elabSimple w s i = some q) : Names w q.2 := by
  cases i with
  | expr e =>
    simp only [elabSimple, Option.map_eq_some_iff] at h
    obtain ⟨_, _, rfl⟩ := h
    exact hn
  | decl d e =>
    simp only [elabSimple, Option.bind_eq_some_iff, Option.map_eq_some_iff] at h
    obtain ⟨r, hr, _, _, rfl⟩ := h
    exact hn.declare (hx _ List.mem_cons_self) hr
  | infer x m r e =>
    simp only [elabSimple, Option.bind_eq_some_iff] at h
    obtain ⟨z, -, h⟩ := h
    split at h
    · cases h
    · simp only [Option.map_eq_some_iff] at h
      obtain ⟨s', h, rfl⟩ := h
      exact hn.define (hx _ List.mem_cons_self) h

end Verif.Stmt
