import Verif.Expr.Complete

/-! # Every accepted text is a spelling of the expression that was read -/

namespace Verif.Expr

open Verif.Str (Text)
open Verif.Lex (Tok Ty Cat)
open Verif.Types (TName)

theorem bind_eq_ok {α β : Type} {f : Res α} {k : α → List Tok → Res β} {b : β} {rest : List Tok}
    (h : f.bind k = .ok b rest) : ∃ a r, f = .ok a r ∧ k a r = .ok b rest := by
  cases f with
  | ok a r => exact ⟨a, r, rfl, h⟩
  | _ => cases h

theorem ofOption_eq_ok {α : Type} {o : Option α} {a : α} {rest rest' : List Tok} (h : Res.ofOption o rest' = .ok a rest) :
    o = some a ∧ rest' = rest := by
  cases o with
  | none => cases h
  | some x => cases h; exact ⟨rfl, rfl⟩

theorem expect_eq_ok {ty : Ty} {ts rest : List Tok} (h : expect ty ts = .ok () rest) : ∃ t, ts = t :: rest ∧ t.ty = ty := by
  cases ts with
  | nil => cases h
  | cons t ts =>
    rw [expect] at h
    split at h
    · next e => cases h; exact ⟨t, rfl, e⟩
    · cases h

theorem resolve_eq_ok {env : Env} {ts rest : List Tok} {x : Text × Sym} (h : resolve env ts = .ok x rest) :
    ∃ t, ts = t :: rest ∧ x.1 = t.content ∧ env.lookup t.content = some x.2 := by
  unfold resolve at h
  split at h
  · cases h
  · next t ts =>
    split at h
    · cases h
    · next s hs =>
      split at h
      · cases h
      · split at h
        · cases h
        · cases h; exact ⟨t, rfl, rfl, hs⟩

theorem findBalanced_at {opn cls : Ty} {limit : Nat} {term : Option Ty} (ts : List Tok) : ∀ (o : Int) (n m : Nat),
    Brackets.findBalanced opn cls limit term ts o n = .at m →
    ∃ a c b, ts = a ++ c :: b ∧ m = n + a.length ∧ c.ty = cls := by
  induction ts with
  | nil => intro o n m h; cases h
  | cons t ts ih =>
    intro o n m h
    rw [Brackets.findBalanced] at h
    split at h
    · simp only at h
      generalize (if t.ty = cls then _ else _ : Int) = o' at h
      split at h
      · cases h
      · split at h
        · cases h
        · obtain ⟨a, c, b, rfl, rfl, hc⟩ := ih o' (n + 1) m h
          exact ⟨t :: a, c, b, rfl, by simp; omega, hc⟩
    · next hn =>
      cases h
      exact ⟨[], t, ts, rfl, by simp, by simp only [ne_eq, not_or, Classical.not_not] at hn; exact hn.1⟩

theorem closing_spec {ts : List Tok} {k : Nat} (h : closing ts = some k) :
    ∃ a c b, ts = a ++ c :: b ∧ a.length = k ∧ c.ty = .PARENTHESIS_CLOSE := by
  unfold closing at h
  split at h
  · next n hn =>
    cases h
    obtain ⟨a, c, b, e, hm, hc⟩ := findBalanced_at ts 0 0 _ hn
    exact ⟨a, c, b, e, by omega, hc⟩
  · cases h

theorem findNext_at {ty : Ty} (ts : List Tok) : ∀ n m, Brackets.findNext ty none ts n = .at m →
    ∃ a c b, ts = a ++ c :: b ∧ m = n + a.length ∧ c.ty = ty ∧ ∀ j ∈ a, j.ty ≠ ty := by
  induction ts with
  | nil => intro n m h; cases h
  | cons t ts ih =>
    intro n m h
    rw [Brackets.findNext] at h
    split at h
    · next e => cases h; exact ⟨[], t, ts, rfl, rfl, e, by simp⟩
    · next hne =>
      simp only [reduceCtorEq, if_false] at h
      obtain ⟨a, c, b, rfl, rfl, hc, hj⟩ := ih _ _ h
      refine ⟨t :: a, c, b, rfl, by simp; omega, hc, ?_⟩
      intro j hj'
      rcases List.mem_cons.1 hj' with rfl | hj'
      · exact hne
      · exact hj j hj'

/-- What is shown of a successful outcome. -/
def Found (env : Env) (pos : Pos) (e : Expr) (ts rest : List Tok) : Prop :=
  ∃ used b s, ts = used ++ rest ∧ Der env false pos b s used ∧ typed env s = some e

/-- The same, when a part has been read before. -/
def FoundMore (env : Env) (pos pos' : Pos) (e e' : Expr) (ts rest : List Tok) : Prop :=
  ∀ used₀ b₀ s₀, Der env false pos b₀ s₀ used₀ → typed env s₀ = some e →
    ∃ used b s, ts = used ++ rest ∧ Der env false pos' b s (used₀ ++ used) ∧ typed env s = some e'

/-- The same for arguments. -/
def FoundArgs (env : Env) (closed : Nat) (acc args : List Expr) (ts rest : List Tok) : Prop :=
  ∃ used ss es, ts = used ++ rest ∧ rest.length = closed ∧ DerArgs env false ss used ∧ typedList env ss = some es ∧ args = acc ++ es

theorem postLoop_sound {env : Env} {e e' : Expr} {ts rest : List Tok} (h : postLoop e ts = .ok e' rest) :
    FoundMore env .post .post e e' ts rest := by
  induction ts generalizing e with
  | nil => cases h
  | cons t ts ih =>
    rw [postLoop] at h
    intro used₀ b₀ s₀ hd hty
    split at h
    · cases h
    · split at h
      · next ho =>
        have hd' := Der.postfix (env := env) (strict := false) t b₀ s₀ used₀ (by rcases ho with h | h <;> simp [h])
          (fun h => nomatch h) hd
        have hne : t.ty ≠ .OPERATOR_NOT := by rcases ho with h | h <;> simp [h]
        obtain ⟨used, b, s, rfl, h1, h2⟩ := ih h _ _ _ hd' (by simp [typed, hty, hne])
        exact ⟨t :: used, b, s, rfl, by simpa using h1, h2⟩
      · split at h
        · next ho =>
          have hd' := Der.postfix (env := env) (strict := false) t b₀ s₀ used₀ (.inr (.inr ho))
            (fun h => nomatch h) hd
          obtain ⟨used, b, s, rfl, h1, h2⟩ := ih h _ _ _ hd' (by simp [typed, hty, ho])
          exact ⟨t :: used, b, s, rfl, by simpa using h1, h2⟩
        · split at h
          · cases h
          · cases h; exact ⟨[], b₀, s₀, rfl, by simpa using hd, hty⟩

/-- All that is shown, for one amount of fuel. -/
def SoundAt (env : Env) (n : Nat) : Prop :=
  (∀ l ts e rest, parseLevel env n l ts = .ok e rest → Found env (.lvl l) e ts rest) ∧
  (∀ l e ts e' rest, parseLoop env n l e ts = .ok e' rest → FoundMore env (.lvl l) (.lvl l) e e' ts rest) ∧
  (∀ ts e rest, parseInfix env n ts = .ok e rest → Found env (.lvl .infix) e ts rest) ∧
  (∀ e ts e' rest, parsePostfix env n e ts = .ok e' rest → FoundMore env .pre (.lvl .infix) e e' ts rest) ∧
  (∀ ts e rest, parseTerm env n ts = .ok e rest → Found env .term e ts rest) ∧
  (∀ t ts e rest, t.ty = .IDENTIFIER → parseName env n (t :: ts) = .ok e rest → Found env .term e (t :: ts) rest) ∧
  (∀ closed ts acc args rest, parseArgs env n closed ts acc = .ok args rest → FoundArgs env closed acc args ts rest)

theorem found_level {env : Env} {l : Lvl} (hl : l ≠ .infix) {ts : List Tok} {n : Nat} {e : Expr} {rest : List Tok}
    (ih : SoundAt env n)
    (h : ((parseLevel env n l.next ts).bind fun e rest => parseLoop env n l e rest) = .ok e rest) :
    Found env (.lvl l) e ts rest := by
  obtain ⟨x, r, h1, h2⟩ := bind_eq_ok h
  obtain ⟨used, b, s, rfl, hd, ht⟩ := ih.1 _ _ _ _ h1
  obtain ⟨used', b', s', rfl, hd', ht'⟩ := ih.2.1 _ _ _ _ _ h2 _ _ _ (Der.up l b s used hl hd) ht
  exact ⟨used ++ used', b', s', by simp, hd', ht'⟩

theorem soundAt (env : Env) : ∀ n, SoundAt env n := by
  intro n
  induction n with
  | zero =>
    refine ⟨?_, ?_, ?_, ?_, ?_, ?_, ?_⟩
    · intro l ts e rest h; rw [parseLevel] at h; cases h
    · intro l e ts e' rest h; rw [parseLoop] at h; cases h
    · intro ts e rest h; rw [parseInfix] at h; cases h
    · intro e ts e' rest h; rw [parsePostfix] at h; cases h
    · intro ts e rest h; rw [parseTerm] at h; cases h
    · intro t ts e rest _ h; rw [parseName] at h; cases h
    · intro closed ts acc args rest h; rw [parseArgs] at h; cases h
  | succ n ih =>
    obtain ⟨ihLevel, ihLoop, ihInfix, ihPost, ihTerm, ihName, ihArgs⟩ := id ih
    refine ⟨?_, ?_, ?_, ?_, ?_, ?_, ?_⟩
    · intro l ts e rest h
      by_cases hl : l = .infix
      · subst hl; rw [parseLevel] at h; exact ihInfix _ _ _ h
      · rw [parseLevel_eq env n l hl] at h; exact found_level hl ih h
    · intro l e ts e' rest h used₀ b₀ s₀ hd hty
      cases ts with
      | nil => rw [parseLoop] at h; cases h
      | cons t ts =>
        by_cases ho : t.ty ∈ l.ops
        · rw [parseLoop_op env n l e t ts ho] at h
          obtain ⟨y, r, h1, h2⟩ := bind_eq_ok h
          obtain ⟨z, r', h3, h4⟩ := bind_eq_ok h2
          obtain ⟨h3o, rfl⟩ := ofOption_eq_ok h3
          obtain ⟨used, b, s, rfl, hd1, ht1⟩ := ihLevel _ _ _ _ h1
          have hd' := Der.bin (env := env) (strict := false) l t b₀ b s₀ s used₀ used ho (fun h => nomatch h) hd hd1
          obtain ⟨used', b', s', rfl, hd2, ht2⟩ := ihLoop _ _ _ _ _ h4 _ _ _ hd' (by simp [typed, hty, ht1, h3o])
          exact ⟨t :: used ++ used', b', s', by simp, by simpa using hd2, ht2⟩
        · rw [parseLoop_stop env n l e t ts ho] at h
          cases h
          exact ⟨[], b₀, s₀, rfl, by simpa using hd, hty⟩
    · intro ts e rest h
      cases ts with
      | nil => rw [parseInfix] at h; cases h
      | cons t ts =>
        by_cases ho : t.ty = .MATH_ADDITION ∨ t.ty = .MATH_SUBTRACT ∨ t.ty = .OPERATOR_NOT
        · rw [parseInfix_prefix env n t ts ho] at h
          obtain ⟨x, r, h1, h2⟩ := bind_eq_ok h
          obtain ⟨used, b, s, rfl, hd, ht⟩ := ihTerm _ _ _ h1
          cases r with
          | nil => cases h2
          | cons u r =>
            simp only at h2
            obtain ⟨y, r', h3, h4⟩ := bind_eq_ok h2
            obtain ⟨h3o, rfl⟩ := ofOption_eq_ok h3
            have hd' := Der.prefix (env := env) (strict := false) t b s used ho hd
            obtain ⟨used', b', s', e', hd2, ht2⟩ := ihPost _ _ _ _ h4 _ _ _ hd' (by simp [typed, ht, h3o])
            exact ⟨t :: used ++ used', b', s', by rw [e']; simp, by simpa using hd2, ht2⟩
        · rw [parseInfix_term env n t ts ho] at h
          obtain ⟨x, r, h1, h2⟩ := bind_eq_ok h
          obtain ⟨used, b, s, e', hd, ht⟩ := ihTerm _ _ _ h1
          obtain ⟨used', b', s', rfl, hd2, ht2⟩ := ihPost _ _ _ _ h2 _ _ _ (Der.pre b s used hd) ht
          exact ⟨used ++ used', b', s', by rw [e']; simp, hd2, ht2⟩
    · intro e ts e' rest h used₀ b₀ s₀ hd hty
      cases ts with
      | nil => rw [parsePostfix] at h; cases h
      | cons t ts =>
        by_cases h1 : t.ty = .OPERATOR_IS
        · rw [parsePostfix_is env n e t ts h1, parseIs] at h
          obtain ⟨x, r, h2, h3⟩ := bind_eq_ok h
          obtain ⟨k, rfl, h4, h5⟩ := resolve_eq_ok h2
          cases h3
          exact ⟨[t, k], b₀, _, rfl, Der.is t k b₀ s₀ used₀ h1 (fun h => nomatch h) hd, by simp [typed, hty, h5]⟩
        · by_cases h3 : t.ty = .OPERATOR_RANGE
          · rw [parsePostfix.eq_def] at h; simp only at h; rw [if_neg h1, if_pos h3] at h; cases h
          · by_cases h2 : t.ty = .QUESTION_MARK
            · cases ts with
              | nil => rw [parsePostfix.eq_def] at h; simp only at h; rw [if_neg h1, if_neg h3, if_pos h2] at h; cases h
              | cons u ts =>
                by_cases hu : u.ty = .COLON
                · rw [parsePostfix_elvis env n e t u ts h2 hu] at h
                  obtain ⟨x, r, h4, h5⟩ := bind_eq_ok h
                  obtain ⟨h5o, rfl⟩ := ofOption_eq_ok h5
                  obtain ⟨used, b, s, rfl, hd1, ht1⟩ := ihLevel _ _ _ _ h4
                  exact ⟨t :: u :: used, true, _, rfl,
                    Der.elvis t u b₀ b s₀ s used₀ used h2 hu (fun h => nomatch h) hd hd1, by simp [typed, hty, ht1, h5o]⟩
                · rw [parsePostfix_ternary env n e t u ts h2 hu] at h
                  obtain ⟨x, r, h4, h5⟩ := bind_eq_ok h
                  obtain ⟨_, r', h6, h7⟩ := bind_eq_ok h5
                  obtain ⟨c, rfl, hc⟩ := expect_eq_ok h6
                  obtain ⟨y, r2, h8, h9⟩ := bind_eq_ok h7
                  obtain ⟨h9o, rfl⟩ := ofOption_eq_ok h9
                  obtain ⟨used, b, s, e1, hd1, ht1⟩ := ihLevel _ _ _ _ h4
                  obtain ⟨used', b', s', rfl, hd2, ht2⟩ := ihLevel _ _ _ _ h8
                  refine ⟨t :: used ++ c :: used', true, .ternary s₀ s s', by rw [e1]; simp,
                    ?_, by simp only [typed]; rw [hty, ht1, ht2]; exact h9o⟩
                  have := Der.ternary (env := env) (strict := false) t c b₀ b b' s₀ s s' used₀ used used' h2 hc (fun h => nomatch h) hd hd1 hd2
                  simpa using this
            · rw [parsePostfix_loop env n e t ts h1 h2 h3] at h
              obtain ⟨used, b, s, e1, hd1, ht1⟩ := postLoop_sound h _ _ _ (Der.post b₀ s₀ used₀ hd) hty
              exact ⟨used, b, s, e1, Der.infix b s _ hd1, ht1⟩
    · intro ts e rest h
      cases ts with
      | nil => rw [parseTerm] at h; cases h
      | cons t ts =>
        cases hl : literal t.ty t.content with
        | some l =>
          rw [parseTerm_lit env n t ts l hl] at h
          cases h
          exact ⟨[t], false, _, rfl, Der.lit t (by simp [hl]), by simp [typed, hl]⟩
        | none =>
          by_cases h1 : t.ty = .IDENTIFIER
          · rw [parseTerm_name env n t ts h1] at h; exact ihName _ _ _ _ h1 h
          · by_cases h2 : t.ty = .PARENTHESIS_OPEN
            · rw [parseTerm_paren env n t ts h2] at h
              obtain ⟨x, r, h3, h4⟩ := bind_eq_ok h
              obtain ⟨_, r', h5, h6⟩ := bind_eq_ok h4
              cases h6
              obtain ⟨c, rfl, hc⟩ := expect_eq_ok h5
              obtain ⟨used, b, s, rfl, hd1, ht1⟩ := ihLevel _ _ _ _ h3
              exact ⟨t :: used ++ [c], false, s, by simp, Der.paren t c b s used h2 hc (fun h => nomatch h) hd1, ht1⟩
            · by_cases h3 : t.ty = .KEYWORD ∧ t.content = "cast".toList
              · rw [parseTerm_cast env n t ts h3.1 h3.2] at h
                obtain ⟨_, r, h4, h5⟩ := bind_eq_ok h
                obtain ⟨l, rfl, hl'⟩ := expect_eq_ok h4
                obtain ⟨x, r2, h6, h7⟩ := bind_eq_ok h5
                obtain ⟨k, rfl, hk, hk'⟩ := resolve_eq_ok h6
                split at h7
                · cases h7
                · next hty =>
                  obtain ⟨_, r3, h8, h9⟩ := bind_eq_ok h7
                  obtain ⟨g, rfl, hg⟩ := expect_eq_ok h8
                  obtain ⟨_, r4, h10, h11⟩ := bind_eq_ok h9
                  obtain ⟨o, rfl, ho⟩ := expect_eq_ok h10
                  obtain ⟨y, r5, h12, h13⟩ := bind_eq_ok h11
                  obtain ⟨_, r6, h14, h15⟩ := bind_eq_ok h13
                  obtain ⟨c, rfl, hc⟩ := expect_eq_ok h14
                  obtain ⟨h15o, rfl⟩ := ofOption_eq_ok h15
                  obtain ⟨used, b, s, rfl, hd1, ht1⟩ := ihLevel _ _ _ _ h12
                  exact ⟨t :: l :: k :: g :: o :: used ++ [c], false, _, by simp,
                    Der.cast t l k g o c b s used h3.1 h3.2 hl' hg ho hc (fun h => nomatch h) hd1,
                    by simp only [typed, hk', ht1, Option.bind_some]; rw [if_neg hty]; exact h15o⟩
              · rw [parseTerm.eq_def] at h; simp only [hl] at h
                rw [if_neg h1] at h
                by_cases h4 : t.ty = .KEYWORD
                · rw [if_pos h4, if_neg (fun k => h3 ⟨h4, k⟩)] at h
                  split at h
                  · cases h
                  · split at h <;> cases h
                · rw [if_neg h4, if_neg h2] at h; cases h
    · intro t ts e rest ht h
      rw [parseName] at h
      obtain ⟨x, r, h1, h2⟩ := bind_eq_ok h
      obtain ⟨k, hk, hx, hlk⟩ := resolve_eq_ok h1
      cases hk
      cases ts with
      | nil => cases h2
      | cons u ts =>
        simp only at h2
        split at h2
        · next hst =>
          split at h2
          · next hkind =>
            obtain ⟨y, r2, h3, h4⟩ := bind_eq_ok h2
            cases h4
            obtain ⟨used, b, s, e1, hd1, ht1⟩ := ihLevel _ _ _ _ h3
            obtain ⟨w, r', rfl, _⟩ := hd1.head
            cases e1
            exact ⟨t :: u :: r', true, _, rfl, Der.ccast t u b s r' ht hst (by rw [hlk]; rintro y ⟨⟩; exact hkind)
              (fun h => nomatch h) hd1, by simp [typed, hlk, ht1]⟩
          · cases h2
        · split at h2
          · next hu =>
            obtain ⟨y, r2, h3, h4⟩ := bind_eq_ok h2
            obtain ⟨h4o, rfl⟩ := ofOption_eq_ok h4
            obtain ⟨used, b, s, rfl, hd1, ht1⟩ := ihLevel _ _ _ _ h3
            exact ⟨t :: u :: used, true, _, rfl, Der.assign t u b s used ht hu (fun h => nomatch h) hd1,
              by simp only [typed, hlk, ht1, Option.bind_some]; rw [← hx]; exact h4o⟩
          · split at h2
            · next hu =>
              split at h2
              · cases h2
              · next k hk =>
                obtain ⟨args, r2, h3, h4⟩ := bind_eq_ok h2
                obtain ⟨h4o, rfl⟩ := ofOption_eq_ok h4
                obtain ⟨a, c, b, rfl, rfl, hc⟩ := closing_spec hk
                obtain ⟨used, ss, es, e1, hlen, hd, hte, rfl⟩ := ihArgs _ _ _ _ _ h3
                have hlen' : r2.length = (c :: b).length := by simp at hlen ⊢; omega
                obtain ⟨e2, e3⟩ := List.append_inj' e1 hlen'.symm
                subst e2; subst e3
                refine ⟨t :: u :: a ++ [c], false, _, ?_, Der.call t u c ss a ht hu hc (fun h => nomatch h) hd, ?_⟩
                · simp
                · simp only [typed, hlk, hte, Option.bind_some]; rw [← hx]; simpa using h4o
            · split at h2
              · cases h2
              · split at h2
                · next hu =>
                  obtain ⟨h4o, rfl⟩ := ofOption_eq_ok h2
                  exact ⟨[t, u], false, _, rfl, Der.incdec t u ht hu (fun h => nomatch h),
                    by simp only [typed, hlk, Option.bind_some]; rw [← hx]; exact h4o⟩
                · cases h2
                  exact ⟨[t], false, _, rfl, Der.name t ht, by simp [typed, hlk, hx]⟩
    · intro closed ts acc args rest h
      rw [parseArgs] at h
      split at h
      · next hlen => cases h; exact ⟨[], [], [], rfl, hlen, .nil, rfl, by simp⟩
      · obtain ⟨e, r, h1, h2⟩ := bind_eq_ok h
        obtain ⟨used, b, s, rfl, hd1, ht1⟩ := ihLevel _ _ _ _ h1
        unfold nextComma at h2
        split at h2
        · next hnc =>
          cases h2
          split at hnc
          · next hlen => exact ⟨used, [s], [e], rfl, hlen, .last b s used hd1, by simp [typedList, ht1], rfl⟩
          · split at hnc
            · cases hnc
            · split at hnc
              · split at hnc <;> cases hnc
              · cases hnc
        · cases h2
        · next r' hnc =>
          split at hnc
          · cases hnc
          · split at hnc
            · cases hnc
            · split at hnc
              · next k hk =>
                split at hnc
                · cases hnc
                · cases hnc
                  obtain ⟨a, c, b', rfl, hm, hc, hj⟩ := findNext_at _ _ _ hk
                  have hk' : (a ++ c :: b').drop (k + 1) = b' := by
                    rw [hm, Nat.zero_add, ← List.drop_drop]; simp
                  rw [hk'] at h2
                  obtain ⟨used', ss, es, rfl, hlen, hd, hte, rfl⟩ := ihArgs _ _ _ _ _ h2
                  refine ⟨used ++ a ++ c :: used', s :: ss, e :: es, by simp, hlen,
                    .cons c b s ss used a used' hc (fun h => nomatch h) hj hd1 hd, by simp [typedList, ht1, hte], by simp⟩
              · cases hnc

end Verif.Expr
