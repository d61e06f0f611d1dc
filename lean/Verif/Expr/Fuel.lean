import Verif.Expr.Sound

/-! # The fuel of the parser suffices, and more fuel changes nothing -/

namespace Verif.Expr

open Verif.Str (Text)
open Verif.Lex (Tok Ty Cat)

/-- The outcome `y` with more fuel agrees with the outcome `x`, unless the fuel ran out. -/
def Stable {α : Type} (x y : Res α) : Prop := x ≠ .noFuel → y = x

theorem Stable.refl {α : Type} (x : Res α) : Stable x x := fun _ => rfl

theorem Stable.bind {α β : Type} {x y : Res α} {k k' : α → List Tok → Res β} (h : Stable x y)
    (h' : ∀ a r, Stable (k a r) (k' a r)) : Stable (x.bind k) (y.bind k') := by
  intro hn
  cases x with
  | noFuel => exact absurd rfl hn
  | ok a r => rw [h (by simp)]; exact h' a r hn
  | error => rw [h (by simp)]; rfl
  | undefined => rw [h (by simp)]; rfl
  | outside => rw [h (by simp)]; rfl

theorem Stable.ite {α : Type} {p : Prop} [Decidable p] {x y x' y' : Res α} (h : Stable x y) (h' : Stable x' y') :
    Stable (if p then x else x') (if p then y else y') := by
  split
  · exact h
  · exact h'

/-- One unit of fuel more changes nothing. -/
def StableAt (env : Env) (n m : Nat) : Prop :=
  (∀ l ts, Stable (parseLevel env n l ts) (parseLevel env m l ts)) ∧
  (∀ l e ts, Stable (parseLoop env n l e ts) (parseLoop env m l e ts)) ∧
  (∀ ts, Stable (parseInfix env n ts) (parseInfix env m ts)) ∧
  (∀ e ts, Stable (parsePostfix env n e ts) (parsePostfix env m e ts)) ∧
  (∀ ts, Stable (parseTerm env n ts) (parseTerm env m ts)) ∧
  (∀ ts, Stable (parseName env n ts) (parseName env m ts)) ∧
  (∀ closed ts acc, Stable (parseArgs env n closed ts acc) (parseArgs env m closed ts acc))

theorem stableAt_succ {env : Env} {n m : Nat} (ih : StableAt env n m) : StableAt env (n + 1) (m + 1) := by
  obtain ⟨ihLevel, ihLoop, ihInfix, ihPost, ihTerm, ihName, ihArgs⟩ := ih
  refine ⟨?_, ?_, ?_, ?_, ?_, ?_, ?_⟩
  · intro l ts
    by_cases hl : l = .infix
    · subst hl; rw [parseLevel, parseLevel]; exact ihInfix _
    · rw [parseLevel_eq env n l hl, parseLevel_eq env m l hl]
      exact .bind (ihLevel _ _) fun _ _ => ihLoop _ _ _
  · intro l e ts
    cases ts with
    | nil => rw [parseLoop, parseLoop]; exact .refl _
    | cons t ts =>
      rw [parseLoop, parseLoop]
      exact .ite (.bind (ihLevel _ _) fun _ _ => .bind (.refl _) fun _ _ => ihLoop _ _ _) (.refl _)
  · intro ts
    cases ts with
    | nil => rw [parseInfix, parseInfix]; exact .refl _
    | cons t ts =>
      rw [parseInfix, parseInfix]
      refine .ite (.bind (ihTerm _) fun _ r => ?_) (.bind (ihTerm _) fun _ _ => ihPost _ _)
      cases r with
      | nil => exact .refl _
      | cons u r => exact .bind (.refl _) fun _ _ => ihPost _ _
  · intro e ts
    cases ts with
    | nil => rw [parsePostfix, parsePostfix]; exact .refl _
    | cons t ts =>
      rw [parsePostfix.eq_def, parsePostfix.eq_def]; simp only
      refine .ite (.refl _) (.ite (.refl _) (.ite ?_ (.refl _)))
      cases ts with
      | nil => exact .refl _
      | cons u ts =>
        exact .ite (.bind (ihLevel _ _) fun _ _ => .refl _)
          (.bind (ihLevel _ _) fun _ _ => .bind (.refl _) fun _ _ => .bind (ihLevel _ _) fun _ _ => .refl _)
  · intro ts
    cases ts with
    | nil => rw [parseTerm, parseTerm]; exact .refl _
    | cons t ts =>
      rw [parseTerm.eq_def, parseTerm.eq_def]; simp only
      cases literal t.ty t.content with
      | some l => exact .refl _
      | none =>
        refine .ite (ihName _) (.ite (.ite ?_ (.refl _))
          (.ite (.bind (ihLevel _ _) fun _ _ => .refl _) (.refl _)))
        exact .bind (.refl _) fun _ _ => .bind (.refl _) fun _ _ => .ite (.refl _)
          (.bind (.refl _) fun _ _ => .bind (.refl _) fun _ _ => .bind (ihLevel _ _) fun _ _ => .refl _)
  · intro ts
    rw [parseName, parseName]
    refine .bind (.refl _) fun s r => ?_
    cases r with
    | nil => exact .refl _
    | cons u r =>
      refine .ite (.ite (.bind (ihLevel _ _) fun _ _ => .refl _) (.refl _))
        (.ite (.bind (ihLevel _ _) fun _ _ => .refl _) (.ite ?_ (.refl _)))
      cases closing r with
      | none => exact .refl _
      | some k => exact .bind (ihArgs _ _ _) fun _ _ => .refl _
  · intro closed ts acc
    rw [parseArgs, parseArgs]
    refine .ite (.refl _) (.bind (ihLevel _ _) fun e r => ?_)
    cases nextComma closed r with
    | done => exact .refl _
    | undefined => exact .refl _
    | more r => exact ihArgs _ _ _

theorem stableAt (env : Env) (k : Nat) : ∀ n, StableAt env n (n + k) := by
  intro n
  induction n with
  | zero =>
    refine ⟨?_, ?_, ?_, ?_, ?_, ?_, ?_⟩
    · intro l ts hn; rw [parseLevel] at hn; exact absurd rfl hn
    · intro l e ts hn; rw [parseLoop] at hn; exact absurd rfl hn
    · intro ts hn; rw [parseInfix] at hn; exact absurd rfl hn
    · intro e ts hn; rw [parsePostfix] at hn; exact absurd rfl hn
    · intro ts hn; rw [parseTerm] at hn; exact absurd rfl hn
    · intro ts hn; rw [parseName] at hn; exact absurd rfl hn
    · intro closed ts acc hn; rw [parseArgs] at hn; exact absurd rfl hn
  | succ n ih => rw [Nat.add_right_comm]; exact stableAt_succ ih

/-! ## Enough fuel -/

theorem bind_fuel {α β : Type} {x : Res α} {k : α → List Tok → Res β} (h : x ≠ .noFuel)
    (h' : ∀ a r, x = .ok a r → k a r ≠ .noFuel) : x.bind k ≠ .noFuel := by
  cases x with
  | ok a r => exact h' a r rfl
  | noFuel => exact absurd rfl h
  | _ => simp [Res.bind]

theorem ofOption_fuel {α : Type} (o : Option α) (r : List Tok) : Res.ofOption o r ≠ .noFuel := by
  cases o <;> simp [Res.ofOption]

theorem expect_fuel (ty : Ty) (ts : List Tok) : expect ty ts ≠ .noFuel := by
  cases ts with
  | nil => simp [expect]
  | cons t ts => rw [expect]; split <;> simp

theorem resolve_fuel (env : Env) (ts : List Tok) : resolve env ts ≠ .noFuel := by
  unfold resolve
  split
  · simp
  · split
    · simp
    · split
      · simp
      · split <;> simp

theorem postLoop_fuel (e : Expr) (ts : List Tok) : postLoop e ts ≠ .noFuel := by
  induction ts generalizing e with
  | nil => simp [postLoop]
  | cons t ts ih =>
    rw [postLoop]
    repeat' split
    all_goals first | exact ih _ | simp

theorem Found.shorter {env : Env} {pos : Pos} {e : Expr} {ts rest : List Tok} (h : Found env pos e ts rest) :
    rest.length < ts.length := by
  obtain ⟨used, b, s, rfl, hd, _⟩ := h
  obtain ⟨t, r, rfl, _⟩ := hd.head
  simp only [List.length_append, List.length_cons]; omega

theorem level_shorter {env : Env} {n : Nat} {l : Lvl} {ts rest : List Tok} {e : Expr} (h : parseLevel env n l ts = .ok e rest) :
    rest.length < ts.length := ((soundAt env n).1 _ _ _ _ h).shorter

theorem term_shorter {env : Env} {n : Nat} {ts rest : List Tok} {e : Expr} (h : parseTerm env n ts = .ok e rest) :
    rest.length < ts.length := ((soundAt env n).2.2.2.2.1 _ _ _ h).shorter

theorem expect_shorter {ty : Ty} {ts rest : List Tok} (h : expect ty ts = .ok () rest) : rest.length < ts.length := by
  obtain ⟨t, rfl, _⟩ := expect_eq_ok h; simp

theorem resolve_shorter {env : Env} {x : Text × Sym} {ts rest : List Tok} (h : resolve env ts = .ok x rest) :
    rest.length < ts.length := by
  obtain ⟨t, rfl, _⟩ := resolve_eq_ok h; simp

/-- The number of calls until a token is consumed. -/
def rank : Lvl → Nat
  | .infix => 4
  | .factor => 5
  | .arith => 6
  | .condition => 7
  | .expression => 8

theorem rank_bounds (l : Lvl) : 4 ≤ rank l ∧ rank l ≤ 8 := by cases l <;> decide

theorem rank_next (l : Lvl) (h : l ≠ .infix) : rank l = rank l.next + 1 := by cases l <;> first | rfl | exact absurd rfl h

/-- The fuel `n` is enough. -/
def EnoughAt (env : Env) (n : Nat) : Prop :=
  (∀ l ts, 10 * ts.length + rank l ≤ n → parseLevel env n l ts ≠ .noFuel) ∧
  (∀ l e ts, 10 * ts.length + 1 ≤ n → parseLoop env n l e ts ≠ .noFuel) ∧
  (∀ ts, 10 * ts.length + 3 ≤ n → parseInfix env n ts ≠ .noFuel) ∧
  (∀ e ts, 10 * ts.length + 1 ≤ n → parsePostfix env n e ts ≠ .noFuel) ∧
  (∀ ts, 10 * ts.length + 2 ≤ n → parseTerm env n ts ≠ .noFuel) ∧
  (∀ ts, 10 * ts.length + 1 ≤ n → parseName env n ts ≠ .noFuel) ∧
  (∀ closed ts acc, 10 * ts.length + 9 ≤ n → parseArgs env n closed ts acc ≠ .noFuel)

theorem enoughAt (env : Env) : ∀ n, EnoughAt env n := by
  intro n
  induction n with
  | zero =>
    refine ⟨?_, ?_, ?_, ?_, ?_, ?_, ?_⟩
    · intro l ts h; have := rank_bounds l; omega
    all_goals intros; omega
  | succ n ih =>
    obtain ⟨ihLevel, ihLoop, ihInfix, ihPost, ihTerm, ihName, ihArgs⟩ := ih
    refine ⟨?_, ?_, ?_, ?_, ?_, ?_, ?_⟩
    · intro l ts h
      by_cases hl : l = .infix
      · subst hl; rw [parseLevel]; exact ihInfix _ (by simp [rank] at h; omega)
      · rw [parseLevel_eq env n l hl]
        have := rank_next l hl
        exact bind_fuel (ihLevel _ _ (by omega)) fun e r hr => ihLoop _ _ _ (by have := level_shorter hr; omega)
    · intro l e ts h
      cases ts with
      | nil => rw [parseLoop]; simp
      | cons t ts =>
        rw [parseLoop]
        have := rank_bounds l.next
        simp only [List.length_cons] at h
        split
        · refine bind_fuel (ihLevel _ _ (by omega)) fun e r hr => bind_fuel (ofOption_fuel _ _) fun e' r' hr' => ?_
          obtain ⟨_, rfl⟩ := ofOption_eq_ok hr'
          exact ihLoop _ _ _ (by have := level_shorter hr; omega)
        · simp
    · intro ts h
      cases ts with
      | nil => rw [parseInfix]; simp
      | cons t ts =>
        rw [parseInfix]
        simp only [List.length_cons] at h
        split
        · refine bind_fuel (ihTerm _ (by omega)) fun e r hr => ?_
          cases r with
          | nil => simp
          | cons u r =>
            refine bind_fuel (ofOption_fuel _ _) fun e' r' hr' => ?_
            obtain ⟨_, rfl⟩ := ofOption_eq_ok hr'
            exact ihPost _ _ (by have := term_shorter hr; omega)
        · exact bind_fuel (ihTerm _ (by simp; omega)) fun e r hr => ihPost _ _ (by have := term_shorter hr; simp at this; omega)
    · intro e ts h
      cases ts with
      | nil => rw [parsePostfix]; simp
      | cons t ts =>
        rw [parsePostfix.eq_def]; simp only
        simp only [List.length_cons] at h
        split
        · exact bind_fuel (resolve_fuel _ _) fun _ _ _ => by simp
        · split
          · simp
          · split
            · cases ts with
              | nil => simp
              | cons u ts =>
                simp only [List.length_cons] at h
                simp only
                split
                · exact bind_fuel (ihLevel _ _ (by simp [rank]; omega)) fun _ _ _ => ofOption_fuel _ _
                · refine bind_fuel (ihLevel _ _ (by simp [rank]; omega)) fun _ r hr => bind_fuel (expect_fuel _ _) fun _ r' hr' =>
                    bind_fuel (ihLevel _ _ ?_) fun _ _ _ => ofOption_fuel _ _
                  have := level_shorter hr; have := expect_shorter hr'
                  simp [rank] at *; omega
            · exact postLoop_fuel _ _
    · intro ts h
      cases ts with
      | nil => rw [parseTerm]; simp
      | cons t ts =>
        rw [parseTerm.eq_def]; simp only
        cases literal t.ty t.content with
        | some l => simp
        | none =>
          simp only
          split
          · exact ihName _ (by omega)
          · simp only [List.length_cons] at h
            split
            · split
              · refine bind_fuel (expect_fuel _ _) fun _ r1 h1 => bind_fuel (resolve_fuel _ _) fun s r2 h2 => ?_
                split
                · simp
                · refine bind_fuel (expect_fuel _ _) fun _ r3 h3 => bind_fuel (expect_fuel _ _) fun _ r4 h4 =>
                    bind_fuel (ihLevel _ _ ?_) fun _ _ _ => bind_fuel (expect_fuel _ _) fun _ _ _ => ofOption_fuel _ _
                  have := expect_shorter h1; have := resolve_shorter h2
                  have := expect_shorter h3; have := expect_shorter h4
                  simp only [rank]; omega
              · split
                · simp
                · split <;> simp
            · split
              · exact bind_fuel (ihLevel _ _ (by simp [rank]; omega)) fun _ _ _ => bind_fuel (expect_fuel _ _) fun _ _ _ => by simp
              · simp
    · intro ts h
      rw [parseName]
      refine bind_fuel (resolve_fuel _ _) fun s r hr => ?_
      have hs := resolve_shorter hr
      cases r with
      | nil => simp
      | cons u r =>
        simp only [List.length_cons] at hs
        simp only
        split
        · split
          · exact bind_fuel (ihLevel _ _ (by simp [rank]; omega)) fun _ _ _ => by simp
          · simp
        · split
          · exact bind_fuel (ihLevel _ _ (by simp [rank]; omega)) fun _ _ _ => ofOption_fuel _ _
          · split
            · split
              · simp
              · exact bind_fuel (ihArgs _ _ _ (by omega)) fun _ _ _ => ofOption_fuel _ _
            · split
              · simp
              · split
                · exact ofOption_fuel _ _
                · simp
    · intro closed ts acc h
      rw [parseArgs]
      split
      · simp
      · refine bind_fuel (ihLevel _ _ (by simp [rank]; omega)) fun e r hr => ?_
        have hs := level_shorter hr
        unfold nextComma
        split
        · simp
        · simp
        · next r' hn =>
          split at hn
          · cases hn
          · split at hn
            · cases hn
            · split at hn
              · split at hn
                · cases hn
                · cases hn; exact ihArgs _ _ _ (by simp; omega)
              · cases hn

/-- The parser never runs out of fuel. -/
theorem parse_fuel (env : Env) (ts : List Tok) : parse env ts ≠ .noFuel :=
  (enoughAt env _).1 _ _ (by simp [rank])

/-- With more fuel the outcome is the same. -/
theorem parse_stable (env : Env) (ts : List Tok) (n : Nat) (h : 10 * ts.length + 10 ≤ n) :
    parseLevel env n .expression ts = parse env ts := by
  obtain ⟨k, rfl⟩ := Nat.exists_eq_add_of_le h
  exact (stableAt env k _).1 _ _ (parse_fuel env ts)

theorem parse_of_ev {env : Env} {ts : List Tok} {r : Res Expr} (h : Ev (fun n => parseLevel env n .expression ts) r) :
    parse env ts = r := by
  obtain ⟨N, h⟩ := h
  rw [← parse_stable env ts (max N (10 * ts.length + 10)) (Nat.le_max_right _ _)]
  exact h _ (Nat.le_max_left _ _)

end Verif.Expr
