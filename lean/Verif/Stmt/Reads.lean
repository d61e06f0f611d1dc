import Verif.Stmt.Read

/-!
# Statements are read as they are written: the induction
-/

namespace Verif.Stmt

open Verif.Str (Text)
open Verif.Lex (Tok Ty Cat)
open Verif.Types (TName)
open Verif.Brackets (Nested)
open Verif.Expr (Env Sym Kind Res Expr Syn Der DerArgs Plain Lvl Ends resolve expect bind_ok expect_ok)

section Keywords

variable {w : Site} {n : Nat} {allow : Bool} {s : St} {t : Tok} {ts : List Tok}

theorem keyword_assert (ht : t.content = "assert".toList) : keyword w (n + 1) allow s t ts = assertion w s ts := by
  simp only [keyword, ht, if_true]

theorem keyword_break (ht : t.content = "break".toList) : keyword w (n + 1) allow s t ts = jump allow .brk .brk s ts := by
  simp only [keyword, ht, String.toList_inj, String.reduceEq, if_false, if_true]

theorem keyword_continue (ht : t.content = "continue".toList) : keyword w (n + 1) allow s t ts = jump allow .cont .cont s ts := by
  simp only [keyword, ht, String.toList_inj, String.reduceEq, if_false, if_true]

theorem keyword_delete (ht : t.content = "delete".toList) : keyword w (n + 1) allow s t ts = deletion w s ts := by
  simp only [keyword, ht, String.toList_inj, String.reduceEq, if_false, if_true]

theorem keyword_exit (ht : t.content = "exit".toList) : keyword w (n + 1) allow s t ts = leaving w s ts := by
  simp only [keyword, ht, String.toList_inj, String.reduceEq, if_false, if_true]

/-- The initialisation of a `for` statement. -/
def forInit (w : Site) (n : Nat) (allow : Bool) (s : St) : List Tok → Res (Node × St)
  | [] => .undefined
  | u :: us => if u.ty = .SEMICOLON then .ok (.nop, s) (u :: us) else statement w n false allow s (u :: us)

/-- The last part of the head of a `for` statement. -/
def forStep (w : Site) (n : Nat) (allow : Bool) (s : St) : List Tok → Res (Node × St)
  | [] => .undefined
  | v :: vs => if v.ty = .PARENTHESIS_CLOSE then .ok (.nop, s) (v :: vs) else statement w n true allow s (v :: vs)

theorem keyword_for (ht : t.content = "for".toList) : keyword w (n + 1) allow s t ts =
    ((expect .PARENTHESIS_OPEN ts).bind fun _ ts => (forInit w n allow s.push ts).bind fun i ts => (skip ts).bind fun _ ts =>
      (forCondition w i.2 ts).bind fun c ts => (forStep w n allow i.2 ts).bind fun p ts => (skip ts).bind fun _ ts =>
        (statement w n true allow p.2 ts).bind fun b ts => .ok (.for i.1 c p.1 b.1, b.2.pop) ts) := by
  simp only [keyword, ht, String.toList_inj, String.reduceEq, if_false, if_true]
  congr 1
  funext _ ts
  cases ts with
  | nil => rfl
  | cons u us =>
    simp only [forInit]
    congr 1
    funext i ts
    congr 1
    funext _ ts
    congr 1
    funext c ts
    cases ts <;> rfl

theorem keyword_foreach (ht : t.content = "foreach".toList) : keyword w (n + 1) allow s t ts =
    (foreachHead w s.push ts).bind fun h ts =>
      (statement w n true allow h.2 ts).bind fun b ts => .ok (.foreach h.1.1 h.1.2 b.1, b.2.pop) ts := by
  simp only [keyword, ht, String.toList_inj, String.reduceEq, if_false, if_true]

/-- What follows behind the first branch of an `if` statement. -/
def elseBranch (w : Site) (n : Nat) (allow : Bool) (c : Expr) (b : Node × St) : List Tok → Res (Node × St)
  | [] => .ok (.ite c b.1 .nop, b.2) []
  | u :: us =>
    if isWord u "else" then (statement w n false allow b.2 us).bind fun e ts => .ok (.ite c b.1 e.1, e.2) ts
    else .ok (.ite c b.1 .nop, b.2) (u :: us)

theorem keyword_if (ht : t.content = "if".toList) : keyword w (n + 1) allow s t ts =
    (inParens w s ts).bind fun c ts => (statement w n false allow s ts).bind fun b ts => elseBranch w n allow c b ts := by
  simp only [keyword, ht, String.toList_inj, String.reduceEq, if_false, if_true]
  rfl

theorem keyword_print (ht : t.content = "print".toList) : keyword w (n + 1) allow s t ts = printing w s ts := by
  simp only [keyword, ht, String.toList_inj, String.reduceEq, if_false, if_true]

theorem keyword_return (ht : t.content = "return".toList) : keyword w (n + 1) allow s t ts = returning w s ts := by
  simp only [keyword, ht, String.toList_inj, String.reduceEq, if_false, if_true]

theorem keyword_switch (ht : t.content = "switch".toList) : keyword w (n + 1) allow s t ts =
    (inParens w s ts).bind fun e ts =>
        (expect .BRACKET_CURLY_OPEN ts).bind fun _ ts =>
          (cases w n s [] none ts).bind fun c ts =>
            if w.env.isType e.ty = false then .error
            else (expect .BRACKET_CURLY_CLOSE ts).bind fun _ ts => .ok (.switch e c.1.1 c.1.2, c.2) ts := by
  simp only [keyword, ht, String.toList_inj, String.reduceEq, if_false, if_true]

theorem keyword_throw (ht : t.content = "throw".toList) : keyword w (n + 1) allow s t ts = throwing w s ts := by
  simp only [keyword, ht, String.toList_inj, String.reduceEq, if_false, if_true]

theorem keyword_try (ht : t.content = "try".toList) : keyword w (n + 1) allow s t ts =
      (block w n allow false { s with thrown := [] } ts).bind fun b ts =>
        (expect .BRACKET_CURLY_CLOSE ts).bind fun _ ts =>
          (clauses w n allow b.2 ⟨[], none⟩ ts).bind fun c ts =>
            .ok (.try b.1 c.1.catches c.1.fin,
              { c.2 with thrown := mergeTypes (if c.1.catches.isEmpty then [] else c.2.thrown) s.thrown }) ts := by
  simp only [keyword, ht, String.toList_inj, String.reduceEq, if_false, if_true]

theorem keyword_while (ht : t.content = "while".toList) : keyword w (n + 1) allow s t ts =
      (inParens w s ts).bind fun c ts => (statement w n true allow s ts).bind fun b ts => .ok (.while c b.1, b.2) ts := by
  simp only [keyword, ht, String.toList_inj, String.reduceEq, if_false, if_true]

end Keywords

theorem forInit_text {w : Site} {s : St} {i : Option Simple} {ts rest : List Tok} {m : Tok} (h : OptText (SimpleText w) i ts)
    (hn : Names w s) (hx : ∀ x ∈ optNames i, NotType w x) (hm : Mark .SEMICOLON m) (allow : Bool) (n : Nat) :
    forInit w (n + 2) allow s (ts ++ m :: rest) = Res.ofOption (elabOpt w s i) (m :: rest) := by
  cases h with
  | none => simp only [List.nil_append, forInit, hm.1, if_true]; rfl
  | some i ts h =>
    have := simple_text (rest := rest) h hn hx (.inl hm) false allow n
    obtain ⟨t, r, rfl, -, ht, -⟩ := h.opens
    rw [List.cons_append] at this ⊢
    rw [forInit, if_neg ht, this]
    rfl

theorem forStep_text {w : Site} {s : St} {i : Option Simple} {ts rest : List Tok} {m : Tok} (h : OptText (SimpleText w) i ts)
    (hn : Names w s) (hx : ∀ x ∈ optNames i, NotType w x) (hm : Mark .PARENTHESIS_CLOSE m) (allow : Bool) (n : Nat) :
    forStep w (n + 2) allow s (ts ++ m :: rest) = Res.ofOption (elabOpt w s i) (m :: rest) := by
  cases h with
  | none => simp only [List.nil_append, forStep, hm.1, if_true]; rfl
  | some i ts h =>
    have := simple_text (rest := rest) h hn hx (.inr hm) true allow n
    obtain ⟨t, r, rfl, -, -, ht⟩ := h.opens
    rw [List.cons_append] at this ⊢
    rw [forStep, if_neg ht, this]
    rfl

theorem foreachHead_text {w : Site} {s : St} {o m c : Tok} {d : Decl} {e : Syn} {ds es rest : List Tok} (ho : Mark .PARENTHESIS_OPEN o)
    (hm : Mark .COLON m) (hc : Mark .PARENTHESIS_CLOSE c) (hd : DeclText d ds) (he : ExprText w .arith e es) (hn : Names w s)
    (hx : NotType w d.name) : foreachHead w s (o :: (ds ++ m :: (es ++ c :: rest))) =
      Res.ofOption ((declare w s d).bind fun r => (typedAt w r.2 e).bind fun x =>
        if w.iterates x = false then none else some ((r.1, x), r.2)) rest := by
  simp only [foreachHead, expect_ok _ o _ ho.1, bind_ok, declaration_plain hd hm (.inl rfl)]
  cases hq : declare w s d with
  | none => rfl
  | some q =>
    have hn' := hn.declare hx hq
    simp only [Option.map_some, Res.ofOption, bind_ok, expect_ok _ m _ hm.1, Option.bind_some,
      level_text (by decide) he hn' (hc.ends (rest := rest) (by decide))]
    cases typedAt w q.2 e with
    | none => rfl
    | some x =>
      simp only [bind_ok, Option.bind_some]
      by_cases hi : w.iterates x = false
      · simp only [hi, if_true]
      · simp only [hi, expect_ok _ c _ hc.1, bind_ok, Bool.true_eq_false, if_false]

mutual

theorem Spells.reads {w : Site} {s : Src} {ts : List Tok} : Spells w s ts → ReadsStmt w s ts
  | .empty t ht => fun _ => ⟨[], rfl, by
    intro n inner allow st rest hn hst hf
    obtain ⟨n, rfl⟩ : ∃ k, n = k + 1 := ⟨n - 1, by simp at hn; omega⟩
    exact statement_semicolon ht.1⟩
  | .simple i ts t h ht => fun hfit => ⟨[t], ⟨t, rfl, ht⟩, by
    intro n inner allow st rest hn hst hf
    obtain ⟨n, rfl⟩ : ∃ k, n = k + 2 := ⟨n - 2, by simp at hn; omega⟩
    rw [List.append_assoc]
    exact simple_text h hst hfit (.inl ht) inner allow n⟩
  | .block o c b ts ho hc h => fun hfit => ⟨[], rfl, by
    intro n inner allow st rest hn hst hf
    simp only [List.length_append, List.length_cons, List.length_nil] at hn
    obtain ⟨n, rfl⟩ : ∃ k, n = k + 1 := ⟨n - 1, by omega⟩
    have e1 : (o :: ts ++ [c]) ++ rest = o :: (ts ++ c :: rest) := by simp
    rw [e1, statement_block ho.1, h.reads.block hfit h.nc ho hc (by omega) _ _ hst]
    simp only [isBlock, Bool.and_true, elabStmt, Bool.or_comm inner allow]
    cases (elabList w (allow || inner) st.enter b).bind (leave false) with
    | none => rfl
    | some q => simp only [Res.ofOption, bind_ok, expect_ok _ c _ hc.1, Option.map_some, List.nil_append]⟩
  | .ifThen k o c e t es ts hk ho hc he ht => fun hfit => by
    obtain ⟨l, hl, hr⟩ := ht.reads hfit
    refine ⟨l, hl, ?_⟩
    intro n inner allow st rest hn hst hf
    simp only [List.length_append, List.length_cons] at hn
    obtain ⟨n, rfl⟩ : ∃ k, n = k + 2 := ⟨n - 2, by omega⟩
    have e1 : (k :: o :: es ++ c :: ts) ++ rest = k :: o :: (es ++ c :: (ts ++ rest)) := by simp
    have hf' : Follow t (l ++ rest) := fun u r e => ⟨(hf u r e).1, (hf u r e).2.1, fun _ => (hf u r e).2.2 rfl⟩
    rw [e1, statement_keyword hk.1, keyword_if hk.2, inParens_text ho hc he hst]
    simp only [elabStmt, isBlock, Bool.and_false, Bool.or_false]
    cases typedAt w st e with
    | none => rfl
    | some x =>
      simp only [Res.ofOption, bind_ok, Option.bind_some]
      rw [hr n false allow st rest (by omega) hst hf']
      simp only [Bool.false_and, Bool.or_false]
      cases elabStmt w allow st t with
      | none => rfl
      | some q =>
        simp only [Res.ofOption, bind_ok, Option.map_some]
        cases hlr : l ++ rest with
        | nil => rfl
        | cons u us => rw [elseBranch, (hf u us hlr).2.2 rfl]; rfl
  | .ifElse k o c l e t f es ts fs hk ho hc hl he ht hd hff => fun hfit => by
    obtain ⟨l₁, hl₁, hr₁⟩ := ht.reads hfit.2.1
    obtain ⟨l₂, hl₂, hr₂⟩ := hff.reads hfit.2.2
    rw [Left, hfit.1, if_pos rfl] at hl₁
    subst hl₁
    refine ⟨l₂, hl₂, ?_⟩
    intro n inner allow st rest hn hst hf
    simp only [List.length_append, List.length_cons] at hn
    obtain ⟨n, rfl⟩ : ∃ k, n = k + 2 := ⟨n - 2, by omega⟩
    have e1 : (k :: o :: es ++ c :: ts ++ l :: fs) ++ rest = k :: o :: (es ++ c :: (ts ++ (l :: (fs ++ rest)))) := by simp
    have hf₁ : Follow t ([] ++ (l :: (fs ++ rest))) := by
      intro u r e
      cases e
      exact ⟨by rw [hl.2]; decide, by rw [hl.2]; decide, fun h => by rw [hd] at h; cases h⟩
    rw [e1, statement_keyword hk.1, keyword_if hk.2, inParens_text ho hc he hst]
    simp only [elabStmt, isBlock, Bool.and_false, Bool.or_false]
    cases typedAt w st e with
    | none => rfl
    | some x =>
      simp only [Res.ofOption, bind_ok, Option.bind_some]
      rw [hr₁ n false allow st _ (by omega) hst hf₁]
      simp only [Bool.false_and, Bool.or_false]
      cases hq : elabStmt w allow st t with
      | none => rfl
      | some q =>
        have hw : isWord l "else" = true := by simp [isWord, hl.1, hl.2]
        have hst' := Names.stmt w allow t st q hfit.2.1 hst hq
        simp only [Res.ofOption, bind_ok, Option.bind_some, List.nil_append, elseBranch, hw, if_true]
        rw [hr₂ n false allow q.2 rest (by omega) hst' hf]
        simp only [Bool.false_and, Bool.or_false]
        cases elabStmt w allow q.2 f <;> rfl
  | .while k o c e b es ts hk ho hc he hb => fun hfit => by
    obtain ⟨l, hl, hr⟩ := hb.reads hfit.2
    refine ⟨l, hl, ?_⟩
    intro n inner allow st rest hn hst hf
    simp only [List.length_append, List.length_cons] at hn
    obtain ⟨n, rfl⟩ : ∃ k, n = k + 2 := ⟨n - 2, by omega⟩
    have e1 : (k :: o :: es ++ c :: ts) ++ rest = k :: o :: (es ++ c :: (ts ++ rest)) := by simp
    rw [e1, statement_keyword hk.1, keyword_while hk.2, inParens_text ho hc he hst]
    simp only [elabStmt, isBlock, Bool.and_false, Bool.or_false]
    cases typedAt w st e with
    | none => rfl
    | some x =>
      simp only [Res.ofOption, bind_ok, Option.bind_some]
      rw [hr n true allow st rest (by omega) hst hf, elab_body hfit.1]
      cases elabStmt w true st b <;> rfl
  | .for k o m₁ m₂ c i e p b is es ps ts hk ho h₁ h₂ hc hi he hp hb => fun hfit => by
    obtain ⟨l, hl, hr⟩ := hb.reads hfit.2.2.2
    refine ⟨l, hl, ?_⟩
    intro n inner allow st rest hn hst hf
    simp only [List.length_append, List.length_cons] at hn
    obtain ⟨n, rfl⟩ : ∃ k, n = k + 4 := ⟨n - 4, by omega⟩
    have e1 : (k :: o :: is ++ m₁ :: es ++ m₂ :: ps ++ c :: ts) ++ rest =
        k :: o :: (is ++ m₁ :: (es ++ m₂ :: (ps ++ c :: (ts ++ rest)))) := by simp
    rw [e1, statement_keyword hk.1, keyword_for hk.2, expect_ok _ o _ ho.1, bind_ok, forInit_text hi hst.push hfit.1 h₁]
    simp only [elabStmt, isBlock, Bool.and_false, Bool.or_false]
    cases hx : elabOpt w st.push i with
    | none => rfl
    | some x =>
      have hst₁ := hst.push.opt hfit.1 hx
      simp only [Res.ofOption, bind_ok, Option.bind_some, skip]
      rw [forCondition_text h₂ he hst₁]
      cases typedOpt w x.2 e with
      | none => rfl
      | some y =>
        simp only [Res.ofOption, bind_ok, Option.bind_some]
        rw [forStep_text hp hst₁ hfit.2.1 hc]
        cases hz : elabOpt w x.2 p with
        | none => rfl
        | some z =>
          simp only [Res.ofOption, bind_ok, Option.bind_some]
          rw [hr (n + 2) true allow z.2 rest (by omega) (hst₁.opt hfit.2.1 hz) hf, elab_body hfit.2.2.1]
          cases elabStmt w true z.2 b <;> rfl
  | .foreach k o m c d e b ds es ts hk ho hm hc hd he hb => fun hfit => by
    obtain ⟨l, hl, hr⟩ := hb.reads hfit.2.2
    refine ⟨l, hl, ?_⟩
    intro n inner allow st rest hn hst hf
    simp only [List.length_append, List.length_cons] at hn
    obtain ⟨n, rfl⟩ : ∃ k, n = k + 2 := ⟨n - 2, by omega⟩
    have e1 : (k :: o :: ds ++ m :: es ++ c :: ts) ++ rest = k :: o :: (ds ++ m :: (es ++ c :: (ts ++ rest))) := by simp
    rw [e1, statement_keyword hk.1, keyword_foreach hk.2, foreachHead_text ho hm hc hd he hst.push hfit.1]
    simp only [elabStmt, isBlock, Bool.and_false, Bool.or_false]
    cases hq : declare w st.push d with
    | none => rfl
    | some q =>
      simp only [Option.bind_some]
      cases typedAt w q.2 e with
      | none => rfl
      | some x =>
        simp only [Option.bind_some]
        by_cases hi : w.iterates x = false
        · simp only [hi, if_true]; rfl
        · simp only [hi, Bool.true_eq_false, if_false, Res.ofOption, bind_ok]
          rw [hr n true allow q.2 rest (by omega) (hst.push.declare hfit.1 hq) hf, elab_body hfit.2.1]
          cases elabStmt w true q.2 b <;> rfl
  | .switch k o c bo bc e cs es ts hk ho hc hbo hbc he hcs => fun hfit => ⟨[], rfl, by
    intro n inner allow st rest hn hst hf
    simp only [List.length_append, List.length_cons] at hn
    obtain ⟨n, rfl⟩ : ∃ k, n = k + 2 := ⟨n - 2, by omega⟩
    have e1 : (k :: o :: es ++ c :: bo :: ts ++ [bc]) ++ rest = k :: o :: (es ++ c :: (bo :: (ts ++ bc :: rest))) := by simp
    rw [e1, statement_keyword hk.1, keyword_switch hk.2, inParens_text ho hc he hst]
    simp only [elabStmt, isBlock, Bool.and_false, Bool.or_false]
    cases typedAt w st e with
    | none => rfl
    | some x =>
      simp only [Res.ofOption, bind_ok, Option.bind_some, expect_ok _ bo _ hbo.1]
      rw [hcs.reads hfit n st [] none bc rest (by omega) hst hbc]
      cases elabCases w st [] none cs with
      | none => rfl
      | some q =>
        simp only [Res.ofOption, bind_ok, Option.bind_some]
        by_cases hi : w.env.isType x.ty = false
        · simp only [hi, if_true]
        · simp only [hi, Bool.true_eq_false, if_false, expect_ok _ bc _ hbc.1, bind_ok, List.nil_append]⟩
  | .try k o c b hs ts us hk ho hc hb hh => fun hfit => ⟨[], rfl, by
    intro n inner allow st rest hn hst hf
    simp only [List.length_append, List.length_cons] at hn
    obtain ⟨n, rfl⟩ : ∃ k, n = k + 2 := ⟨n - 2, by omega⟩
    have e1 : (k :: o :: ts ++ c :: us) ++ rest = k :: o :: (ts ++ c :: (us ++ rest)) := by simp
    have hst₀ : Names w { st with thrown := [] } := hst.of_scopes rfl
    rw [e1, statement_keyword hk.1, keyword_try hk.2, hb.reads.block hfit.1 hb.nc ho hc (by omega) _ _ hst₀]
    simp only [elabStmt, isBlock, Bool.and_false, Bool.or_false]
    cases hq : (elabList w allow { st with thrown := [] }.enter b).bind (leave false) with
    | none => rfl
    | some q =>
      obtain ⟨p, hp, hq⟩ := Option.bind_eq_some_iff.1 hq
      have hst₁ : Names w q.2 := (Names.list w allow b _ p hfit.1 hst₀.enter hp).leave hq
      simp only [Res.ofOption, bind_ok, Option.bind_some, expect_ok _ c _ hc.1]
      rw [hh.reads hfit.2 n allow q.2 ⟨[], none⟩ rest (by omega) hst₁ fun t r e => ⟨(hf t r e).1, (hf t r e).2.1⟩]
      cases elabHandlers w allow q.2 ⟨[], none⟩ hs <;> rfl⟩
  | .ret k m e es hk hm he => fun _ => ⟨[], rfl, by
    intro n inner allow st rest hn hst hf
    simp only [List.length_append, List.length_cons] at hn
    obtain ⟨n, rfl⟩ : ∃ k, n = k + 2 := ⟨n - 2, by omega⟩
    have e1 : (k :: es ++ [m]) ++ rest = k :: (es ++ m :: rest) := by simp
    rw [e1, statement_keyword hk.1, keyword_return hk.2, returning, optional_text hm he hst]
    simp only [elabStmt]
    cases typedOpt w st e with
    | none => rfl
    | some x =>
      simp only [Res.ofOption, bind_ok, Option.bind_some, expect_ok _ m _ hm.1]
      by_cases h : w.result = resultType x
      · simp only [h, ne_eq, not_true_eq_false, if_false, if_true, List.nil_append]
      · simp only [h, ne_eq, not_false_eq_true, if_true, if_false]⟩
  | .throw k m e es hk hm he => fun _ => ⟨[], rfl, by
    intro n inner allow st rest hn hst hf
    simp only [List.length_append, List.length_cons] at hn
    obtain ⟨n, rfl⟩ : ∃ k, n = k + 2 := ⟨n - 2, by omega⟩
    have e1 : (k :: es ++ [m]) ++ rest = k :: (es ++ m :: rest) := by simp
    rw [e1, statement_keyword hk.1, keyword_throw hk.2, throwing, optional_text hm he hst]
    simp only [elabStmt]
    cases typedOpt w st e with
    | none => rfl
    | some x => simp only [Res.ofOption, bind_ok, Option.map_some, expect_ok _ m _ hm.1, List.nil_append]⟩
  | .brk k m hk hm => fun _ => ⟨[], rfl, by
    intro n inner allow st rest hn hst hf
    simp only [List.length_cons] at hn
    obtain ⟨n, rfl⟩ : ∃ k, n = k + 2 := ⟨n - 2, by omega⟩
    simp only [List.cons_append, List.nil_append]
    rw [statement_keyword hk.1, keyword_break hk.2, jump, expect_ok _ m _ hm.1]
    simp only [elabStmt, isBlock, Bool.and_false, Bool.or_false]
    cases allow <;> rfl⟩
  | .cont k m hk hm => fun _ => ⟨[], rfl, by
    intro n inner allow st rest hn hst hf
    simp only [List.length_cons] at hn
    obtain ⟨n, rfl⟩ : ∃ k, n = k + 2 := ⟨n - 2, by omega⟩
    simp only [List.cons_append, List.nil_append]
    rw [statement_keyword hk.1, keyword_continue hk.2, jump, expect_ok _ m _ hm.1]
    simp only [elabStmt, isBlock, Bool.and_false, Bool.or_false]
    cases allow <;> rfl⟩
  | .assert k o c m e es hk ho hc hm he => fun _ => ⟨[m], ⟨m, rfl, hm⟩, by
    intro n inner allow st rest hn hst hf
    simp only [List.length_append, List.length_cons] at hn
    obtain ⟨n, rfl⟩ : ∃ k, n = k + 2 := ⟨n - 2, by omega⟩
    have e1 : (k :: o :: es ++ [c, m]) ++ rest = k :: o :: (es ++ c :: m :: rest) := by simp
    rw [e1, statement_keyword hk.1, keyword_assert hk.2, assertion, expect_ok _ o _ ho.1, bind_ok,
      expression_text he hst (hc.ends (by decide))]
    simp only [elabStmt]
    cases typedAt w st e with
    | none => rfl
    | some x =>
      have : c.ty ≠ .COMMA := by rw [hc.1]; decide
      simp only [Res.ofOption, bind_ok, Option.bind_some, expect_ok _ c _ hc.1, this, if_false, typedOpt, Option.map_some,
        List.cons_append, List.nil_append]⟩
  | .assertMsg k o p c m e f es fs hk ho hp hc hm he hf => fun _ => ⟨[m], ⟨m, rfl, hm⟩, by
    intro n inner allow st rest hn hst hf'
    simp only [List.length_append, List.length_cons] at hn
    obtain ⟨n, rfl⟩ : ∃ k, n = k + 2 := ⟨n - 2, by omega⟩
    have e1 : (k :: o :: es ++ p :: fs ++ [c, m]) ++ rest = k :: o :: (es ++ p :: (fs ++ c :: m :: rest)) := by simp
    rw [e1, statement_keyword hk.1, keyword_assert hk.2, assertion, expect_ok _ o _ ho.1, bind_ok,
      expression_text he hst (hp.ends (by decide))]
    simp only [elabStmt]
    cases typedAt w st e with
    | none => rfl
    | some x =>
      simp only [Res.ofOption, bind_ok, Option.bind_some, hp.1, if_true, typedOpt]
      rw [expression_text hf hst (hc.ends (by decide))]
      cases typedAt w st f with
      | none => rfl
      | some y => simp only [Res.ofOption, bind_ok, expect_ok _ c _ hc.1, Option.map_some, List.cons_append, List.nil_append]⟩
  | .print k o c m e es hk ho hc hm he => fun _ => ⟨[], rfl, by
    intro n inner allow st rest hn hst hf
    simp only [List.length_append, List.length_cons] at hn
    obtain ⟨n, rfl⟩ : ∃ k, n = k + 2 := ⟨n - 2, by omega⟩
    have e1 : (k :: o :: es ++ [c, m]) ++ rest = k :: o :: (es ++ c :: m :: rest) := by simp
    rw [e1, statement_keyword hk.1, keyword_print hk.2, printing, inParens_text ho hc he hst]
    simp only [elabStmt]
    cases typedAt w st e with
    | none => rfl
    | some x => simp only [Res.ofOption, bind_ok, expect_ok _ m _ hm.1, Option.map_some, List.nil_append]⟩
  | .exit k o c m e es hk ho hc hm he => fun _ => ⟨[], rfl, by
    intro n inner allow st rest hn hst hf
    simp only [List.length_append, List.length_cons] at hn
    obtain ⟨n, rfl⟩ : ∃ k, n = k + 2 := ⟨n - 2, by omega⟩
    have e1 : (k :: o :: es ++ [c, m]) ++ rest = k :: o :: (es ++ c :: m :: rest) := by simp
    rw [e1, statement_keyword hk.1, keyword_exit hk.2, leaving, inParens_text ho hc he hst]
    simp only [elabStmt]
    cases typedAt w st e with
    | none => rfl
    | some x => simp only [Res.ofOption, bind_ok, expect_ok _ m _ hm.1, Option.map_some, List.nil_append]⟩
  | .delete k m e es hk hm he => fun _ => ⟨[], rfl, by
    intro n inner allow st rest hn hst hf
    simp only [List.length_append, List.length_cons] at hn
    obtain ⟨n, rfl⟩ : ∃ k, n = k + 2 := ⟨n - 2, by omega⟩
    have e1 : (k :: es ++ [m]) ++ rest = k :: (es ++ m :: rest) := by simp
    rw [e1, statement_keyword hk.1, keyword_delete hk.2, deletion, expression_text he hst (hm.ends (by decide))]
    simp only [elabStmt]
    cases typedAt w st e with
    | none => rfl
    | some x => simp only [Res.ofOption, bind_ok, expect_ok _ m _ hm.1, Option.map_some, List.nil_append]⟩

theorem SpellsList.reads {w : Site} {b : List Src} {ts : List Tok} : SpellsList w b ts → ReadsList w b ts
  | .nil => by
    intro _ n allow st hn _
    obtain ⟨n, rfl⟩ : ∃ k, n = k + 1 := ⟨n - 1, by omega⟩
    rfl
  | .cons s b ts us h hb => by
    intro hfit n allow st hn hst
    obtain ⟨l, hl, hr⟩ := h.reads hfit.1
    have hlist := hb.reads hfit.2
    obtain ⟨t, r, rfl, ht⟩ := h.opens
    simp only [List.length_append, List.length_cons] at hn
    obtain ⟨n, rfl⟩ : ∃ k, n = k + 2 := ⟨n - 2, by omega⟩
    have hfol : Follow s (l ++ us) := by
      unfold Left at hl
      split at hl
      · subst hl
        cases hb with
        | nil => intro _ _ e; cases e
        | cons s' b' ts' us' h' hb' =>
          obtain ⟨t', r', rfl, ht'⟩ := h'.opens
          exact Follow.opens ht'
      · obtain ⟨m, rfl, hm⟩ := hl
        exact Follow.opens hm.opens
    have hs := hr (n + 1) false allow st us (by simp only [List.length_cons]; omega) hst hfol
    simp only [Bool.false_and, Bool.or_false, List.cons_append] at hs
    simp only [List.cons_append, statements, ht.1, if_false, hs, elabList]
    cases hq : elabStmt w allow st s with
    | none => rfl
    | some q =>
      have hst' := Names.stmt w allow s st q hfit.1 hst hq
      simp only [Res.ofOption, bind_ok, Option.bind_some]
      have : statements w (n + 1) allow q.2 (l ++ us) = Res.ofOption (elabList w allow q.2 b) [] := by
        unfold Left at hl
        split at hl
        · subst hl
          exact hlist (n + 1) allow q.2 (by omega) hst'
        · obtain ⟨m, rfl, hm⟩ := hl
          have hm' : m.ty ≠ .ENDOFFILE := by rw [hm.1]; decide
          obtain ⟨n, rfl⟩ : ∃ k, n = k + 1 := ⟨n - 1, by omega⟩
          simp only [List.cons_append, List.nil_append, statements, hm', if_false]
          rw [statement_semicolon hm.1, bind_ok, hlist (n + 1) allow q.2 (by omega) hst']
          cases elabList w allow q.2 b <;> rfl
      rw [this]
      cases elabList w allow q.2 b <;> rfl

theorem SpellsCases.reads {w : Site} {cs : List (Option Syn × List Src)} {ts : List Tok} : SpellsCases w cs ts → ReadsCases w cs ts
  | .nil => by
    intro _ n st acc d c rest hn hst hc
    obtain ⟨n, rfl⟩ : ∃ k, n = k + 1 := ⟨n - 1, by omega⟩
    simp only [List.nil_append, cases, hc.1, if_true]
    rfl
  | .case k m o c e b cs es ts us hk hm ho hc he hb hs => by
    intro hfit n st acc d c' rest hn hst hc'
    simp only [List.length_append, List.length_cons] at hn
    obtain ⟨n, rfl⟩ : ∃ k, n = k + 1 := ⟨n - 1, by omega⟩
    have e1 : (k :: es ++ m :: o :: ts ++ c :: us) ++ c' :: rest = k :: (es ++ m :: (o :: (ts ++ c :: (us ++ c' :: rest)))) := by simp
    have h1 : k.ty ≠ .BRACKET_CURLY_CLOSE := by rw [hk.1]; decide
    have h2 : isWord k "case" = true := by simp [isWord, hk.1, hk.2]
    rw [e1]
    simp only [cases, h1, h2, if_false, if_true, elabCases]
    rw [expression_text he hst (hm.ends (by decide))]
    cases typedAt w st e with
    | none => rfl
    | some x =>
      simp only [Res.ofOption, bind_ok, Option.bind_some, expect_ok _ m _ hm.1]
      rw [hb.reads.block hfit.1 hb.nc ho hc (by omega) _ _ hst]
      cases hq : (elabList w true st.enter b).bind (leave true) with
      | none => rfl
      | some q =>
        obtain ⟨p, hp, hq⟩ := Option.bind_eq_some_iff.1 hq
        have hst₁ : Names w q.2 := (Names.list w true b _ p hfit.1 hst.enter hp).leave hq
        simp only [Res.ofOption, bind_ok, Option.bind_some, expect_ok _ c _ hc.1]
        exact hs.reads hfit.2 n q.2 _ d c' rest (by omega) hst₁ hc'
  | .default k m o c b cs ts us hk hm ho hc hb hs => by
    intro hfit n st acc d c' rest hn hst hc'
    simp only [List.length_append, List.length_cons] at hn
    obtain ⟨n, rfl⟩ : ∃ k, n = k + 1 := ⟨n - 1, by omega⟩
    have e1 : (k :: m :: o :: ts ++ c :: us) ++ c' :: rest = k :: (m :: (o :: (ts ++ c :: (us ++ c' :: rest)))) := by simp
    have h1 : k.ty ≠ .BRACKET_CURLY_CLOSE := by rw [hk.1]; decide
    have h2 : isWord k "case" = false := by
      have : ("default".toList = "case".toList) = False := by decide
      simp only [isWord, hk.2, this, and_false, decide_false]
    have h3 : isWord k "default" = true := by simp [isWord, hk.1, hk.2]
    rw [e1]
    simp only [cases, h1, h2, h3, if_false, if_true, elabCases, Bool.false_eq_true]
    by_cases hd : d.isSome = true
    · simp only [hd, if_true]; rfl
    · simp only [hd, expect_ok _ m _ hm.1, bind_ok, Bool.false_eq_true, if_false]
      rw [hb.reads.block hfit.1 hb.nc ho hc (by omega) _ _ hst]
      cases hq : (elabList w true st.enter b).bind (leave true) with
      | none => rfl
      | some q =>
        obtain ⟨p, hp, hq⟩ := Option.bind_eq_some_iff.1 hq
        have hst₁ : Names w q.2 := (Names.list w true b _ p hfit.1 hst.enter hp).leave hq
        simp only [Res.ofOption, bind_ok, Option.bind_some, expect_ok _ c _ hc.1]
        exact hs.reads hfit.2 n q.2 _ _ c' rest (by omega) hst₁ hc'

theorem SpellsHandlers.reads {w : Site} {hs : List (Handler × List Src)} {ts : List Tok} : SpellsHandlers w hs ts → ReadsHandlers w hs ts
  | .nil => by
    intro _ n allow st c rest hn hst hf
    obtain ⟨n, rfl⟩ : ∃ k, n = k + 1 := ⟨n - 1, by omega⟩
    cases rest with
    | nil => rfl
    | cons t r =>
      have := hf t r rfl
      simp only [List.nil_append, clauses, this.1, this.2, if_false]
      rfl
  | .catchAll k o c b hs ts us hk ho hc hb hr => by
    intro hfit n allow st cl rest hn hst hf
    simp only [List.length_append, List.length_cons] at hn
    obtain ⟨n, rfl⟩ : ∃ k, n = k + 1 := ⟨n - 1, by omega⟩
    have e1 : (k :: o :: ts ++ c :: us) ++ rest = k :: (o :: (ts ++ c :: (us ++ rest))) := by simp
    have hst₀ : Names w { st.push with thrown := [] } := hst.push.of_scopes rfl
    have h1 : o.ty ≠ .PARENTHESIS_OPEN := by rw [ho.1]; decide
    rw [e1]
    simp only [clauses, hk.2, if_true, catchHead, h1, if_false, bind_ok, elabHandlers]
    rw [hb.reads.block hfit.1 hb.nc ho hc (by omega) _ _ hst₀]
    cases hq : (elabList w allow { st.push with thrown := [] }.enter b).bind (leave false) with
    | none => rfl
    | some q =>
      obtain ⟨p, hp, hq⟩ := Option.bind_eq_some_iff.1 hq
      have hst₁ : Names w q.2 := (Names.list w allow b _ p hfit.1 hst₀.enter hp).leave hq
      simp only [Res.ofOption, bind_ok, Option.bind_some, expect_ok _ c _ hc.1]
      exact hr.reads hfit.2 n allow q.2.pop _ rest (by omega) hst₁.pop hf
  | .catch k p q o c d b hs ds ts us hk hp hq ho hc hd hb hr => by
    intro hfit n allow st cl rest hn hst hf
    simp only [List.length_append, List.length_cons] at hn
    obtain ⟨n, rfl⟩ : ∃ k, n = k + 1 := ⟨n - 1, by omega⟩
    have e1 : (k :: p :: ds ++ q :: o :: ts ++ c :: us) ++ rest = k :: (p :: (ds ++ q :: (o :: (ts ++ c :: (us ++ rest))))) := by simp
    rw [e1]
    simp only [clauses, hk.2, if_true, catchHead, hp.1, elabHandlers, declaration_plain hd hq (.inr rfl)]
    cases hx : declare w st.push d with
    | none => rfl
    | some x =>
      have hst₀ : Names w { x.2 with thrown := x.2.thrown.erase x.1.ty } := (hst.push.declare hfit.1 hx).of_scopes rfl
      simp only [Res.ofOption, bind_ok, Option.bind_some, Option.map_some, expect_ok _ q _ hq.1]
      rw [hb.reads.block hfit.2.1 hb.nc ho hc (by omega) _ _ hst₀]
      cases hy : (elabList w allow { x.2 with thrown := x.2.thrown.erase x.1.ty }.enter b).bind (leave false) with
      | none => rfl
      | some y =>
        obtain ⟨z, hz, hy⟩ := Option.bind_eq_some_iff.1 hy
        have hst₁ : Names w y.2 := (Names.list w allow b _ z hfit.2.1 hst₀.enter hz).leave hy
        simp only [Res.ofOption, bind_ok, Option.bind_some, expect_ok _ c _ hc.1]
        exact hr.reads hfit.2.2 n allow y.2.pop _ rest (by omega) hst₁.pop hf
  | .fin k o c b hs ts us hk ho hc hb hr => by
    intro hfit n allow st cl rest hn hst hf
    simp only [List.length_append, List.length_cons] at hn
    obtain ⟨n, rfl⟩ : ∃ k, n = k + 1 := ⟨n - 1, by omega⟩
    have e1 : (k :: o :: ts ++ c :: us) ++ rest = k :: (o :: (ts ++ c :: (us ++ rest))) := by simp
    have h1 : ("finally".toList = "catch".toList) = False := by decide
    rw [e1]
    simp only [clauses, hk.2, h1, if_true, if_false, elabHandlers]
    by_cases hfin : (cl.fin.any (!·.isEmpty)) = true
    · simp only [hfin, if_true]; rfl
    · simp only [hfin, Bool.false_eq_true, if_false]
      rw [hb.reads.block hfit.1 hb.nc ho hc (by omega) _ _ hst]
      cases hq : (elabList w allow st.enter b).bind (leave false) with
      | none => rfl
      | some q =>
        obtain ⟨p, hp, hq⟩ := Option.bind_eq_some_iff.1 hq
        have hst₁ : Names w q.2 := (Names.list w allow b _ p hfit.1 hst.enter hp).leave hq
        simp only [Res.ofOption, bind_ok, Option.bind_some, expect_ok _ c _ hc.1]
        exact hr.reads hfit.2 n allow q.2 _ rest (by omega) hst₁ hf

end

end Verif.Stmt
