import Verif.Brackets.Model
import Verif.Brackets.Spec

/-! # Properties C20, C21, C76 -/

namespace Verif.Brackets

open Verif.Lex

/-! ## Matching brackets -/

/-- Inside of an enclosing bracket, or at its level with something open, a well-nested part is skipped. -/
theorem findBalanced_skip {opn cls : Ty} (hne : opn ≠ cls) {limit : Nat} {term : Option Ty} {a : List Tok}
    (h : Nested opn cls a) : ∀ (rest : List Tok) (o : Int) (n : Nat), 0 ≤ o →
      (∀ t ∈ a, some t.ty ≠ term) → (limit = 0 ∨ n + a.length ≤ limit) →
      findBalanced opn cls limit term (a ++ rest) o n = findBalanced opn cls limit term rest o (n + a.length) := by
  induction h with
  | nil => intros; rfl
  | @other t ts h1 h2 _ ih =>
    intro rest o n ho ht hl
    simp only [List.length_cons] at hl
    have e : ¬ (limit ≠ 0 ∧ n ≥ limit) := by omega
    rw [List.cons_append]
    simp only [findBalanced, ne_eq, h1, h2, not_false_eq_true, true_or, if_true, if_false, ht t (by simp), e]
    rw [ih rest o (n + 1) ho (fun t h => ht t (by simp [h])) (by omega)]
    simp only [List.length_cons]; congr 1; omega
  | @group op c a b h1 h2 _ _ iha ihb =>
    intro rest o n ho ht hl
    simp only [List.length_cons, List.length_append] at hl
    have e : ¬ (limit ≠ 0 ∧ n ≥ limit) := by omega
    have e' : ¬ (limit ≠ 0 ∧ n + 1 + a.length ≥ limit) := by omega
    have hto : some opn ≠ term := h1 ▸ ht op (by simp)
    have htc : some cls ≠ term := h2 ▸ ht c (by simp)
    rw [List.cons_append, List.append_assoc]
    simp only [findBalanced, ne_eq, hne, not_false_eq_true, true_or, if_true, if_false, h1, hto, e]
    rw [iha _ (o + 1) (n + 1) (by omega) (fun t h => ht t (by simp [h])) (by omega)]
    rw [List.cons_append]
    have h0 : ¬ o + 1 = 0 := by omega
    simp only [findBalanced, ne_eq, h0, not_false_eq_true, or_true, if_true, if_false, h2, Ne.symm hne, htc, e']
    rw [show o + 1 - 1 = o by omega, ihb rest o _ ho (fun t h => ht t (by simp [h])) (by omega)]
    simp only [List.length_cons, List.length_append]; congr 1; omega

/-- **C20**, brackets and parentheses: from behind an opening bracket, the search stops exactly at the matching
closing one, however deeply brackets are nested in between, whatever follows. -/
theorem balanced_found {opn cls : Ty} (hne : opn ≠ cls) (limit : Nat) (term : Option Ty) (body rest : List Tok) (c : Tok)
    (hc : c.ty = cls) (h : Nested opn cls body) (ht : ∀ t ∈ body, some t.ty ≠ term) (hl : limit = 0 ∨ body.length ≤ limit) :
    findBalanced opn cls limit term (body ++ c :: rest) 0 0 = .at body.length := by
  rw [findBalanced_skip hne h (c :: rest) 0 0 (by omega) ht (by omega)]
  simp [findBalanced, hc]

/-- `( a ( b ) ( ( ) ) ) x`, seen from behind the first parenthesis. -/
example : (let p (ty : Ty) : Tok := ⟨.none, ty, [], 1, false⟩
    let o := p .PARENTHESIS_OPEN; let c := p .PARENTHESIS_CLOSE; let a := p .IDENTIFIER
    Nested .PARENTHESIS_OPEN .PARENTHESIS_CLOSE [a, o, a, c, o, o, c, c] ∧
    findBalanced .PARENTHESIS_OPEN .PARENTHESIS_CLOSE 0 none [a, o, a, c, o, o, c, c, c, a] 0 0 = .at 8) := by
  refine ⟨?_, by decide⟩
  refine .other (by decide) (by decide) (.group (a := [_]) (b := [_, _, _, _]) rfl rfl
    (.other (by decide) (by decide) .nil) ?_)
  exact .group (a := [_, _]) (b := []) rfl rfl (.group (a := []) (b := []) rfl rfl .nil .nil) .nil

theorem findCurly_skip {a : List Tok} (h : Nested .BRACKET_CURLY_OPEN .BRACKET_CURLY_CLOSE a) :
    ∀ (rest : List Tok) (o : Int) (n : Nat), 0 < o →
      findCurly 0 (some .BRACKET_CURLY_CLOSE) (a ++ rest) o n =
        findCurly 0 (some .BRACKET_CURLY_CLOSE) rest o (n + a.length) := by
  induction h with
  | nil => intros; rfl
  | @other t ts h1 h2 _ ih =>
    intro rest o n ho
    have h0 : ¬ o = 0 := by omega
    rw [List.cons_append]
    simp only [findCurly, ne_eq, h1, h2, not_false_eq_true, true_or, if_true, if_false, h0, false_and, not_true_eq_false]
    rw [ih rest o (n + 1) ho]
    simp only [List.length_cons]; congr 1; omega
  | @group op c a b h1 h2 _ _ iha ihb =>
    intro rest o n ho
    have h0 : ¬ o + 1 = 0 := by omega
    have h0' : ¬ o = 0 := by omega
    rw [List.cons_append, List.append_assoc]
    simp only [findCurly, ne_eq, h1, reduceCtorEq, not_false_eq_true, true_or, if_true, if_false, h0, false_and,
      not_true_eq_false]
    rw [iha _ (o + 1) (n + 1) (by omega), List.cons_append]
    simp only [findCurly, ne_eq, h2, h0, reduceCtorEq, not_false_eq_true, or_true, if_true, if_false, false_and,
      not_true_eq_false, show o + 1 - 1 = o by omega, h0']
    rw [ihb rest o _ ho]
    simp only [List.length_cons, List.length_append]; congr 1; omega

theorem findCurly_block {body rest : List Tok} {o c : Tok} (ho : o.ty = .BRACKET_CURLY_OPEN)
    (hc : c.ty = .BRACKET_CURLY_CLOSE) (h : Nested .BRACKET_CURLY_OPEN .BRACKET_CURLY_CLOSE body) :
    findCurly 0 (some .BRACKET_CURLY_CLOSE) (o :: (body ++ c :: rest)) 0 0 = .at (body.length + 1) := by
  simp only [findCurly, ne_eq, ho, reduceCtorEq, not_false_eq_true, true_or, if_true, if_false, Int.zero_add,
    not_true_eq_false, Int.reduceEq, false_and]
  rw [findCurly_skip h _ 1 1 (by omega)]
  simp only [findCurly, ne_eq, hc, reduceCtorEq, Int.reduceEq, not_false_eq_true, or_true, if_true, if_false,
    Int.sub_self, and_self]
  congr 1; omega

/-- **C20**, blocks of statements: the extractor used for statements returns exactly the tokens between an
opening curly bracket and its match, and stays at the match. -/
theorem statement_block_extracted (body rest : List Tok) (o c : Tok) (ho : o.ty = .BRACKET_CURLY_OPEN)
    (hc : c.ty = .BRACKET_CURLY_CLOSE) (h : Nested .BRACKET_CURLY_OPEN .BRACKET_CURLY_CLOSE body) :
    collectTree (o :: (body ++ c :: rest)) = .ok body (c :: rest) := by
  simp only [collectTree, ho, ne_eq, not_true_eq_false, if_false, findCurly_block ho hc h, Nat.add_sub_cancel,
    List.drop_left, List.take_left, hc]

theorem collectLoop_skip {a : List Tok} (h : Nested .BRACKET_CURLY_OPEN .BRACKET_CURLY_CLOSE a) :
    ∀ (rest : List Tok) (s : Int) (acc : List Tok), 0 ≤ s →
      collectLoop (a ++ rest) s acc = collectLoop rest s (a.reverse ++ acc) := by
  induction h with
  | nil => intros; rfl
  | @other t ts h1 h2 _ ih =>
    intro rest s acc hs
    rw [List.cons_append]
    simp only [collectLoop, ne_eq, h1, h2, not_false_eq_true, true_or, if_true, if_false]
    rw [ih rest s _ hs]; simp
  | @group op c a b h1 h2 _ _ iha ihb =>
    intro rest s acc hs
    have h0 : s + 1 > 0 := by omega
    rw [List.cons_append, List.append_assoc]
    simp only [collectLoop, ne_eq, h1, reduceCtorEq, not_false_eq_true, true_or, if_true, if_false]
    rw [iha _ (s + 1) _ (by omega), List.cons_append]
    simp only [collectLoop, ne_eq, h2, h0, reduceCtorEq, or_true, if_true, if_false, show s + 1 - 1 = s by omega]
    rw [ihb rest s _ hs]; simp

/-- **C20**, bodies of classes, methods and namespaces: the same for the extractor used for declarations. -/
theorem declaration_block_extracted (body rest : List Tok) (o c : Tok) (ho : o.ty = .BRACKET_CURLY_OPEN)
    (hc : c.ty = .BRACKET_CURLY_CLOSE) (h : Nested .BRACKET_CURLY_OPEN .BRACKET_CURLY_CLOSE body) :
    collectDesigntime (o :: (body ++ c :: rest)) = .ok body (c :: rest) := by
  simp only [collectDesigntime, ho, ne_eq, not_true_eq_false, if_false]
  rw [collectLoop_skip h _ 0 [] (by omega)]
  simp [collectLoop, hc]

/-- The search of the statement extractor, one bracket deeper, and the loop of the declaration extractor. -/
theorem findCurly_collectLoop (l : List Tok) : ∀ (s : Int) (n : Nat) (acc : List Tok), 0 ≤ s →
    (findCurly 0 (some .BRACKET_CURLY_CLOSE) l (s + 1) n = .undefined ∧ collectLoop l s acc = .undefined) ∨
    ∃ m c, findCurly 0 (some .BRACKET_CURLY_CLOSE) l (s + 1) n = .at (n + m) ∧
      l.drop m = c :: l.drop (m + 1) ∧ c.ty = .BRACKET_CURLY_CLOSE ∧
      collectLoop l s acc = .ok (acc.reverse ++ l.take m) (l.drop m) := by
  induction l with
  | nil => intro s n acc hs; left; simp only [findCurly, collectLoop, and_true]; rw [if_pos (by omega)]
  | cons t l ih =>
    intro s n acc hs
    have h0 : ¬ s + 1 = 0 := by omega
    have step : ∀ s' : Int, 0 ≤ s' → findCurly 0 (some .BRACKET_CURLY_CLOSE) (t :: l) (s + 1) n =
          findCurly 0 (some .BRACKET_CURLY_CLOSE) l (s' + 1) (n + 1) →
        collectLoop (t :: l) s acc = collectLoop l s' (t :: acc) →
        (findCurly 0 (some .BRACKET_CURLY_CLOSE) (t :: l) (s + 1) n = .undefined ∧
          collectLoop (t :: l) s acc = .undefined) ∨
        ∃ m c, findCurly 0 (some .BRACKET_CURLY_CLOSE) (t :: l) (s + 1) n = .at (n + m) ∧
          (t :: l).drop m = c :: (t :: l).drop (m + 1) ∧ c.ty = .BRACKET_CURLY_CLOSE ∧
          collectLoop (t :: l) s acc = .ok (acc.reverse ++ (t :: l).take m) ((t :: l).drop m) := by
      intro s' hs' e1 e2
      rw [e1, e2]
      rcases ih s' (n + 1) (t :: acc) hs' with h | ⟨m, c, h1, h2, h3, h4⟩
      · exact Or.inl h
      · refine Or.inr ⟨m + 1, c, ?_, by simpa using h2, h3, by simpa using h4⟩
        rw [h1]; congr 1; omega
    by_cases h1 : t.ty = .BRACKET_CURLY_OPEN
    · have e : ¬ s + 1 + 1 = 0 := by omega
      exact step (s + 1) (by omega) (by simp [findCurly, h1]) (by simp [collectLoop, h1])
    · by_cases h2 : t.ty = .BRACKET_CURLY_CLOSE
      · by_cases h3 : s = 0
        · subst h3
          refine Or.inr ⟨0, t, ?_, rfl, h2, ?_⟩
          · simp [findCurly, h2]
          · simp [collectLoop, h2]
        · have e : s > 0 := by omega
          refine step (s - 1) (by omega) ?_ ?_
          · have e1 : s + 1 - 1 = s := by omega
            have e2 : s - 1 + 1 = s := by omega
            simp [findCurly, h2, e1, e2, h3, h0]
          · simp [collectLoop, h2, e]
      · refine step s hs ?_ ?_
        · simp [findCurly, h1, h2, h0]
        · simp [collectLoop, h1, h2]

/-- **C20**: the two extractors agree on every stream, well nested or not. -/
theorem extractors_agree (ts : List Tok) : collectTree ts = collectDesigntime ts := by
  cases ts with
  | nil => rfl
  | cons t ts =>
    simp only [collectTree, collectDesigntime]
    by_cases ho : t.ty = .BRACKET_CURLY_OPEN
    · have e : findCurly 0 (some .BRACKET_CURLY_CLOSE) (t :: ts) 0 0 =
          findCurly 0 (some .BRACKET_CURLY_CLOSE) ts (0 + 1) 1 := by simp [findCurly, ho]
      simp only [ho, ne_eq, not_true_eq_false, if_false, e]
      rcases findCurly_collectLoop ts 0 1 [] (by omega) with ⟨h1, h2⟩ | ⟨m, c, h1, h2, h3, h4⟩
      · rw [h1, h2]
      · rw [h1, h4]
        simp only [Nat.add_sub_cancel_left, List.reverse_nil, List.nil_append]
        rw [h2]
        simp [h3]
    · simp [ho]

/-- **C20**: what the extractors return, if anything, is followed by a closing bracket, and nothing is lost: together
with the brackets it is the stream. -/
theorem extracted_block_sound (ts body rest : List Tok) (h : collectDesigntime ts = .ok body rest) :
    ∃ o c tail, o.ty = .BRACKET_CURLY_OPEN ∧ c.ty = .BRACKET_CURLY_CLOSE ∧ rest = c :: tail ∧
      ts = o :: (body ++ c :: tail) := by
  have loop : ∀ (l : List Tok) (s : Int) (acc : List Tok), collectLoop l s acc = .ok body rest →
      ∃ c tail, c.ty = .BRACKET_CURLY_CLOSE ∧ rest = c :: tail ∧ acc.reverse ++ l = body ++ c :: tail := by
    intro l
    induction l with
    | nil => intro s acc h; cases h
    | cons t l ih =>
      intro s acc h
      simp only [collectLoop] at h
      split at h
      · obtain ⟨c, tail, h1, h2, h3⟩ := ih _ _ h
        exact ⟨c, tail, h1, h2, by simpa using h3⟩
      · rename_i hc
        cases h
        refine ⟨t, l, ?_, rfl, rfl⟩
        by_cases e : t.ty = .BRACKET_CURLY_CLOSE
        · exact e
        · exact absurd (Or.inl e) hc
  cases ts with
  | nil => cases h
  | cons t ts =>
    simp only [collectDesigntime] at h
    split at h
    · cases h
    · rename_i ho
      obtain ⟨c, tail, h1, h2, h3⟩ := loop _ _ _ h
      refine ⟨t, c, tail, ?_, h1, h2, by simpa using h3⟩
      by_cases e : t.ty = .BRACKET_CURLY_OPEN
      · exact e
      · exact absurd e ho

/-- `{ a { } { b } } c` -/
example : (let p (ty : Ty) : Tok := ⟨.none, ty, [], 1, false⟩
    let o := p .BRACKET_CURLY_OPEN; let c := p .BRACKET_CURLY_CLOSE; let a := p .IDENTIFIER
    Nested .BRACKET_CURLY_OPEN .BRACKET_CURLY_CLOSE [a, o, c, o, a, c] ∧
    collectTree [o, a, o, c, o, a, c, c, a] = .ok [a, o, c, o, a, c] [c, a] ∧
    collectDesigntime [o, a, o, c, o, a, c, c, a] = .ok [a, o, c, o, a, c] [c, a]) := by
  refine ⟨?_, by decide, by decide⟩
  exact .other (by decide) (by decide) (.group (a := []) (b := [_, _, _]) rfl rfl .nil
    (.group (a := [_]) (b := []) rfl rfl (.other (by decide) (by decide) .nil) .nil))

/-! ## The sanity check -/

theorem openCount_eq {opn cls : Ty} (hne : opn ≠ cls) (ts : List Tok) :
    openCount opn cls ts = (number opn ts : Int) - number cls ts := by
  have h : ∀ (ts : List Tok) (o : Int), ts.foldl (fun o t =>
      let o := if t.ty = opn then o + 1 else o
      if t.ty = cls then o - 1 else o) o = o + number opn ts - number cls ts := by
    intro ts
    induction ts with
    | nil => intro o; simp [number]
    | cons t ts ih =>
      intro o
      rw [List.foldl_cons, ih]
      by_cases h1 : t.ty = opn
      · have h2 : t.ty ≠ cls := by rw [h1]; exact hne
        simp [number, h1, hne]; omega
      · by_cases h2 : t.ty = cls
        · simp [number, h2, Ne.symm hne]; omega
        · simp [number, h1, h2]
  unfold openCount
  rw [h]; omega

/-- **C21**: the sanity check accepts a source exactly if it has as many opening as closing brackets of each kind. -/
theorem sane_iff_balanced (ts : List Tok) : sane ts = true ↔
    number .BRACKET_OPEN ts = number .BRACKET_CLOSE ts ∧
    number .BRACKET_CURLY_OPEN ts = number .BRACKET_CURLY_CLOSE ts ∧
    number .PARENTHESIS_OPEN ts = number .PARENTHESIS_CLOSE ts := by
  unfold sane
  rw [openCount_eq (by decide), openCount_eq (by decide), openCount_eq (by decide)]
  simp only [Bool.and_eq_true, beq_iff_eq]
  omega

theorem number_append (ty : Ty) (a b : List Tok) : number ty (a ++ b) = number ty a + number ty b := by
  simp [number]

theorem number_cons (ty : Ty) (t : Tok) (b : List Tok) : number ty (t :: b) = (if t.ty = ty then 1 else 0) + number ty b := by
  unfold number
  by_cases h : t.ty = ty
  · simp [h]; omega
  · simp [h]

/-- **C21**: every properly nested source is accepted. -/
theorem proper_sane (ts : List Tok) (h : Proper ts) : sane ts = true := by
  rw [sane_iff_balanced]
  induction h with
  | nil => decide
  | other h _ ih =>
    simp only [List.mem_cons, List.not_mem_nil, or_false, not_or] at h
    obtain ⟨h1, h2, h3, h4, h5, h6⟩ := h
    simp only [number_cons, h1, h2, h3, h4, h5, h6, if_false]
    simpa using ih
  | group h _ _ iha ihb =>
    simp only [List.mem_cons, Prod.mk.injEq, List.not_mem_nil, or_false] at h
    simp only [number_cons, number_append]
    rcases h with ⟨h1, h2⟩ | ⟨h1, h2⟩ | ⟨h1, h2⟩ <;> simp [h1, h2] <;> omega

/-- A properly nested source: `f ( [ x ] ) { ( ) }`. -/
example : (let p (ty : Ty) : Tok := ⟨.none, ty, [], 1, false⟩
    Proper [p .IDENTIFIER, p .PARENTHESIS_OPEN, p .BRACKET_OPEN, p .IDENTIFIER, p .BRACKET_CLOSE, p .PARENTHESIS_CLOSE,
      p .BRACKET_CURLY_OPEN, p .PARENTHESIS_OPEN, p .PARENTHESIS_CLOSE, p .BRACKET_CURLY_CLOSE]) := by
  refine .other (by decide) (.group (a := [_, _, _]) (b := [_, _, _, _]) (by decide)
    (.group (a := [_]) (b := []) (by decide) (.other (by decide) .nil) .nil)
    (.group (a := [_, _]) (b := []) (by decide) (.group (a := []) (b := []) (by decide) .nil .nil) .nil))

/-! ## Reading past the end -/

/-- **C76** is false: a source can pass the sanity check and make both extractors read past its end, because the
check only counts brackets. -/
theorem sane_source_overrun_refuted : ∃ ts front block : List Tok, ts = front ++ block ∧ sane ts = true ∧
    collectTree block = .undefined ∧ collectDesigntime block = .undefined := by
  let p (ty : Ty) : Tok := ⟨.none, ty, [], 1, false⟩
  exact ⟨[p .BRACKET_CURLY_CLOSE, p .BRACKET_CURLY_OPEN, p .SEMICOLON], [p .BRACKET_CURLY_CLOSE],
    [p .BRACKET_CURLY_OPEN, p .SEMICOLON], rfl, by decide, by decide, by decide⟩

/-- The tokens open more and more curly brackets than they close, at every point from the start on. -/
theorem collectLoop_total (ts : List Tok) : ∀ (s : Int) (acc : List Tok), 0 ≤ s →
    s + number .BRACKET_CURLY_OPEN ts < number .BRACKET_CURLY_CLOSE ts → collectLoop ts s acc ≠ .undefined := by
  induction ts with
  | nil => intro s acc hs h; simp [number] at h; omega
  | cons t ts ih =>
    intro s acc hs h
    rw [number_cons, number_cons] at h
    simp only [collectLoop]
    split
    · rename_i hc
      by_cases h1 : t.ty = .BRACKET_CURLY_OPEN
      · simp only [h1, reduceCtorEq, if_true, if_false] at h ⊢
        exact ih _ _ (by omega) (by omega)
      · by_cases h2 : t.ty = .BRACKET_CURLY_CLOSE
        · simp only [h2, reduceCtorEq, if_true, if_false] at h ⊢
          have hs' : s > 0 := by rcases hc with hc | hc; exact absurd h2 hc; exact hc
          exact ih _ _ (by omega) (by omega)
        · simp only [h1, h2, if_false] at h ⊢
          exact ih _ _ hs (by omega)
    · intro h; cases h

/-- **C76** holds at an opening bracket if the rest of the source closes as many curly brackets as it opens (counting
that one), which is so if the part in front of it is balanced.  `_partial`: the sanity check does not ensure it for every
bracket, see `sane_source_overrun_refuted`. -/
theorem sane_source_no_overrun_partial (front : List Tok) (o : Tok) (rest : List Tok) (hs : sane (front ++ o :: rest) = true)
    (ho : o.ty = .BRACKET_CURLY_OPEN)
    (hf : number .BRACKET_CURLY_CLOSE front ≤ number .BRACKET_CURLY_OPEN front) :
    collectDesigntime (o :: rest) ≠ .undefined := by
  obtain ⟨-, h, -⟩ := (sane_iff_balanced _).1 hs
  rw [number_append, number_append, number_cons, number_cons] at h
  simp only [ho, reduceCtorEq, if_true, if_false] at h
  simp only [collectDesigntime, ho, ne_eq, not_true_eq_false, if_false]
  exact collectLoop_total rest 0 [] (by omega) (by omega)

end Verif.Brackets
