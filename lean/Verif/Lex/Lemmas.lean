import Verif.Lex.Spec

namespace Verif.Lex

open Verif.Str

theorem run_append (s : St) (a b : Text) : run s (a ++ b) = (run s a).bind fun s' => run s' b := by
  induction a generalizing s with
  | nil => simp [run]
  | cons c a ih =>
    simp only [List.cons_append, run]
    cases step s c with
    | none => rfl
    | some s' => simp [ih]

/-- A state outside of strings and comments. -/
def clean (T : List Tok) (w : Text) (p : Char) (l : Nat) : St := ⟨T, w, false, false, false, false, p, l⟩

/-- The tokens for a pending word. -/
def flush (w : Text) (l : Nat) : List Tok := if w = [] then [] else mk w l

theorem openComment_clean {T w p l c} (hh : c ≠ '#') (hp : ¬ (p = '/' ∧ (c = '/' ∨ c = '*'))) :
    openComment (clean T w p l) c = some (clean T w p l) := by
  have h1 : ¬ (p = '/' ∧ c = '/') := fun h => hp ⟨h.1, Or.inl h.2⟩
  have h2 : ¬ (p = '/' ∧ c = '*') := fun h => hp ⟨h.1, Or.inr h.2⟩
  simp [openComment, clean, hh, h1, h2]

theorem readChar_delim {T w p l c} (hd : c ∈ delimiters) (hq : c ≠ '"') :
    readChar (clean T w p l) c = (clean (T ++ flush w l ++ mk [c] l) [] p l, c) := by
  have hn : c ≠ nul := by rintro rfl; revert hd; decide
  by_cases hw : w = []
  · subst hw; simp [readChar, clean, hd, hq, hn, flush]
  · simp [readChar, clean, hd, hq, hn, flush, hw]

/-- Reading a delimiter. -/
theorem step_delim {T w p l c} (hd : c ∈ delimiters) (hq : c ≠ '"') (hh : c ≠ '#')
    (hp : ¬ (p = '/' ∧ (c = '/' ∨ c = '*'))) :
    step (clean T w p l) c =
      some (clean (T ++ flush w l ++ mk [c] l) [] (if c = '\n' then nul else c) (if c = '\n' then l + 1 else l)) := by
  simp only [step, openComment_clean hh hp, Option.map_some, Option.some.injEq]
  have := readChar_delim (T := T) (w := w) (p := p) (l := l) hd hq
  simp only [show (clean T w p l).multi = false from rfl, show (clean T w p l).single = false from rfl, Bool.not_false,
    Bool.and_self, if_true, this]
  by_cases h10 : c = '\n'
  · subst h10; simp [endChar, clean]
  · simp [endChar, clean, h10]

theorem readChar_word {T w p l c} (hd : c ∉ delimiters) (hn : c ≠ nul) :
    readChar (clean T w p l) c = (clean T (w ++ [c]) p l, c) := by
  have hq : c ≠ '"' := by rintro rfl; exact hd (by decide)
  simp [readChar, clean, hd, hq, hn]

/-- Reading a character of a word. -/
theorem step_word {T w p l c} (hd : c ∉ delimiters) (hn : c ≠ nul) :
    step (clean T w p l) c = some (clean T (w ++ [c]) c l) := by
  have hh : c ≠ '#' := by rintro rfl; exact hd (by decide)
  have h1 : c ≠ '/' := by rintro rfl; exact hd (by decide)
  have h2 : c ≠ '*' := by rintro rfl; exact hd (by decide)
  have h3 : c ≠ '\n' := by rintro rfl; exact hd (by decide)
  simp only [step, openComment_clean hh (fun h => h.2.elim h1 h2), Option.map_some, Option.some.injEq]
  simp only [show (clean T w p l).multi = false from rfl, show (clean T w p l).single = false from rfl, Bool.not_false,
    Bool.and_self, if_true, readChar_word hd hn]
  simp [endChar, clean, h3]

/-- Reading a word. -/
theorem run_word {T v p l} (w : Text) (hw : ∀ c ∈ w, c ∉ delimiters ∧ c ≠ nul) :
    run (clean T v p l) w = some (clean T (v ++ w) (w.getLast?.getD p) l) := by
  induction w generalizing v p with
  | nil => simp [run]
  | cons c w ih =>
    have hc := hw c (by simp)
    simp only [run, step_word hc.1 hc.2, Option.bind_some]
    rw [ih (fun d hd => hw d (by simp [hd]))]
    simp [List.getLast?_cons]

/-! ### Line comments -/

/-- Within a line comment (opened by '#', with a word possibly pending). -/
def inLine (T : List Tok) (w : Text) (p : Char) (l : Nat) : St := ⟨T, w, false, false, true, false, p, l⟩

theorem step_inLine {T w p l c} (h : c ≠ '\n') : step (inLine T w p l) c = some (inLine T w c l) := by
  simp [step, openComment, inLine, endChar, h]

theorem step_inLine_end {T w p l} : step (inLine T w p l) '\n' = some (clean T w nul (l + 1)) := by
  simp [step, openComment, inLine, endChar, clean]

theorem run_inLine {T w p l} (t : Text) (h : '\n' ∉ t) :
    run (inLine T w p l) (t ++ ['\n']) = some (clean T w nul (l + 1)) := by
  induction t generalizing p with
  | nil => simp [run, step_inLine_end]
  | cons c t ih =>
    simp only [List.mem_cons, not_or] at h
    simp only [List.cons_append, run, step_inLine (Ne.symm h.1), Option.bind_some]
    exact ih h.2

theorem step_hash {T w p l} : step (clean T w p l) '#' = some (inLine T w '#' l) := by
  simp [step, openComment, clean, inLine, endChar]

theorem run_hash {T w p l} (t : Text) (h : '\n' ∉ t) :
    run (clean T w p l) ('#' :: (t ++ ['\n'])) = some (clean T w nul (l + 1)) := by
  simp only [run, step_hash, Option.bind_some]
  exact run_inLine t h

theorem mk_slash (l : Nat) : mk ['/'] l = [⟨.operator, .MATH_DIVIDE, ['/'], l, false⟩] := rfl

theorem step_slash_slash {T l t} : step (clean (T ++ [t]) [] '/' l) '/' = some (inLine T [] '/' l) := by
  simp [step, openComment, clean, inLine, endChar]

theorem run_slashes {T w p l} (t : Text) (hp : p ≠ '/') (h : '\n' ∉ t) :
    run (clean T w p l) ('/' :: '/' :: (t ++ ['\n'])) = some (clean (T ++ flush w l) [] nul (l + 1)) := by
  rw [run, step_delim (by decide) (by decide) (by decide) (by simp [hp])]
  simp only [Option.bind_some, mk_slash, run]
  rw [show (if '/' = '\n' then nul else '/') = '/' from rfl, show (if '/' = '\n' then l + 1 else l) = l from rfl,
    step_slash_slash]
  exact run_inLine t h

/-! ### Block comments -/

def inBlock (T : List Tok) (p : Char) (l : Nat) : St := ⟨T, [], false, true, false, false, p, l⟩

theorem step_slash_star {T l t} : step (clean (T ++ [t]) [] '/' l) '*' = some (inBlock T '*' l) := by
  simp [step, openComment, clean, inBlock, endChar]

theorem step_inBlock {T p l c} (h : ¬ (p = '*' ∧ c = '/')) :
    step (inBlock T p l) c = some (inBlock T (if c = '\n' then nul else c) (if c = '\n' then l + 1 else l)) := by
  by_cases h10 : c = '\n'
  · subst h10; simp [step, openComment, inBlock, endChar]
  · simp [step, openComment, inBlock, endChar, h10, h]

theorem step_inBlock_end {T l} : step (inBlock T '*' l) '/' = some (clean T [] '/' l) := by
  simp [step, openComment, inBlock, endChar, clean]

theorem run_inBlock {T p q l} (t : Text) (hq : p = '*' → q = '*') (h : NoClose (q :: t)) :
    run (inBlock T p l) (t ++ ['*', '/']) = some (clean T [] '/' (l + t.count '\n')) := by
  induction t generalizing p q l with
  | nil =>
    simp only [List.nil_append, run]
    rw [step_inBlock (by simp)]
    simp [step_inBlock_end]
  | cons c t ih =>
    simp only [List.cons_append, run]
    rw [step_inBlock (fun hh => h.1 ⟨hq hh.1, hh.2⟩)]
    simp only [Option.bind_some]
    rw [ih (q := c) (by by_cases h10 : c = '\n' <;> simp [h10, nul]) h.2]
    by_cases h10 : c = '\n'
    · subst h10; simp [Nat.add_left_comm, Nat.add_comm]
    · simp [h10]

theorem run_block {T w p l} (t : Text) (hp : p ≠ '/') (h : NoClose ('*' :: t)) :
    run (clean T w p l) ('/' :: '*' :: (t ++ ['*', '/'])) =
      some (clean (T ++ flush w l) [] '/' (l + t.count '\n')) := by
  rw [run, step_delim (by decide) (by decide) (by decide) (by simp [hp])]
  simp only [Option.bind_some, mk_slash, run]
  rw [show (if '/' = '\n' then nul else '/') = '/' from rfl, show (if '/' = '\n' then l + 1 else l) = l from rfl,
    step_slash_star]
  exact run_inBlock (q := '*') t (fun _ => rfl) h

/-! ### String literals -/

def inStr (T : List Tok) (w : Text) (p : Char) (l : Nat) : St := ⟨T, w, false, false, false, true, p, l⟩

theorem step_quote {T p l} : step (clean T [] p l) '"' = some (inStr T ['"'] '"' l) := by
  simp [step, openComment, clean, inStr, endChar, readChar, nul]

theorem step_quote_end {T w p l} (hw : w ≠ []) :
    step (inStr T w p l) '"' = some (clean (T ++ mk (w ++ ['"']) l) [] nul l) := by
  simp [step, openComment, clean, inStr, endChar, readChar, hw, delimiters, controlChars, nul]

theorem step_inStr {T w p l c} (h1 : c ≠ '"') (h2 : c ≠ '\\') (h3 : c ≠ nul) :
    step (inStr T w p l) c =
      some (inStr T (w ++ [c]) (if c = '\n' then nul else c) (if c = '\n' then l + 1 else l)) := by
  by_cases h10 : c = '\n'
  · subst h10; simp [step, openComment, inStr, endChar, readChar, h3]
  · simp [step, openComment, inStr, endChar, readChar, h1, h2, h3, h10]

theorem run_escaped {T w p l c} :
    run (inStr T w p l) ['\\', c] = some (inStr T (w ++ [c]) nul l) := by
  simp [run, step, openComment, inStr, endChar, readChar, nul]

theorem run_strChars {T w p l} (cs : List StrChar) (h : (Piece.literal cs).Ok) :
    ∃ p', run (inStr T w p l) (renderStr cs) =
      some (inStr T (w ++ cs.map StrChar.char) p' (l + (Piece.literal cs).lines)) := by
  induction cs generalizing w p l with
  | nil => exact ⟨p, by simp [renderStr, run, Piece.lines]⟩
  | cons x cs ih =>
    have hx := h x (by simp)
    have hcs : (Piece.literal cs).Ok := fun y hy => h y (by simp [hy])
    have hr : renderStr (x :: cs) = (if x.escaped then ['\\', x.char] else [x.char]) ++ renderStr cs := rfl
    rw [hr, run_append]
    by_cases he : x.escaped = true
    · rw [if_pos he, run_escaped]
      obtain ⟨p', hp'⟩ := ih (w := w ++ [x.char]) (p := nul) (l := l) hcs
      refine ⟨p', ?_⟩
      simp only [Option.bind_some, hp']
      simp [Piece.lines, he]
    · obtain ⟨h1, h2, h3⟩ := hx.resolve_left he
      rw [if_neg he]
      simp only [run, step_inStr h1 h2 h3, Option.bind_some]
      obtain ⟨p', hp'⟩ := ih (w := w ++ [x.char]) (p := if x.char = '\n' then nul else x.char)
        (l := if x.char = '\n' then l + 1 else l) hcs
      refine ⟨p', ?_⟩
      rw [hp']
      by_cases h10 : x.char = '\n'
      · simp [Piece.lines, he, h10, Nat.add_assoc, Nat.add_comm]
      · simp [Piece.lines, he, h10]

/-- The token of a literal. -/
theorem mk_literal (w : Text) (l : Nat) :
    mk ('"' :: (w ++ ['"'])) l = [⟨.constant, .CONST_LITERAL, w, l, false⟩] := by
  have hne : ∀ (u : Text), u.head? ≠ some '"' → ('"' :: (w ++ ['"'])) ≠ u := by
    intro u hu h; apply hu; rw [← h]; rfl
  have hnm : ∀ (L : List Text), (∀ u ∈ L, u.head? ≠ some '"') → ('"' :: (w ++ ['"'])) ∉ L :=
    fun L hL h => hne _ (hL _ h) rfl
  have hnum : ∀ c, isNumberWith c ('"' :: (w ++ ['"'])) = false := by
    intro c
    have : ('"' :: (w ++ ['"'])).dropLast = '"' :: w := by
      rw [← List.cons_append, List.dropLast_concat]
    rw [isNumberWith, this]
    simp [isDigitChar]
  have hlit : isLiteral ('"' :: (w ++ ['"'])) = true := by
    have : ('"' :: (w ++ ['"'])).getLast? = some '"' := by rw [← List.cons_append, List.getLast?_concat]
    simp [isLiteral, this]
  have hc : classify ('"' :: (w ++ ['"'])) = some (classifyWord ('"' :: (w ++ ['"']))) := rfl
  have hw : classifyWord ('"' :: (w ++ ['"'])) = (.constant, .CONST_LITERAL, w, false) := by
    unfold classifyWord
    rw [if_neg (hne _ (by decide)), if_neg (hne _ (by decide)), if_neg (hnm _ (by decide)), if_neg (hnm _ (by decide)),
      hnum, hnum, hnum]
    have hi : isInteger ('"' :: (w ++ ['"'])) = false := by simp [isInteger, isDigitChar]
    rw [hi, if_neg (hnm _ (by decide)), if_neg (hnm _ (by decide)), hlit]
    simp
  rw [mk, hc, hw]

theorem run_literal {T p l} (cs : List StrChar) (h : (Piece.literal cs).Ok) :
    run (clean T [] p l) (Piece.literal cs).render =
      some (clean (T ++ (Piece.literal cs).expect l) [] nul (l + (Piece.literal cs).lines)) := by
  rw [Piece.render, run, step_quote]
  simp only [Option.bind_some]
  rw [run_append]
  obtain ⟨p', hp'⟩ := run_strChars (T := T) (w := ['"']) (p := '"') (l := l) cs h
  rw [hp']
  simp only [Option.bind_some, run]
  rw [step_quote_end (by simp)]
  simp only [List.cons_append, List.nil_append]
  rw [mk_literal]
  rfl

/-! ### All pieces -/

theorem mk_blank {c : Char} (h : c ∈ whitespaces) (l : Nat) : mk [c] l = [] := by
  simp only [whitespaces, List.mem_cons, List.not_mem_nil, or_false] at h
  rcases h with rfl | rfl | rfl | rfl <;> rfl

theorem symbols_delim {c : Char} (h : c ∈ symbols) : c ∈ delimiters ∧ c ≠ '"' ∧ c ≠ '#' ∧ c ≠ '\n' := by
  have : ∀ c ∈ symbols, c ∈ delimiters ∧ c ≠ '"' ∧ c ≠ '#' ∧ c ≠ '\n' := by decide
  exact this c h

theorem blanks_delim {c : Char} (h : c ∈ whitespaces) : c ∈ delimiters ∧ c ≠ '"' ∧ c ≠ '#' ∧ c ≠ '/' ∧ c ≠ '*' := by
  have : ∀ c ∈ whitespaces, c ∈ delimiters ∧ c ≠ '"' ∧ c ≠ '#' ∧ c ≠ '/' ∧ c ≠ '*' := by decide
  exact this c h

/-- The word that is pending after a piece. -/
def pending : Option Piece → Text
  | some (.word w) => w
  | _ => []

/-- The tokens of the text so far that have already been added: all but that of a pending word. -/
theorem flush_pending (p : Option Piece) (l : Nat) :
    flush (pending p) l = match p with | some (.word w) => flush w l | _ => [] := by
  cases p with
  | none => rfl
  | some p => cases p <;> rfl

/-- After a slash the state remembers it only for the pieces for which `Follows` forbids the next character. -/
def PrevOk (p : Option Piece) (c : Char) : Prop :=
  c = '/' → p = some (.sym '/') ∨ ∃ t, p = some (.block t)

theorem mk_word_ne {w : Text} (h : w ≠ []) (l : Nat) : flush w l = mk w l := if_neg h

/-- The tokens added while reading a piece itself: a word is added when the next character is read. -/
def Piece.early (l : Nat) : Piece → List Tok
  | .word _ => []
  | q => q.expect l

theorem run_pieces (ps : List Piece) : ∀ (p : Option Piece) (T : List Tok) (c : Char) (l : Nat),
    PrevOk p c → (∀ w, p = some (.word w) → w ≠ []) → WellFormed p ps →
    ∃ c', run (clean T (pending p) c l) (render ps) =
      some (clean (T ++ flush (pending p) l ++ expect l ps) [] c' (l + (ps.map Piece.lines).sum)) := by
  induction ps with
  | nil =>
    intro p T c l _ _ hwf
    have : pending p = [] := by
      cases p with
      | none => rfl
      | some p => cases p <;> first | rfl | exact absurd hwf (by simp [WellFormed])
    rw [this]
    exact ⟨c, by simp [render, run, flush, expect]⟩
  | cons q ps ih =>
    intro p T c l hc hne hwf
    have hwf' : q.Ok ∧ Follows p q ∧ WellFormed (some q) ps := by
      cases p with
      | none => exact hwf
      | some p => cases p <;> exact hwf
    obtain ⟨hok, hfol, hrest⟩ := hwf'
    have hcons : render (q :: ps) = q.render ++ render ps := rfl
    rw [hcons, run_append]
    -- what reading `q` does
    have key : ∃ c', PrevOk (some q) c' ∧ run (clean T (pending p) c l) q.render =
        some (clean (T ++ flush (pending p) l ++ q.early l) (pending (some q)) c'
          (l + q.lines)) := by
      have slash : (∀ p', p = some p' → p' ≠ .sym '/' ∧ ∀ t, p' ≠ .block t) → c ≠ '/' := by
        intro h hcc
        rcases hc hcc with h1 | ⟨t, h1⟩
        · exact (h _ h1).1 rfl
        · exact (h _ h1).2 t rfl
      cases q with
      | word w =>
        obtain ⟨hw, hwc⟩ := hok
        have hp : pending p = [] := by
          cases p with
          | none => rfl
          | some p => cases p <;> first | rfl | exact absurd hfol (by simp [Follows])
        rw [hp]
        refine ⟨w.getLast?.getD c, ?_, ?_⟩
        · intro h
          exfalso
          have := List.getLast?_eq_some_getLast hw
          rw [this] at h
          have h2 := (hwc _ (List.getLast_mem hw)).1
          simp only [Option.getD_some] at h
          rw [h] at h2
          exact h2 (by decide)
        · rw [Piece.render, run_word w hwc]
          have h0 : w.count '\n' = 0 := by
            apply List.count_eq_zero.2
            intro h; exact (hwc _ h).1 (by decide)
          simp [pending, flush, Piece.lines, Piece.render, h0, Piece.early]
      | sym d =>
        obtain ⟨h1, h2, h3, h4⟩ := symbols_delim hok
        refine ⟨d, ?_, ?_⟩
        · intro h; left; rw [h]
        · have hp : ¬ (c = '/' ∧ (d = '/' ∨ d = '*')) := by
            rintro ⟨rfl, hd⟩
            rcases hc rfl with h | ⟨t, h⟩
            · subst h; exact hfol ⟨rfl, hd⟩
            · subst h; exact hd.elim hfol.1 hfol.2
          simp only [Piece.render, run, step_delim h1 h2 h3 hp, Option.bind_some]
          simp [h4, Piece.early, Piece.expect, pending, Piece.lines, Piece.render]
          all_goals exact fun h => h4 h.symm
      | blank d =>
        obtain ⟨h1, h2, h3, h4, h5⟩ := blanks_delim hok
        refine ⟨if d = '\n' then nul else d, ?_, ?_⟩
        · intro h
          by_cases h10 : d = '\n'
          · rw [if_pos h10] at h; exact absurd h (by decide)
          · rw [if_neg h10] at h; exact absurd h h4
        · have hp : ¬ (c = '/' ∧ (d = '/' ∨ d = '*')) := fun h => h.2.elim h4 h5
          simp only [Piece.render, run, step_delim h1 h2 h3 hp, Option.bind_some, mk_blank hok]
          by_cases h10 : d = '\n'
          · simp [h10, Piece.early, Piece.expect, pending, Piece.lines, Piece.render]
          · simp [h10, Piece.early, Piece.expect, pending, Piece.lines, Piece.render]
      | literal cs =>
        have hp : pending p = [] := by
          cases p with
          | none => rfl
          | some p => cases p <;> first | rfl | exact absurd hfol (by simp [Follows])
        rw [hp]
        refine ⟨nul, fun h => absurd h (by decide), ?_⟩
        rw [run_literal cs hok]
        simp [flush, pending, Piece.early]
      | hash t =>
        have hp : pending p = [] := by
          cases p with
          | none => rfl
          | some p => cases p <;> first | rfl | exact absurd hfol (by simp [Follows])
        rw [hp]
        refine ⟨nul, fun h => absurd h (by decide), ?_⟩
        rw [Piece.render, run_hash t hok]
        have h0 : t.count '\n' = 0 := List.count_eq_zero.2 hok
        simp [flush, pending, Piece.early, Piece.expect, Piece.lines, Piece.render, h0, List.count_append]
      | slashes t =>
        have hcs : c ≠ '/' := by
          apply slash
          rintro p' rfl
          refine ⟨?_, ?_⟩
          · rintro rfl; exact hfol rfl
          · rintro t rfl; exact hfol
        refine ⟨nul, fun h => absurd h (by decide), ?_⟩
        rw [Piece.render, run_slashes t hcs hok]
        have h0 : t.count '\n' = 0 := List.count_eq_zero.2 hok
        simp [pending, Piece.early, Piece.expect, Piece.lines, Piece.render, h0, List.count_append]
      | block t =>
        have hcs : c ≠ '/' := by
          apply slash
          rintro p' rfl
          refine ⟨?_, ?_⟩
          · rintro rfl; exact hfol rfl
          · rintro t rfl; exact hfol
        refine ⟨'/', fun _ => Or.inr ⟨t, rfl⟩, ?_⟩
        rw [Piece.render, run_block t hcs hok]
        simp [pending, Piece.early, Piece.expect, Piece.lines, Piece.render, List.count_append]
    obtain ⟨c', hc', hrun⟩ := key
    rw [hrun]
    simp only [Option.bind_some]
    have hne' : ∀ w, some q = some (.word w) → w ≠ [] := by
      intro w h; cases h; exact hok.1
    obtain ⟨c'', hc''⟩ := ih (some q) (T ++ flush (pending p) l ++ q.early l) c'
      (l + q.lines) hc' hne' hrest
    refine ⟨c'', ?_⟩
    rw [hc'']
    have e1 : q.early l ++ flush (pending (some q)) (l + q.lines) = q.expect l := by
      cases q with
      | word w =>
        have h0 : w.count '\n' = 0 := by
          apply List.count_eq_zero.2
          intro h; exact (hok.2 _ h).1 (by decide)
        simp [pending, flush, hok.1, Piece.early, Piece.expect, Piece.lines, Piece.render, h0]
      | _ => simp [pending, flush, Piece.early]
    simp only [expect, List.map_cons, List.sum_cons, List.append_assoc] at *
    rw [← List.append_assoc (q.early l), e1]
    rw [Nat.add_assoc]

/-- The terminating 0 character changes nothing. -/
theorem step_nul_clean {T w p l} : step (clean T w p l) nul = some (clean T w nul l) := by
  simp [step, openComment, clean, endChar, readChar, nul]

end Verif.Lex
