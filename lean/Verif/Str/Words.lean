import Verif.Str.Lemmas

/-!
# The word splitter (`Projects/Utils/Parsers/Tokenizer.cpp`) and `LineParser`
-/

namespace Verif.Str

/-- `Utils::Tokenizer` (Tokenizer.h): text, delimiters, offset, last token. -/
structure WordSplitter where
  str : Text
  delimiters : List Char
  offset : Nat
  token : Text
deriving Repr

/-- Tokenizer.cpp:18. -/
def defaultDelimiters : List Char := [' ', '\t', '\n', '\r', ';']

/-- Constructor (Tokenizer.cpp:21-26). -/
def WordSplitter.new (s : Text) (delimiters : List Char) : WordSplitter :=
  { str := s, delimiters := if delimiters.isEmpty then defaultDelimiters else delimiters, offset := 0, token := [] }

/-- `find_first_of(set, pos)`: nothing is found from a position behind the text. -/
def findFirstOfFrom (set : List Char) (s : Text) (pos : Nat) : Option Nat :=
  (findFirstOf set (s.drop pos)).map (· + pos)

/-- `find_first_not_of(set, pos)`. -/
def findFirstNotOfFrom (set : List Char) (s : Text) (pos : Nat) : Option Nat :=
  (findFirstNotOf set (s.drop pos)).map (· + pos)

/-- `Tokenizer::nextToken` / `hasNext` (Tokenizer.cpp:44-72). -/
def WordSplitter.hasNext (w : WordSplitter) : Bool × WordSplitter :=
  match findFirstNotOfFrom w.delimiters w.str w.offset with
  | none => (false, { w with offset := w.str.length })
  | some i =>
    match findFirstOfFrom w.delimiters w.str i with
    | none => (true, { w with token := w.str.drop i, offset := w.str.length })
    | some j => (true, { w with token := (w.str.drop i).take (j - i), offset := j })

/-- The loop `while ( t.hasNext() ) use(t.getToken())`: collects the tokens; `none` when the loop
has not ended after `fuel` rounds. -/
def WordSplitter.collect : Nat → WordSplitter → Option (List Text)
  | 0, _ => none
  | fuel + 1, w =>
    match w.hasNext with
    | (false, _) => some []
    | (true, w') => (WordSplitter.collect fuel w').map (w'.token :: ·)

/-- `LineParser::parse` (LineParser.cpp:16-43): name, type, value; `none` is the empty `Value()`. -/
def parseLine (fuel : Nat) (line : Text) : Option (Option (Text × Text × Text)) :=
  match (WordSplitter.new line []).hasNext with
  | (false, _) => some none
  | (true, t1) =>
    match t1.hasNext with
    | (false, _) => some none
    | (true, t2) =>
      (WordSplitter.collect fuel t2).map fun ws =>
        some (t1.token, t2.token, ws.foldl (fun v w => if v.isEmpty then v ++ w else v ++ [' '] ++ w) [])

/-! ## Independent specification -/

/-- `IsWords d s ws`: `ws` are the maximal pieces of `s` free of the delimiters `d`, in order. -/
inductive IsWords (d : List Char) : Text → List Text → Prop
  /-- only delimiters: no words -/
  | none {s} : (∀ c ∈ s, c ∈ d) → IsWords d s []
  /-- delimiters, a word that extends to the end of the text -/
  | last {s a w} : s = a ++ w → (∀ c ∈ a, c ∈ d) → w ≠ [] → (∀ c ∈ w, c ∉ d) → IsWords d s [w]
  /-- delimiters, a word ended by a delimiter, and the words of the rest -/
  | more {s a w x rest ws} : s = a ++ w ++ x :: rest → (∀ c ∈ a, c ∈ d) → w ≠ [] → (∀ c ∈ w, c ∉ d) → x ∈ d →
      IsWords d rest ws → IsWords d s (w :: ws)

/-! ## Lemmas -/

/-- What one step does to the unread part of the text. -/
theorem hasNext_step (w : WordSplitter) :
    (w.hasNext.1 = false ∧ ∀ c ∈ w.str.drop w.offset, c ∈ w.delimiters) ∨
    (w.hasNext.1 = true ∧ w.hasNext.2.str = w.str ∧ w.hasNext.2.delimiters = w.delimiters ∧
      ∃ a, (∀ c ∈ a, c ∈ w.delimiters) ∧ w.hasNext.2.token ≠ [] ∧ (∀ c ∈ w.hasNext.2.token, c ∉ w.delimiters) ∧
        ((w.str.drop w.offset = a ++ w.hasNext.2.token ∧ w.hasNext.2.offset = w.str.length) ∨
         (∃ x rest, w.str.drop w.offset = a ++ w.hasNext.2.token ++ x :: rest ∧ x ∈ w.delimiters ∧
            w.str.drop w.hasNext.2.offset = x :: rest))) := by
  unfold WordSplitter.hasNext findFirstNotOfFrom
  cases h1 : findFirstNotOf w.delimiters (w.str.drop w.offset) with
  | none => left; exact ⟨rfl, findFirstNotOf_none.1 h1⟩
  | some i =>
    right
    obtain ⟨c, e1, hc, ha, hi⟩ := findFirstNotOf_some h1
    rw [List.length_drop] at hi
    simp only [Option.map_some, findFirstOfFrom]
    have hd : w.str.drop (i + w.offset) = (w.str.drop w.offset).drop i := by
      rw [List.drop_drop, Nat.add_comm]
    have hsplit : w.str.drop w.offset = (w.str.drop w.offset).take i ++ (w.str.drop w.offset).drop i := (List.take_append_drop _ _).symm
    have hdrop : (w.str.drop w.offset).drop i = c :: (w.str.drop w.offset).drop (i + 1) := by
      have e : (w.str.drop w.offset).take i ++ (w.str.drop w.offset).drop i
          = (w.str.drop w.offset).take i ++ c :: (w.str.drop w.offset).drop (i + 1) := by
        rw [← hsplit]; exact e1
      exact List.append_cancel_left e
    cases h2 : findFirstOf w.delimiters (w.str.drop (i + w.offset)) with
    | none =>
      simp only [Option.map_none]
      have hno := findFirstOf_none.1 h2
      refine ⟨trivial, trivial, trivial, (w.str.drop w.offset).take i, ha, ?_, hno, Or.inl ⟨?_, trivial⟩⟩
      · rw [hd, hdrop]; simp
      · rw [hd]; exact hsplit
    | some j =>
      simp only [Option.map_some]
      obtain ⟨x, e2, hx, hb, hj⟩ := findFirstOf_some h2
      refine ⟨trivial, trivial, trivial, (w.str.drop w.offset).take i, ha, ?_, ?_, Or.inr ⟨x, (w.str.drop (i + w.offset)).drop (j + 1), ?_, hx, ?_⟩⟩
      · rw [show j + (i + w.offset) - (i + w.offset) = j by omega, hd, hdrop]
        cases j with
        | zero =>
          rw [hd, hdrop] at e2
          simp at e2
          rw [e2] at hc; exact absurd hx hc
        | succ j => simp
      · rw [show j + (i + w.offset) - (i + w.offset) = j by omega]; exact hb
      · rw [show j + (i + w.offset) - (i + w.offset) = j by omega, List.append_assoc, ← e2, hd]
        exact hsplit
      · have hs2 : w.str.drop (i + w.offset) = (w.str.drop (i + w.offset)).take j ++ (w.str.drop (i + w.offset)).drop j := (List.take_append_drop _ _).symm
        have e : (w.str.drop (i + w.offset)).take j ++ (w.str.drop (i + w.offset)).drop j
            = (w.str.drop (i + w.offset)).take j ++ x :: (w.str.drop (i + w.offset)).drop (j + 1) := by
          rw [← hs2]; exact e2
        have := List.append_cancel_left e
        rw [← this, List.drop_drop, Nat.add_comm]

theorem IsWords.of_delim_cons {d : List Char} {x : Char} {s : Text} {ws : List Text} (hx : x ∈ d)
    (h : IsWords d (x :: s) ws) : IsWords d s ws := by
  cases h with
  | none h => exact .none fun c hc => h c (by simp [hc])
  | @last _ a w e ha hw hn =>
    cases a with
    | nil =>
      cases w with
      | nil => exact absurd rfl hw
      | cons y w => simp at e; exact absurd (e.1 ▸ hx) (hn y (by simp))
    | cons y a =>
      simp at e
      exact .last e.2 (fun c hc => ha c (by simp [hc])) hw hn
  | @more _ a w z rest ws e ha hw hn hz hr =>
    cases a with
    | nil =>
      cases w with
      | nil => exact absurd rfl hw
      | cons y w => simp at e; exact absurd (e.1 ▸ hx) (hn y (by simp))
    | cons y a =>
      simp at e
      exact .more (by simpa using e.2) (fun c hc => ha c (by simp [hc])) hw hn hz hr

theorem collect_spec (fuel : Nat) : ∀ (w : WordSplitter), (w.str.drop w.offset).length < fuel →
    ∃ ws, w.collect fuel = some ws ∧ IsWords w.delimiters (w.str.drop w.offset) ws := by
  induction fuel with
  | zero => intro w h; omega
  | succ fuel ih =>
    intro w hlen
    unfold WordSplitter.collect
    rcases hasNext_step w with ⟨h1, h2⟩ | ⟨h1, hs, hd, a, ha, hne, hn, hcase⟩
    · rw [show w.hasNext = (false, w.hasNext.2) from Prod.ext h1 rfl]
      exact ⟨[], rfl, .none h2⟩
    · rw [show w.hasNext = (true, w.hasNext.2) from Prod.ext h1 rfl]
      simp only
      rcases hcase with ⟨e, ho⟩ | ⟨x, rest, e, hx, ho⟩
      · have hlen0 : 0 < fuel := by
          rw [e, List.length_append] at hlen
          have : 0 < w.hasNext.2.token.length := List.length_pos_iff.2 hne
          omega
        obtain ⟨ws, hw, hW⟩ := ih w.hasNext.2 (by rw [hs, ho]; simpa using hlen0)
        rw [hs, ho] at hW
        have hws : ws = [] := by
          rw [List.drop_length] at hW
          cases hW with
          | none _ => rfl
          | last e _ hw' _ => simp at e; exact absurd e.2 hw'
          | more e => simp at e
        rw [hw, hws]
        exact ⟨_, rfl, .last e ha hne hn⟩
      · obtain ⟨ws, hw, hW⟩ := ih w.hasNext.2 (by
          rw [hs, ho]
          rw [e] at hlen
          have : 0 < w.hasNext.2.token.length := List.length_pos_iff.2 hne
          simp only [List.length_append, List.length_cons] at hlen ⊢
          omega)
        rw [hs, ho, hd] at hW
        rw [hw]
        exact ⟨_, rfl, .more e ha hne hn hx (hW.of_delim_cons hx)⟩

/-- The specification determines the words. -/
theorem IsWords.unique {d : List Char} : ∀ {s ws ws'}, IsWords d s ws → IsWords d s ws' → ws = ws' := by
  -- cut off delimiters, then the word
  have cut : ∀ (a a' b b' : Text), (∀ c ∈ a, c ∈ d) → (∀ c ∈ a', c ∈ d) →
      (∀ c, b.head? = some c → c ∉ d) → (∀ c, b'.head? = some c → c ∉ d) → a ++ b = a' ++ b' → b = b' := by
    intro a
    induction a with
    | nil =>
      intro a' b b' _ h2 h3 _ e
      cases a' with
      | nil => simpa using e
      | cons y a' => simp at e; exact absurd (h2 y (by simp)) (h3 y (by rw [e]; rfl))
    | cons x a ih =>
      intro a' b b' h1 h2 h3 h4 e
      cases a' with
      | nil => simp at e; exact absurd (h1 x (by simp)) (h4 x (by rw [← e]; rfl))
      | cons y a' =>
        simp at e
        exact ih a' b b' (fun c hc => h1 c (by simp [hc])) (fun c hc => h2 c (by simp [hc])) h3 h4 e.2
  have cutw : ∀ (w w' r r' : Text), (∀ c ∈ w, c ∉ d) → (∀ c ∈ w', c ∉ d) →
      (∀ c, r.head? = some c → c ∈ d) → (∀ c, r'.head? = some c → c ∈ d) → w ++ r = w' ++ r' → w = w' ∧ r = r' := by
    intro w
    induction w with
    | nil =>
      intro w' r r' _ h2 h3 _ e
      cases w' with
      | nil => exact ⟨rfl, by simpa using e⟩
      | cons y w' => simp at e; exact absurd (h3 y (by rw [e]; rfl)) (h2 y (by simp))
    | cons x w ih =>
      intro w' r r' h1 h2 h3 h4 e
      cases w' with
      | nil => simp at e; exact absurd (h4 x (by rw [← e]; rfl)) (h1 x (by simp))
      | cons y w' =>
        simp at e
        obtain ⟨e1, e2⟩ := ih w' r r' (fun c hc => h1 c (by simp [hc])) (fun c hc => h2 c (by simp [hc])) h3 h4 e.2
        exact ⟨by rw [e.1, e1], e2⟩
  have head_app : ∀ {w r : Text}, w ≠ [] → (∀ c ∈ w, c ∉ d) → ∀ c, (w ++ r).head? = some c → c ∉ d := by
    intro w r hw hn c hc
    cases w with
    | nil => exact absurd rfl hw
    | cons y w => simp at hc; subst hc; exact hn _ (by simp)
  have nodelim : ∀ {s a w r : Text}, (∀ c ∈ s, c ∈ d) → s = a ++ (w ++ r) → w ≠ [] → (∀ c ∈ w, c ∉ d) → False := by
    intro s a w r h e hw hn
    cases w with
    | nil => exact hw rfl
    | cons y w => exact hn y (by simp) (h y (by rw [e]; simp))
  intro s ws ws' h
  induction h generalizing ws' with
  | none h =>
    intro h'
    cases h' with
    | none => rfl
    | last e _ hw hn => exact (nodelim (r := []) h (by simpa using e) hw hn).elim
    | more e _ hw hn => exact (nodelim h (by rw [e, List.append_assoc]) hw hn).elim
  | @last s a w e ha hw hn =>
    intro h'
    cases h' with
    | none h => exact (nodelim (r := []) h (by simpa using e) hw hn).elim
    | @last _ a' w' e' ha' hw' hn' =>
      rw [e] at e'
      have := cut a a' w w' ha ha' (by simpa using head_app (r := []) hw hn) (by simpa using head_app (r := []) hw' hn') e'
      rw [this]
    | @more _ a' w' x rest ws e' ha' hw' hn' hx hr =>
      rw [e, List.append_assoc] at e'
      have := cut a a' w _ ha ha' (by simpa using head_app (r := []) hw hn) (head_app hw' hn') e'
      have := cutw w w' [] (x :: rest) hn hn' (by simp) (by simpa using hx) (by simpa using this)
      simp at this
  | @more s a w x rest ws e ha hw hn hx hr ih =>
    intro h'
    cases h' with
    | none h => exact (nodelim h (by rw [e, List.append_assoc]) hw hn).elim
    | @last _ a' w' e' ha' hw' hn' =>
      rw [e, List.append_assoc] at e'
      have := cut a a' _ w' ha ha' (head_app hw hn) (by simpa using head_app (r := []) hw' hn') e'
      have := cutw w w' (x :: rest) [] hn hn' (by simpa using hx) (by simp) (by simpa using this)
      simp at this
    | @more _ a' w' x' rest' ws' e' ha' hw' hn' hx' hr' =>
      rw [e, List.append_assoc, List.append_assoc] at e'
      have := cut a a' _ _ ha ha' (head_app hw hn) (head_app hw' hn') e'
      obtain ⟨e1, e2⟩ := cutw w w' (x :: rest) (x' :: rest') hn hn' (by simpa using hx) (by simpa using hx') this
      simp at e2
      rw [e1, ih (e2.2 ▸ hr')]

end Verif.Str
