import Verif.Json.Writing

/-!
# C136, C137, C138: reading and writing JSON
-/

namespace Verif.Json

open Verif.Str (Text)

/-- Reading the text gives the value `v`: with enough fuel the outcome no longer depends on it. -/
def Reads (text : Text) (v : Value) : Prop := ∃ n, ∀ k, n ≤ k → parse k text = .ok (some v)

/-- Reading the text ends with an exception. -/
def Rejects (text : Text) : Prop := ∃ n, ∀ k, n ≤ k → parse k text = .thrown

/-- Reading the text never ends. -/
def Diverges (text : Text) : Prop := ∀ k, parse k text = .fuel

mutual

/-- The value with every number turned into a string. -/
def quoted : Json → Json
  | .num t => .str t
  | .arr l => .arr (quotedItems l)
  | .obj l => .obj (quotedMembers l)
  | v => v

def quotedItems : List Json → List Json
  | [] => []
  | v :: l => quoted v :: quotedItems l

def quotedMembers : List (Text × Json) → List (Text × Json)
  | [] => []
  | (k, v) :: l => (k, quoted v) :: quotedMembers l

end

mutual

theorem read_eq : ∀ v, read v = denote (quoted v)
  | .null => rfl
  | .bool _ => rfl
  | .num _ => rfl
  | .str _ => rfl
  | .arr l => by rw [read, quoted, denote, readItems_eq l]
  | .obj l => by rw [read, quoted, denote, readMembers_eq l]

theorem readItems_eq : ∀ l, readItems l = denoteItems (quotedItems l)
  | [] => rfl
  | v :: l => by rw [readItems, quotedItems, denoteItems, read_eq v, readItems_eq l]

theorem readMembers_eq : ∀ l, readMembers l = denoteMembers (quotedMembers l)
  | [] => rfl
  | (k, v) :: l => by rw [readMembers, quotedMembers, denoteMembers, read_eq v, readMembers_eq l]

end

mutual

theorem denote_inj : ∀ v w, denote v = denote w → v = w
  | .null, w, h => by cases w <;> simp [denote, Value.null, Value.bool] at h ⊢
  | .bool b, w, h => by
    cases w <;> simp [denote, Value.null, Value.bool] at h ⊢
    rename_i c
    cases b <;> cases c <;> simp at h ⊢
  | .num t, w, h => by cases w <;> simp [denote, Value.null, Value.bool] at h ⊢; exact h
  | .str t, w, h => by cases w <;> simp [denote, Value.null, Value.bool] at h ⊢; exact h
  | .arr l, w, h => by cases w <;> simp [denote, Value.null, Value.bool] at h ⊢; exact denoteItems_inj _ _ h
  | .obj l, w, h => by cases w <;> simp [denote, Value.null, Value.bool] at h ⊢; exact denoteMembers_inj _ _ h

theorem denoteItems_inj : ∀ l m, denoteItems l = denoteItems m → l = m
  | [], m, h => by cases m <;> simp [denoteItems] at h ⊢
  | v :: l, m, h => by
    cases m with
    | nil => simp [denoteItems] at h
    | cons w m =>
      simp only [denoteItems, List.cons.injEq] at h
      rw [denote_inj v w h.1, denoteItems_inj l m h.2]

theorem denoteMembers_inj : ∀ l m, denoteMembers l = denoteMembers m → l = m
  | [], m, h => by
    cases m with
    | nil => rfl
    | cons w m => obtain ⟨k, w⟩ := w; simp [denoteMembers] at h
  | (k, v) :: l, m, h => by
    cases m with
    | nil => simp [denoteMembers] at h
    | cons w m =>
      obtain ⟨k', w⟩ := w
      simp only [denoteMembers, List.cons.injEq, Prod.mk.injEq] at h
      rw [h.1.1, denote_inj v w h.1.2, denoteMembers_inj l m h.2]

end

theorem Reads.unique {text : Text} {v w : Value} (h1 : Reads text v) (h2 : Reads text w) : v = w := by
  obtain ⟨n, h1⟩ := h1
  obtain ⟨m, h2⟩ := h2
  have := (h1 (max n m) (Nat.le_max_left ..)).symm.trans (h2 (max n m) (Nat.le_max_right ..))
  cases this
  rfl

theorem tokens_tree {v : Json} {t : Text} (hv : v.IsTree) (h : Writes False (.value v) t) (r : Text) :
    tokens (t ++ r) = (tokens r).map (toks v ++ ·) := by
  -- the closing bracket needs no delimiter after it
  have close : ∀ (c : Char) (r : Text), (c = ']' ∨ c = '}' ∨ c = ',') → Ends (c :: r) := by
    rintro c r (rfl | rfl | rfl) <;> exact ⟨_, _, rfl, by decide, by decide⟩
  have fold : ∀ (a : Tok) (o : Option (List Tok)), o.map (a :: ·) = o.map ([a] ++ ·) := fun a o => rfl
  cases h with
  | empty h =>
    rw [List.cons_append, tokens_bopen, List.append_assoc, tokens_blank h, List.cons_append, tokens_bclose, fold, fold, Option.map_comp]
    rfl
  | arr h =>
    rw [List.cons_append, tokens_bopen, List.append_assoc, List.singleton_append, tokens_part h _ (close ']' r (.inl rfl)), tokens_bclose,
      fold, fold, Option.map_comp, Option.map_comp]
    simp [Part.toks, toks]
  | none h =>
    rw [List.cons_append, tokens_copen, List.append_assoc, tokens_blank h, List.cons_append, tokens_cclose, fold, fold, Option.map_comp]
    rfl
  | obj h =>
    rw [List.cons_append, tokens_copen, List.append_assoc, List.singleton_append, tokens_part h _ (close '}' r (.inr (.inl rfl))),
      tokens_cclose, fold, fold, Option.map_comp, Option.map_comp]
    simp [Part.toks, toks]
  | _ => exact hv.elim

theorem tokens_document {v : Json} {text : Text} (hv : v.IsTree) (h : Document False v text) (r : Text) :
    tokens (text ++ r) = (tokens r).map (toks v ++ ·) := by
  obtain ⟨a, t, b, rfl, ha, ht, hb⟩ := h
  rw [List.append_assoc, List.append_assoc, tokens_blank ha, tokens_tree hv ht, tokens_blank hb]

/-! ## C136: reading -/

/-- C136 (partial).  Every JSON document with an array or an object at its root, written in any way and with any blanks, is read as its
value, except that numbers are read as strings.  Missing: numbers, documents that are a single value, and the parts of the grammar
excluded by `False` (see the refutations). -/
theorem document_read_partial (v : Json) (text : Text) (hv : v.IsTree) (h : Document False v text) : Reads text (denote (quoted v)) := by
  refine ⟨size v, fun k hk => ?_⟩
  have h1 := tokens_document hv h []
  rw [List.append_nil, tokens_nil, Option.map_some, List.append_nil] at h1
  rw [parse, h1, ← read_eq]
  exact parseTokens_toks v hv k hk

/-- C136: every document with a number, wherever it is, is read as another value. -/
theorem numbers_refuted (v : Json) (text : Text) (hv : v.IsTree) (h : Document False v text) :
    Reads text (denote v) ↔ quoted v = v := by
  constructor
  · intro h2
    exact denote_inj _ _ ((document_read_partial v text hv h).unique h2)
  · intro h2
    have := document_read_partial v text hv h
    rwa [h2] at this

/-- C136: documents that are a single value cannot be read at all. -/
theorem scalar_refuted (v : Json) (text : Text) (hv : ¬ v.IsTree) (h : Document False v text) : Rejects text := by
  have one : ∀ t : Tok, (t.ty ≠ .bracketOpen ∧ t.ty ≠ .curlyOpen) → ∀ k, 1 ≤ k → parseTokens k [t] = .thrown := by
    intro t ht k hk
    cases k with
    | zero => omega
    | succ k =>
      obtain ⟨ty, w⟩ := t
      cases ty <;> simp_all [parseTokens, parseValue, next, Res.bind]
  refine ⟨1, fun k hk => ?_⟩
  obtain ⟨a, t, b, rfl, ha, ht, hb⟩ := h
  have hw : ∀ {c : Char} {t : Text}, c ∈ chars → (∀ c ∈ t, c ∈ chars ∨ c ∈ digits) →
      tokens (c :: (t ++ b)) = some [word (c :: t)] := by
    intro c t h1 h2
    cases b with
    | nil =>
      have h3 : ∀ t : Text, (∀ c ∈ t, c ∈ chars ∨ c ∈ digits) → readId t = (t, []) := by
        intro t ht
        induction t with
        | nil => rfl
        | cons d t ih =>
          rw [readId, if_pos (ht d (List.mem_cons_self ..)), ih fun d hd => ht d (List.mem_cons_of_mem _ hd)]
      rw [List.append_nil, tokens.eq_def]
      simp only [if_pos h1, h3 t h2, tokens_nil, Option.map_some]
    | cons d b =>
      have he : Ends (d :: b) := ⟨d, b, rfl, by rcases hb d (List.mem_cons_self ..) with e | e | e | e <;> subst e <;> decide⟩
      have := tokens_blank hb []
      rw [List.append_nil, tokens_nil] at this
      rw [tokens_word h1 h2 he, this]
      rfl
  rw [parse, List.append_assoc, tokens_blank ha]
  cases ht with
  | null =>
    have h1 := hw (c := 'n') (t := "ull".toList) (by decide) (by decide)
    rw [show "null".toList ++ b = 'n' :: ("ull".toList ++ b) from rfl, h1]
    exact one _ (by decide) k hk
  | true =>
    have h1 := hw (c := 't') (t := "rue".toList) (by decide) (by decide)
    rw [show "true".toList ++ b = 't' :: ("rue".toList ++ b) from rfl, h1]
    exact one _ (by decide) k hk
  | false =>
    have h1 := hw (c := 'f') (t := "alse".toList) (by decide) (by decide)
    rw [show "false".toList ++ b = 'f' :: ("alse".toList ++ b) from rfl, h1]
    exact one _ (by decide) k hk
  | str h =>
    have := tokens_blank hb []
    rw [List.append_nil, tokens_nil] at this
    rw [List.cons_append, List.append_assoc, List.singleton_append, tokens_string h, this]
    exact one _ ⟨by simp, by simp⟩ k hk
  | num h =>
    cases b with
    | nil =>
      have h3 : ∀ t : Text, (∀ c ∈ t, c ∈ digits) → readDigits t = none := by
        intro t ht
        induction t with
        | nil => rfl
        | cons d t ih =>
          rw [readDigits, if_pos (ht d (List.mem_cons_self ..)), ih fun d hd => ht d (List.mem_cons_of_mem _ hd)]
          rfl
      obtain ⟨c, r, rfl, h1, h2⟩ := number_chars h
      have h4 := h3 r fun d hd => h2 d (List.mem_cons_of_mem _ hd)
      have : tokens (c :: r ++ []) = none := by
        rw [List.append_nil, tokens.eq_def]
        simp only [if_neg h1, if_pos (h2 c (List.mem_cons_self ..))]
        split
        · rfl
        · rename_i h'; rw [h4] at h'; cases h'
      rw [this]
    | cons d b =>
      have he : Ends (d :: b) := ⟨d, b, rfl, by rcases hb d (List.mem_cons_self ..) with e | e | e | e <;> subst e <;> decide⟩
      have := tokens_blank hb []
      rw [List.append_nil, tokens_nil] at this
      rw [tokens_number h he, this]
      exact one _ ⟨by simp, by simp⟩ k hk
  | empty _ => exact absurd trivial hv
  | arr _ => exact absurd trivial hv
  | none _ => exact absurd trivial hv
  | obj _ => exact absurd trivial hv

/-- C136: an escape with a letter is read as the letter. -/
theorem letter_escape_refuted (e c : Char) (h : (e, c) ∈ letterEscapes) :
    Document True (.arr [.str [c]]) ['[', '"', '\\', e, '"', ']'] ∧ Reads ['[', '"', '\\', e, '"', ']'] (.arr [.leaf .string [e]]) ∧ e ≠ c := by
  refine ⟨⟨[], _, [], (by rw [List.append_nil, List.nil_append]), Blank.nil, ?_, Blank.nil⟩, ⟨5, fun k hk => ?_⟩, ?_⟩
  · have h1 : Writes True (.value (.str [c])) ('"' :: (['\\', e] ++ ['"'])) := .str (.letter trivial h .nil)
    exact .arr (t := ['"', '\\', e, '"']) (by simpa using Writes.item (a := []) (b := []) Blank.nil h1 Blank.nil)
  · have h1 : readString ['\\', e, '"', ']'] = some ([e], [']']) := by rw [readString_escape]; rfl
    have h2 : tokens ['[', '"', '\\', e, '"', ']'] = some [⟨.bracketOpen, ['[']⟩, ⟨.string, [e]⟩, ⟨.bracketClose, [']']⟩] := by
      rw [tokens_bopen, tokens_quote h1, tokens_bclose, tokens_nil]; rfl
    have h3 := parseTokens_toks (.arr [.str [e]]) trivial k (by simp only [size, itemsSize]; omega)
    rw [parse, h2]
    exact h3
  · revert h
    simp only [letterEscapes, List.mem_cons, Prod.mk.injEq, List.not_mem_nil, or_false]
    rintro (⟨rfl, rfl⟩ | ⟨rfl, rfl⟩ | ⟨rfl, rfl⟩ | ⟨rfl, rfl⟩ | ⟨rfl, rfl⟩) <;> decide

/-- C136: a number with a capital `E` makes the reader fail, `[1E5]`. -/
theorem capital_exponent_refuted : Document True (.arr [.num "1E5".toList]) "[1E5]".toList ∧ Rejects "[1E5]".toList := by
  refine ⟨⟨[], _, [], (by rw [List.append_nil, List.nil_append]), Blank.nil, ?_, Blank.nil⟩, ⟨5, fun k hk => ?_⟩⟩
  · have h1 : IsNumber True "1E5".toList :=
      ⟨[], ['1'], [], ['E', '5'], by decide, .inl rfl, ⟨by decide, by unfold Digits; decide, .inr (by decide)⟩, .inl rfl,
        .inr ⟨'E', [], ['5'], rfl, .inr ⟨trivial, rfl⟩, .inl rfl, by decide, by unfold Digits; decide⟩⟩
    exact .arr (t := "1E5".toList) (by simpa using Writes.item (a := []) (b := []) Blank.nil (.num h1) Blank.nil)
  · have h2 : tokens "[1E5]".toList = some [⟨.bracketOpen, ['[']⟩, ⟨.number, ['1']⟩, ⟨.identifier, ['E', '5']⟩, ⟨.bracketClose, [']']⟩] := by
      decide +kernel
    rw [parse, h2]
    obtain ⟨k, rfl⟩ : ∃ j, k = j + 5 := ⟨k - 5, by omega⟩
    rfl

/-! ## C137: writing -/

/-- C137 (partial).  What the writers write is a JSON document with the value of the object, at any depth of indentation.  Missing: texts
that need escapes, and arrays of several values beginning with `false`. -/
theorem written_document_partial (v : Json) (hv : Plain v) (n : Nat) :
    Document False v (toText (denote v)) ∧ Document False v (write plain n (denote v)) ∧ Document False v (write styled n (denote v)) := by
  have h1 := write_writes plain_good v n hv
  have h2 := write_writes styled_good v n hv
  refine ⟨⟨[], _, [], ?_, Blank.nil, h1, Blank.nil⟩, ⟨[], _, [], ?_, Blank.nil, h1, Blank.nil⟩, ⟨[], _, [], ?_, Blank.nil, h2, Blank.nil⟩⟩
  · rw [write_plain]; simp
  · simp
  · simp

/-- C137 (partial).  Reading what was written gives the value back, numbers as strings. -/
theorem written_read_partial (v : Json) (hv : Plain v) (ht : v.IsTree) :
    Reads (toText (denote v)) (denote (quoted v)) ∧ Reads (write plain 0 (denote v)) (denote (quoted v)) ∧
      Reads (write styled 0 (denote v)) (denote (quoted v)) := by
  obtain ⟨h1, h2, h3⟩ := written_document_partial v hv 0
  exact ⟨document_read_partial v _ ht h1, document_read_partial v _ ht h2, document_read_partial v _ ht h3⟩

/-- C137: in an array that begins with `false` the first comma is missing, whatever the second value is. -/
theorem false_first_refuted (w : Value) : toText (.arr [.bool false, w]) = "[ false".toList ++ toText w ++ " ]".toList := by
  have h1 : toText (.bool false) = "false".toList := by simp only [Value.bool, toText, Bool.false_eq_true, if_false]; decide
  have h2 : separator [] ", ".toList = [] := by rw [separator, if_neg (by decide)]
  have h3 : separator "false".toList ", ".toList = [] := by rw [separator, if_neg (by decide)]
  rw [toText, itemsText, itemsText, itemsText, h1, h2, List.nil_append, List.nil_append, h3, List.nil_append]
  rfl

/-- ... so that two booleans are read as one string. -/
theorem false_first_read_refuted (b : Bool) : Reads (toText (.arr [.bool false, .bool b])) (.arr [.leaf .string ("false".toList ++ toText (.bool b))]) := by
  have h1 : ∀ b, tokens (toText (.arr [.bool false, .bool b])) =
      some (toks (.arr [.str ("false".toList ++ toText (.bool b))]) |>.map fun t => if t.ty = .string then ⟨.identifier, t.value⟩ else t) := by
    decide +kernel
  refine ⟨5, fun k hk => ?_⟩
  rw [parse, h1]
  obtain ⟨k, rfl⟩ : ∃ j, k = j + 5 := ⟨k - 5, by omega⟩
  cases b <;> rfl

theorem readString_open : ∀ {r : Text}, (∀ c ∈ r, c ≠ '"') → readString r = none := by
  intro r
  fun_induction readString r with
  | case1 => intro _; rfl
  | case2 s => intro h; exact absurd rfl (h '"' (List.mem_cons_self ..))
  | case3 => intro _; rfl
  | case4 c s ih => intro h; rw [ih fun d hd => h d (by simp [hd])]; rfl
  | case5 c s _ _ _ ih => intro h; rw [ih fun d hd => h d (by simp [hd])]; rfl

theorem readString_shorter {s r v q : Text} (h : readString (s ++ '"' :: r) = some (v, q)) (hs : ¬ Unescaped s) (hr : ∀ c ∈ r, c ≠ '"') :
    v.length < s.length := by
  induction hn : s.length using Nat.strongRecOn generalizing s v with
  | _ n ih =>
    subst hn
    cases s with
    | nil => exact absurd (fun c hc => by cases hc) hs
    | cons c s =>
      by_cases h1 : c = '"'
      · subst h1
        rw [List.cons_append, readString] at h
        cases h
        simp
      · by_cases h2 : c = '\\'
        · subst h2
          cases s with
          | nil =>
            rw [List.cons_append, List.nil_append, readString_escape, readString_open hr] at h
            cases h
          | cons d s =>
            rw [List.cons_append, List.cons_append, readString_escape] at h
            obtain ⟨⟨v', q'⟩, h3, h4⟩ := Option.map_eq_some_iff.1 h
            cases h4
            simp only [List.length_cons]
            by_cases hu : Unescaped s
            · rw [readString_chars hu.chars] at h3
              cases h3
              omega
            · have := ih s.length (by simp; omega) h3 hu rfl
              omega
        · rw [List.cons_append, readString_plain h1 h2] at h
          obtain ⟨⟨v', q'⟩, h3, h4⟩ := Option.map_eq_some_iff.1 h
          cases h4
          have := ih s.length (by simp) h3 (fun hu => hs fun d hd => by
            rcases List.mem_cons.1 hd with rfl | hd
            · exact ⟨h1, h2⟩
            · exact hu d hd) rfl
          simp only [List.length_cons]
          omega

theorem Res.bind_ok {α β : Type} {r : Res α} {f : α → Res β} {b : β} (h : r.bind f = .ok b) : ∃ a, r = .ok a ∧ f a = .ok b := by
  cases r with
  | ok a => exact ⟨a, rfl, h⟩
  | thrown => cases h
  | fuel => cases h

/-- The first value of an array whose second token is a string. -/
theorem array_first {k : Nat} {v : Text} {ts : List Tok} {l : List Value} {c : Cursor}
    (h : parseArray k (⟨.bracketOpen, ['[']⟩ :: ⟨.string, v⟩ :: ts) = .ok (.arr l, c)) : l.head? = some (.leaf .string v) := by
  cases k with
  | zero => cases h
  | succ k =>
    rw [parseArray, require, if_pos rfl] at h
    obtain ⟨_, h1, h⟩ := Res.bind_ok h
    cases h1
    obtain ⟨⟨l', c'⟩, h1, h⟩ := Res.bind_ok h
    obtain ⟨_, _, h⟩ := Res.bind_ok h
    cases h
    cases k with
    | zero => cases h1
    | succ k =>
      rw [items, if_neg (by simp [at?])] at h1
      obtain ⟨⟨x, c''⟩, h2, h1⟩ := Res.bind_ok h1
      have hx : x = .leaf .string v := by
        cases k with
        | zero => cases h2
        | succ k =>
          obtain ⟨_, _, h2⟩ := Res.bind_ok (show (next (⟨.string, v⟩ :: ts)).bind (fun c => .ok (.leaf .string v, c)) = .ok (x, c'') from h2)
          cases h2
          rfl
      subst hx
      simp only at h1
      split at h1
      · obtain ⟨_, _, h1⟩ := Res.bind_ok h1
        obtain ⟨_, _, h1⟩ := Res.bind_ok h1
        cases h1
        rfl
      · cases h1
        rfl

/-- C137: no text with a quotation mark or a backslash survives being written and read. -/
theorem unescaped_refuted (s : Text) (hs : ¬ Unescaped s) :
    ¬ Reads (toText (.arr [.leaf .string s])) (.arr [.leaf .string s]) := by
  rintro ⟨n, h⟩
  have h := h n (Nat.le_refl _)
  have e : toText (.arr [.leaf .string s]) = '[' :: ([' '] ++ '"' :: (s ++ '"' :: " ]".toList)) := by
    rw [toText, itemsText, itemsText, separator, if_neg (by decide)]
    simp [toText, leafText]
  rw [parse, e, tokens_bopen, tokens_blank (by unfold Blank; decide)] at h
  cases hr : readString (s ++ '"' :: " ]".toList) with
  | none =>
    have : tokens ('"' :: (s ++ '"' :: " ]".toList)) = none := by
      rw [tokens.eq_def]
      simp only [if_neg (show '"' ∉ chars by decide), if_neg (show '"' ∉ digits by decide), if_neg (show '"' ∉ whitespaces by decide), if_true]
      split
      · rfl
      · rename_i h'; rw [hr] at h'; cases h'
    rw [this] at h
    cases h
  | some p =>
    obtain ⟨v, q⟩ := p
    have hl := readString_shorter hr hs (by decide)
    rw [tokens_quote hr] at h
    cases ht : tokens q with
    | none => rw [ht] at h; cases h
    | some ts =>
      rw [ht] at h
      simp only [Option.map_some] at h
      have h2 : (parseArray n (⟨.bracketOpen, ['[']⟩ :: ⟨.string, v⟩ :: ts)).bind (fun v =>
        if at? .bracketClose v.2 then Res.ok (some v.1) else .thrown) = .ok (some (.arr [.leaf .string s])) := h
      cases hp : parseArray n (⟨.bracketOpen, ['[']⟩ :: ⟨.string, v⟩ :: ts) with
      | ok r =>
        obtain ⟨x, c⟩ := r
        rw [hp] at h2
        simp only [Res.bind] at h2
        split at h2
        · cases h2
          have := array_first hp
          simp only [List.head?_cons, Option.some.injEq, Value.leaf.injEq, true_and] at this
          rw [this] at hl
          exact absurd hl (Nat.lt_irrefl _)
        · cases h2
      | thrown => rw [hp] at h2; cases h2
      | fuel => rw [hp] at h2; cases h2

/-! ## C138: texts that are no documents -/

/-- C138: a closing bracket may be missing: an opening bracket too many before the document of an array gives an array with the array. -/
theorem missing_bracket_refuted (l : List Json) (text : Text) (h : Document False (.arr l) text) :
    Reads ('[' :: text) (.arr [denote (quoted (.arr l))]) := by
  have h1 := tokens_document (v := .arr l) trivial h []
  rw [List.append_nil, tokens_nil, Option.map_some, List.append_nil] at h1
  refine ⟨size (.arr l) + 3, fun k hk => ?_⟩
  obtain ⟨k, rfl⟩ : ∃ j, k = j + 3 := ⟨k - 3, by omega⟩
  have h2 := parseArray_toks l k [] (by omega)
  rw [List.append_nil] at h2
  have h3 : ∃ u c, toks (.arr l) = u :: c ∧ u = ⟨.bracketOpen, ['[']⟩ := ⟨_, _, rfl, rfl⟩
  obtain ⟨u, c, h3, rfl⟩ := h3
  have h4 : parseValue (k + 1) (toks (.arr l)) = .ok (read (.arr l), [⟨.bracketClose, [']']⟩]) := by
    rw [h3] at h2 ⊢
    exact h2
  have h5 : items (k + 2) (toks (.arr l)) = .ok ([read (.arr l)], [⟨.bracketClose, [']']⟩]) := by
    rw [items, h4, h3]
    rfl
  have h6 : parseArray (k + 3) (⟨.bracketOpen, ['[']⟩ :: toks (.arr l)) = .ok (.arr [read (.arr l)], [⟨.bracketClose, [']']⟩]) := by
    rw [h3] at h5 ⊢
    rw [parseArray, require, if_pos rfl]
    simp only [Res.bind]
    rw [h5]
    rfl
  have h7 : tokens ('[' :: text) = some (⟨.bracketOpen, ['[']⟩ :: toks (.arr l)) := by rw [tokens_bopen, h1]; rfl
  rw [parse, h7, ← read_eq]
  show (parseArray (k + 3) (⟨.bracketOpen, ['[']⟩ :: toks (.arr l))).bind _ = _
  rw [h6]
  rfl

/-- C138: after a closing bracket too many anything is accepted. -/
theorem garbage_refuted (l : List Json) (text rest : Text) (ts : List Tok) (h : Document False (.arr l) text) (hr : tokens rest = some ts) :
    Reads (text ++ ']' :: rest) (denote (quoted (.arr l))) := by
  have h1 := tokens_document (v := .arr l) trivial h (']' :: rest)
  rw [tokens_bclose, hr, Option.map_some, Option.map_some] at h1
  refine ⟨size (.arr l), fun k hk => ?_⟩
  have h2 := parseArray_toks l k (⟨.bracketClose, [']']⟩ :: ts) hk
  rw [parse, h1]
  show parseTokens k (toks (.arr l) ++ ⟨.bracketClose, [']']⟩ :: ts) = _
  rw [show parseTokens k (toks (.arr l) ++ ⟨.bracketClose, [']']⟩ :: ts) =
    (parseArray k (toks (.arr l) ++ ⟨.bracketClose, [']']⟩ :: ts)).bind fun v =>
      if at? .bracketClose v.2 then .ok (some v.1) else .thrown from rfl, h2, ← read_eq]
  rfl

theorem parseArray_last (k : Nat) : parseArray k [⟨.bracketOpen, ['[']⟩] = .fuel ∧ items k [⟨.bracketOpen, ['[']⟩] = .fuel ∧
    parseValue k [⟨.bracketOpen, ['[']⟩] = .fuel := by
  induction k with
  | zero => exact ⟨rfl, rfl, rfl⟩
  | succ k ih =>
    refine ⟨?_, ?_, ?_⟩
    · rw [parseArray, require, if_pos rfl]
      simp only [Res.bind]
      rw [ih.2.1]
    · rw [items, ih.2.2]
      rfl
    · exact ih.1

/-- C138: opening brackets alone keep the reader busy for ever. -/
theorem brackets_diverge_refuted (n : Nat) : Diverges (List.replicate (n + 1) '[') := by
  have h1 : ∀ n, tokens (List.replicate n '[') = some (List.replicate n ⟨.bracketOpen, ['[']⟩) := by
    intro n
    induction n with
    | zero => exact tokens_nil
    | succ n ih => rw [List.replicate_succ, tokens_bopen, ih]; rfl
  have h2 : ∀ k n, parseArray k (List.replicate (n + 1) ⟨.bracketOpen, ['[']⟩) = .fuel ∧
      items k (List.replicate (n + 1) ⟨.bracketOpen, ['[']⟩) = .fuel ∧ parseValue k (List.replicate (n + 1) ⟨.bracketOpen, ['[']⟩) = .fuel := by
    intro k
    induction k with
    | zero => intro n; exact ⟨rfl, rfl, rfl⟩
    | succ k ih =>
      intro n
      refine ⟨?_, ?_, ?_⟩
      · cases n with
        | zero => exact (parseArray_last _).1
        | succ n =>
          have h3 := (ih n).2.1
          rw [List.replicate_succ, parseArray]
          rw [show require .bracketOpen (⟨.bracketOpen, ['[']⟩ :: List.replicate (n + 1) ⟨.bracketOpen, ['[']⟩) =
            .ok (List.replicate (n + 1) ⟨.bracketOpen, ['[']⟩) by rw [List.replicate_succ, require, if_pos rfl]]
          simp only [Res.bind]
          rw [h3]
      · rw [items, (ih n).2.2]
        rfl
      · exact (ih n).1
  intro k
  rw [parse, h1]
  show (parseArray k (List.replicate (n + 1) ⟨.bracketOpen, ['[']⟩)).bind _ = _
  rw [(h2 k n).1]
  rfl

/-! ### When reading ends -/

/-- A rest of the tokens that is not empty. -/
def Rest (c' c : Cursor) : Prop := c' <:+ c ∧ c' ≠ []

theorem Rest.last {c' c : Cursor} (h : Rest c' c) : c'.getLast? = c.getLast? := by
  obtain ⟨⟨p, rfl⟩, h2⟩ := h
  rw [List.getLast?_append]
  cases c' with
  | nil => exact absurd rfl h2
  | cons t r => simp [List.getLast?_cons]

theorem Rest.trans {a b c : Cursor} (h1 : Rest a b) (h2 : Rest b c) : Rest a c := ⟨h1.1.trans h2.1, h1.2⟩

theorem next_rest {c c' : Cursor} (h : next c = .ok c') : Rest c' c ∧ c'.length < c.length := by
  match c, h with
  | _ :: t :: r, h => cases h; exact ⟨⟨⟨[_], rfl⟩, by simp⟩, by simp⟩

theorem require_rest {ty : Ty} {c c' : Cursor} (h : require ty c = .ok c') :
    Rest c' c ∧ (c'.length < c.length ∨ ∃ t, c = [t] ∧ c' = c ∧ t.ty = ty) := by
  match c, h with
  | [t], h =>
    rw [require] at h
    split at h
    · cases h; exact ⟨⟨List.suffix_refl _, by simp⟩, .inr ⟨t, rfl, rfl, by assumption⟩⟩
    · cases h
  | _ :: t :: r, h =>
    rw [require] at h
    split at h
    · cases h; exact ⟨⟨⟨[_], rfl⟩, by simp⟩, .inl (by simp)⟩
    · cases h

theorem require_ne_fuel (ty : Ty) (c : Cursor) : require ty c ≠ .fuel := by
  match c with
  | [] => rw [require]; simp
  | [t] => rw [require]; split <;> simp
  | t :: u :: r => rw [require]; split <;> simp

theorem next_ne_fuel (c : Cursor) : next c ≠ .fuel := by
  match c with
  | [] => rw [next] <;> simp
  | [t] => rw [next] <;> simp
  | t :: u :: r => rw [next]; simp

theorem Res.bind_ne_fuel {α β : Type} {r : Res α} {f : α → Res β} (h1 : r ≠ .fuel) (h2 : ∀ a, r = .ok a → f a ≠ .fuel) : r.bind f ≠ .fuel := by
  cases r with
  | ok a => exact h2 a rfl
  | thrown => simp [Res.bind]
  | fuel => exact absurd rfl h1

/-- The last token is no opening bracket. -/
def Shut (c : Cursor) : Prop := ∀ t, c.getLast? = some t → t.ty ≠ .bracketOpen

theorem Shut.rest {c' c : Cursor} (h : Shut c) (hr : Rest c' c) : Shut c' := by
  intro t ht
  rw [hr.last] at ht
  exact h t ht

/-- Reading a value moves on, and reading any of the parts ends if there is fuel for three steps per token. -/
theorem parse_step (k : Nat) : ∀ c, Shut c → c ≠ [] →
    ((3 * c.length < k → parseValue k c ≠ .fuel) ∧ (∀ v c', parseValue k c = .ok (v, c') → Rest c' c ∧ c'.length < c.length)) ∧
    ((3 * c.length ≤ k → parseArray k c ≠ .fuel) ∧ (∀ v c', parseArray k c = .ok (v, c') → Rest c' c ∧ c'.length < c.length)) ∧
    ((3 * c.length + 1 < k → items k c ≠ .fuel) ∧ (∀ v c', items k c = .ok (v, c') → Rest c' c)) ∧
    ((3 * c.length ≤ k → parseObject k c ≠ .fuel) ∧ (∀ v c', parseObject k c = .ok (v, c') → Rest c' c ∧ c'.length < c.length)) ∧
    ((3 * c.length + 1 < k → members k c ≠ .fuel) ∧ (∀ v c', members k c = .ok (v, c') → Rest c' c)) := by
  induction k with
  | zero =>
    intro c _ hc
    have hl : 0 < c.length := List.length_pos_iff.2 hc
    refine ⟨⟨fun h => by omega, fun v c' h => ?_⟩, ⟨fun h => by omega, fun v c' h => ?_⟩, ⟨fun h => by omega, fun v c' h => ?_⟩,
      ⟨fun h => by omega, fun v c' h => ?_⟩, ⟨fun h => by omega, fun v c' h => ?_⟩⟩
    · rw [parseValue] at h; cases h
    · rw [parseArray] at h; cases h
    · rw [items] at h; cases h
    · rw [parseObject] at h; cases h
    · rw [members] at h; cases h
  | succ k ih =>
    intro c hs hc
    have hl : 0 < c.length := List.length_pos_iff.2 hc
    obtain ⟨ihV, ihA, -, ihO, -⟩ := ih c hs hc
    have ihR : ∀ {c'}, Rest c' c → _ := fun {c'} h => ih c' (hs.rest h) h.2
    refine ⟨?_, ?_, ?_, ?_, ?_⟩
    · cases c with
      | nil => exact absurd rfl hc
      | cons t r =>
        have leaf : ∀ (x : Value), (3 * (t :: r).length < k + 1 → ((next (t :: r)).bind fun c => Res.ok (x, c)) ≠ .fuel) ∧
            ∀ v c', ((next (t :: r)).bind fun c => Res.ok (x, c)) = .ok (v, c') → Rest c' (t :: r) ∧ c'.length < (t :: r).length := by
          intro x
          refine ⟨fun _ => Res.bind_ne_fuel (next_ne_fuel _) (fun a _ h => by cases h), fun v c' h => ?_⟩
          obtain ⟨d, h1, h2⟩ := Res.bind_ok h
          cases h2
          exact next_rest h1
        rw [parseValue]
        split
        · exact ⟨fun h => ihA.1 (by omega), ihA.2⟩
        · exact ⟨fun h => ihO.1 (by omega), ihO.2⟩
        · exact leaf _
        · exact leaf _
        · exact leaf _
        · exact leaf _
        · exact leaf _
        · exact ⟨fun _ h => (by cases h), fun v c' h => (by cases h)⟩
    · rw [parseArray]
      have hr : ∀ {c'}, require .bracketOpen c = .ok c' → Rest c' c ∧ c'.length < c.length := by
        intro c' h
        obtain ⟨h1, h2 | ⟨t, rfl, -, h4⟩⟩ := require_rest h
        · exact ⟨h1, h2⟩
        · exact absurd h4 (hs t rfl)
      constructor
      · intro hk
        refine Res.bind_ne_fuel (require_ne_fuel _ _) fun c1 h1 => ?_
        obtain ⟨h2, h3⟩ := hr h1
        refine Res.bind_ne_fuel ((ihR h2).2.2.1.1 (by omega)) fun p h4 => ?_
        exact Res.bind_ne_fuel (require_ne_fuel _ _) fun c2 _ h => by cases h
      · intro v c' h
        obtain ⟨c1, h1, h⟩ := Res.bind_ok h
        obtain ⟨h2, h3⟩ := hr h1
        obtain ⟨p, h4, h⟩ := Res.bind_ok h
        obtain ⟨c2, h5, h⟩ := Res.bind_ok h
        cases h
        have h6 := (ihR h2).2.2.1.2 _ _ h4
        have h7 := (require_rest h5).1
        exact ⟨h7.trans (h6.trans h2), Nat.lt_of_le_of_lt (h7.trans h6).1.length_le h3⟩
    · rw [items]
      split
      · exact ⟨fun _ h => (by cases h), fun v c' h => by cases h; exact ⟨List.suffix_refl _, hc⟩⟩
      · constructor
        · intro hk
          refine Res.bind_ne_fuel (ihV.1 (by omega)) fun p h1 => ?_
          obtain ⟨h2, h3⟩ := ihV.2 _ _ h1
          split
          · refine Res.bind_ne_fuel (require_ne_fuel _ _) fun c1 h4 => ?_
            have h5 := (require_rest h4).1
            have h6 := h5.1.length_le
            exact Res.bind_ne_fuel ((ihR (h5.trans h2)).2.2.1.1 (by omega)) fun p _ h => by cases h
          · intro h; cases h
        · intro v c' h
          obtain ⟨p, h1, h⟩ := Res.bind_ok h
          obtain ⟨h2, h3⟩ := ihV.2 _ _ h1
          split at h
          · obtain ⟨c1, h4, h⟩ := Res.bind_ok h
            have h5 := (require_rest h4).1
            obtain ⟨q, h6, h⟩ := Res.bind_ok h
            cases h
            exact ((ihR (h5.trans h2)).2.2.1.2 _ _ h6).trans (h5.trans h2)
          · cases h; exact h2
    · rw [parseObject]
      -- at the last token the members cannot be read
      have hlast : ∀ t : Tok, t.ty = .curlyOpen → ∀ p, members k [t] ≠ .ok p := by
        intro t ht p h
        cases k with
        | zero => rw [members] at h; cases h
        | succ k => rw [members, if_neg (by rw [ht]; decide)] at h; cases h
      constructor
      · intro hk
        refine Res.bind_ne_fuel (require_ne_fuel _ _) fun c1 h1 => ?_
        obtain ⟨h2, h3 | ⟨t, rfl, rfl, h4⟩⟩ := require_rest h1
        · refine Res.bind_ne_fuel ((ihR h2).2.2.2.2.1 (by omega)) fun p h4 => ?_
          exact Res.bind_ne_fuel (require_ne_fuel _ _) fun c2 _ h => by cases h
        · refine Res.bind_ne_fuel ?_ fun p h5 => absurd h5 (hlast t h4 p)
          cases k with
          | zero => simp at hk
          | succ k => rw [members, if_neg (by rw [h4]; decide)]; intro h; cases h
      · intro v c' h
        obtain ⟨c1, h1, h⟩ := Res.bind_ok h
        obtain ⟨p, h4, h⟩ := Res.bind_ok h
        obtain ⟨c2, h5, h⟩ := Res.bind_ok h
        cases h
        obtain ⟨h2, h3 | ⟨t, rfl, rfl, h6⟩⟩ := require_rest h1
        · have h6 := (ihR h2).2.2.2.2.2 _ _ h4
          have h7 := (require_rest h5).1
          exact ⟨h7.trans (h6.trans h2), Nat.lt_of_le_of_lt (h7.trans h6).1.length_le h3⟩
        · exact absurd h4 (hlast t h6 _)
    · cases c with
      | nil => exact absurd rfl hc
      | cons t r =>
        rw [members]
        split
        · exact ⟨fun _ h => (by cases h), fun v c' h => by cases h; exact ⟨List.suffix_refl _, hc⟩⟩
        · constructor
          · intro hk
            refine Res.bind_ne_fuel (next_ne_fuel _) fun c1 h1 => ?_
            obtain ⟨h2, h3⟩ := next_rest h1
            refine Res.bind_ne_fuel (require_ne_fuel _ _) fun c2 h4 => ?_
            have h5 := (require_rest h4).1
            have h6 := h5.1.length_le
            refine Res.bind_ne_fuel ((ihR (h5.trans h2)).1.1 (by omega)) fun p h7 => ?_
            obtain ⟨h8, h9⟩ := (ihR (h5.trans h2)).1.2 _ _ h7
            split
            · refine Res.bind_ne_fuel (require_ne_fuel _ _) fun c3 h10 => ?_
              have h11 := (require_rest h10).1
              have h12 := h11.1.length_le
              exact Res.bind_ne_fuel ((ihR (h11.trans (h8.trans (h5.trans h2)))).2.2.2.2.1 (by omega)) fun p _ h => by cases h
            · intro h; cases h
          · intro v c' h
            obtain ⟨c1, h1, h⟩ := Res.bind_ok h
            obtain ⟨h2, h3⟩ := next_rest h1
            obtain ⟨c2, h4, h⟩ := Res.bind_ok h
            have h5 := (require_rest h4).1
            obtain ⟨p, h7, h⟩ := Res.bind_ok h
            obtain ⟨h8, h9⟩ := (ihR (h5.trans h2)).1.2 _ _ h7
            split at h
            · obtain ⟨c3, h10, h⟩ := Res.bind_ok h
              have h11 := (require_rest h10).1
              obtain ⟨q, h12, h⟩ := Res.bind_ok h
              cases h
              have h13 := h11.trans (h8.trans (h5.trans h2))
              exact ((ihR h13).2.2.2.2.2 _ _ h12).trans h13
            · cases h; exact h8.trans (h5.trans h2)

theorem readId_suffix (s : Text) : (readId s).2 <:+ s := by
  induction s with
  | nil => exact List.suffix_refl _
  | cons c s ih =>
    rw [readId]
    split
    · exact ih.trans ⟨[c], rfl⟩
    · exact List.suffix_refl _

theorem readDigits_suffix : ∀ {s v r : Text}, readDigits s = some (v, r) → r <:+ s
  | c :: s, v, r, h => by
    rw [readDigits] at h
    split at h
    · obtain ⟨⟨v', r'⟩, h1, h2⟩ := Option.map_eq_some_iff.1 h
      cases h2
      exact (readDigits_suffix h1).trans ⟨[c], rfl⟩
    · cases h; exact List.suffix_refl _

theorem readString_suffix : ∀ {s v r : Text}, readString s = some (v, r) → r <:+ s := by
  intro s
  fun_induction readString s with
  | case1 => intro v r h; cases h
  | case2 s => intro v r h; cases h; exact ⟨['"'], rfl⟩
  | case3 => intro v r h; cases h
  | case4 c s ih =>
    intro v r h
    obtain ⟨⟨v', r'⟩, h1, h2⟩ := Option.map_eq_some_iff.1 h
    cases h2
    exact (ih h1).trans ⟨['\\', c], rfl⟩
  | case5 c s _ _ _ ih =>
    intro v r h
    obtain ⟨⟨v', r'⟩, h1, h2⟩ := Option.map_eq_some_iff.1 h
    cases h2
    exact (ih h1).trans ⟨[c], rfl⟩

/-- One step of the tokenizer: a blank or a token. -/
theorem tokens_step {c : Char} {s : Text} {ts : List Tok} (h : tokens (c :: s) = some ts) :
    (c ∈ whitespaces ∧ tokens s = some ts) ∨
      ∃ t r ts', r <:+ s ∧ tokens r = some ts' ∧ ts = t :: ts' ∧ (t.ty = .bracketOpen → c = '[' ∧ r = s) := by
  rw [tokens.eq_def] at h
  simp only at h
  split at h
  · obtain ⟨ts', h1, rfl⟩ := Option.map_eq_some_iff.1 h
    refine .inr ⟨_, _, ts', readId_suffix s, h1, rfl, fun hb => ?_⟩
    exfalso
    revert hb
    rw [word]
    split
    · simp
    · split <;> simp
  · split at h
    · split at h
      · cases h
      · rename_i v r h1
        obtain ⟨ts', h2, rfl⟩ := Option.map_eq_some_iff.1 h
        exact .inr ⟨_, _, ts', readDigits_suffix h1, h2, rfl, fun hb => by cases hb⟩
    · split at h
      · exact .inl ⟨by assumption, h⟩
      · split at h
        · split at h
          · cases h
          · rename_i v r h1
            obtain ⟨ts', h2, rfl⟩ := Option.map_eq_some_iff.1 h
            exact .inr ⟨_, _, ts', readString_suffix h1, h2, rfl, fun hb => by cases hb⟩
        · split at h
          · cases h
          · rename_i ty h1
            obtain ⟨ts', h2, rfl⟩ := Option.map_eq_some_iff.1 h
            refine .inr ⟨_, _, ts', List.suffix_refl _, h2, rfl, fun hb => ⟨?_, rfl⟩⟩
            simp only at hb
            subst hb
            unfold symbol at h1
            split at h1
            · cases h1
            · split at h1
              · cases h1
              · split at h1
                · assumption
                · split at h1
                  · cases h1
                  · split at h1
                    · cases h1
                    · split at h1 <;> cases h1

theorem blank_of_tokens {w : Text} (h : tokens w = some []) : Blank w := by
  induction w with
  | nil => exact Blank.nil
  | cons c w ih =>
    rcases tokens_step h with ⟨h1, h2⟩ | ⟨t, r, ts', -, -, h3, -⟩
    · intro d hd
      rcases List.mem_cons.1 hd with rfl | hd
      · have : ∀ c ∈ whitespaces, c = ' ' ∨ c = '\t' ∨ c = '\n' ∨ c = '\r' := by decide
        exact this d h1
      · exact ih h2 d hd
    · cases h3

/-- The last token is an opening bracket only if the text ends with one and blanks. -/
theorem tokens_last {ts : List Tok} {t : Tok} (ht : ts.getLast? = some t) (hb : t.ty = .bracketOpen) :
    ∀ (n : Nat) (text : Text), text.length = n → tokens text = some ts → ∃ p w, text = p ++ '[' :: w ∧ Blank w := by
  intro n
  induction n using Nat.strongRecOn generalizing ts with
  | _ n ih =>
    intro text hn h
    cases text with
    | nil => rw [tokens_nil] at h; cases h; cases ht
    | cons c s =>
      subst hn
      rcases tokens_step h with ⟨-, h2⟩ | ⟨u, r, ts', ⟨q, hq⟩, h2, rfl, h4⟩
      · obtain ⟨p, w, rfl, hw⟩ := ih s.length (by simp) ht s rfl h2
        exact ⟨c :: p, w, rfl, hw⟩
      · cases ts' with
        | nil =>
          cases ht
          obtain ⟨rfl, rfl⟩ := h4 hb
          exact ⟨[], r, rfl, blank_of_tokens h2⟩
        | cons a ts' =>
          rw [List.getLast?_cons_cons] at ht
          have hl : r.length < (c :: s).length := by rw [← hq]; simp; omega
          obtain ⟨p, w, e, hw⟩ := ih r.length hl ht r rfl h2
          exact ⟨c :: (q ++ p), w, by rw [← hq, e]; simp, hw⟩

/-- C138 (partial).  Reading ends, with a value or an exception, for every text that does not end with an opening bracket (and blanks),
within a number of steps proportional to the tokens.  Missing: texts that end with `[`, and that only documents are accepted. -/
theorem reading_ends_partial (text : Text) (h : ∀ p w, Blank w → text ≠ p ++ '[' :: w) :
    ∃ n, ∀ k, n ≤ k → parse k text ≠ .fuel := by
  cases ht : tokens text with
  | none => exact ⟨0, fun k _ => by rw [parse, ht]; simp⟩
  | some ts =>
    refine ⟨3 * ts.length + 1, fun k hk => ?_⟩
    rw [parse, ht]
    show parseTokens k ts ≠ .fuel
    cases ts with
    | nil => simp [parseTokens]
    | cons t r =>
      have hs : Shut (t :: r) := by
        intro u hu hb
        obtain ⟨p, w, e, hw⟩ := tokens_last hu hb _ text rfl ht
        exact h p w hw e
      obtain ⟨⟨h1, -⟩, ⟨h2, -⟩, -, ⟨h3, -⟩, -⟩ := parse_step k (t :: r) hs (by simp)
      rw [parseTokens]
      split
      · exact Res.bind_ne_fuel (h2 (by omega)) fun a _ => by split <;> simp
      · exact Res.bind_ne_fuel (h3 (by omega)) fun a _ => by split <;> simp
      · exact Res.bind_ne_fuel (h1 (by omega)) fun a _ => by split <;> simp

example : ∃ n, ∀ k, n ≤ k → parse k "[1, ]] {".toList ≠ .fuel := by
  refine reading_ends_partial _ fun p w hw e => ?_
  have h1 := congrArg List.getLast? e
  rw [List.getLast?_append] at h1
  cases w with
  | nil => simp [List.getLast?_cons] at h1
  | cons c w =>
    have h2 : ('[' :: c :: w).getLast? = (c :: w).getLast? := by rw [List.getLast?_cons_cons]
    have h3 : (c :: w).getLast? = some ((c :: w).getLast (by simp)) := List.getLast?_eq_some_getLast (by simp)
    have h4 := hw _ (List.getLast_mem (by simp : c :: w ≠ []))
    rw [h2, h3] at h1
    simp at h1
    rw [← h1] at h4
    revert h4
    decide

/-! ### Documents -/

def numberText : Text := "-0.5e+7".toList

theorem number_example : IsNumber False numberText :=
  ⟨['-'], ['0'], ['.', '5'], ['e', '+', '7'], by decide, .inr rfl, ⟨by decide, by unfold Digits; decide, .inl rfl⟩,
    .inr ⟨['5'], rfl, by decide, by unfold Digits; decide⟩,
    .inr ⟨'e', ['+'], ['7'], rfl, .inl rfl, .inr (.inl rfl), by decide, by unfold Digits; decide⟩⟩

/-- A document with escapes, a number, nesting and blanks. -/
theorem document_example :
    Document False (.obj [("k\"".toList, .arr [.null, .num numberText]), ("x".toList, .bool true)])
      " {\"k\\\"\" :\t[null ,-0.5e+7], \"x\":true\n} ".toList := by
  have hb : ∀ {w : Text}, (w.all fun c => decide (c = ' ' ∨ c = '\t' ∨ c = '\n' ∨ c = '\r')) = true → Blank w := by
    intro w h c hc
    exact of_decide_eq_true (List.all_eq_true.1 h c hc)
  have h1 : Writes False (.items [.null, .num numberText]) ([] ++ "null".toList ++ " ".toList ++ ',' :: ([] ++ numberText ++ [])) :=
    .items Blank.nil .null (hb (by decide)) (.item Blank.nil (.num number_example) Blank.nil)
  have hk : Chars False "k\"".toList "k\\\"".toList := .plain (by decide) (by decide) (.escape (.inl rfl) .nil)
  have hx : Chars False "x".toList "x".toList := .plain (by decide) (by decide) .nil
  have h2 := Writes.members (x := False) (a := []) (b := [' ']) (c := ['\t']) (d := []) Blank.nil hk (hb (by decide)) (hb (by decide)) (.arr h1)
    Blank.nil (.member (a := [' ']) (b := []) (c := []) (d := ['\n']) (hb (by decide)) hx Blank.nil Blank.nil .true (hb (by decide)))
  exact ⟨[' '], _, [' '], by decide, hb (by decide), .obj h2, hb (by decide)⟩

example : Reads " {\"k\\\"\" :\t[null ,-0.5e+7], \"x\":true\n} ".toList
    (.obj [("k\"".toList, .arr [.null, .leaf .string numberText]), ("x".toList, .bool true)]) :=
  document_read_partial _ _ (by exact trivial) document_example

example : ¬ Reads " {\"k\\\"\" :\t[null ,-0.5e+7], \"x\":true\n} ".toList
    (denote (.obj [("k\"".toList, .arr [.null, .num numberText]), ("x".toList, .bool true)])) := by
  rw [numbers_refuted _ _ (by exact trivial) document_example]
  simp [quoted, quotedItems, quotedMembers]

example : Rejects " true".toList := by
  refine scalar_refuted (.bool true) _ (fun h => h) ⟨[' '], "true".toList, [], by decide, ?_, .true, Blank.nil⟩
  intro c hc
  simp at hc
  exact .inl hc

/-- A value that the writers write well: an array in an array, `false` at the end. -/
theorem plain_example : Plain (.arr [.num numberText, .obj [("a".toList, .str "b c".toList), ("d".toList, .arr [])], .bool false]) := by
  simp only [Plain, PlainItems, PlainMembers, FalseFirst, Unescaped]
  refine ⟨fun h => h, number_example, ⟨by decide, by decide, by decide, ⟨fun h => h, trivial⟩, trivial⟩, trivial, trivial⟩

example : write styled 0 (denote (.arr [.num numberText, .obj [("a".toList, .str "b c".toList), ("d".toList, .arr [])], .bool false])) =
    "[\n   -0.5e+7,\n   {\n      \"a\": \"b c\",\n      \"d\": [\n\n      ]\n   },\n   false\n]".toList := by
  decide +kernel

example := written_read_partial _ plain_example trivial

example : ¬ Unescaped "a\\b".toList := fun h => (h '\\' (by decide)).2 rfl

example : Reads ("[ null ]".toList ++ ']' :: " 4 } ".toList) (.arr [.null]) := by
  have h := (written_document_partial (.arr [.null]) (by simp [Plain, PlainItems, FalseFirst]) 0).1
  exact garbage_refuted [.null] "[ null ]".toList " 4 } ".toList [⟨.number, ['4']⟩, ⟨.curlyClose, ['}']⟩] h (by decide +kernel)

example : Reads "[[ null ]".toList (.arr [.arr [.null]]) := by
  have h := (written_document_partial (.arr [.null]) (by simp [Plain, PlainItems, FalseFirst]) 0).1
  exact missing_bracket_refuted [.null] "[ null ]".toList h

end Verif.Json
