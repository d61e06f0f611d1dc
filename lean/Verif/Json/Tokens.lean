import Verif.Json.Spec
import Verif.Json.Model

/-! # The tokens of a JSON document -/

namespace Verif.Json

open Verif.Str (Text)

/-- The next character does not go on with a word or a number. -/
def Ends (s : Text) : Prop := ∃ c r, s = c :: r ∧ c ∉ chars ∧ c ∉ digits

theorem tokens_nil : tokens [] = some [] := by rw [tokens.eq_def]

theorem tokens_blank {w : Text} (h : Blank w) (s : Text) : tokens (w ++ s) = tokens s := by
  induction w with
  | nil => rfl
  | cons c w ih =>
    have h1 : c ∉ chars ∧ c ∉ digits ∧ c ∈ whitespaces := by
      rcases h c (List.mem_cons_self ..) with e | e | e | e <;> subst e <;> decide
    rw [List.cons_append, tokens.eq_def]
    simp only [if_neg h1.1, if_neg h1.2.1, if_pos h1.2.2]
    exact ih fun d hd => h d (List.mem_cons_of_mem _ hd)

theorem tokens_symbol {c : Char} {ty : Ty} (h1 : c ∉ chars) (h2 : c ∉ digits) (h3 : c ∉ whitespaces) (h4 : c ≠ '"')
    (h5 : symbol c = some ty) (s : Text) : tokens (c :: s) = (tokens s).map (⟨ty, [c]⟩ :: ·) := by
  rw [tokens.eq_def]
  simp only [if_neg h1, if_neg h2, if_neg h3, if_neg h4, h5]

theorem tokens_bopen (s : Text) : tokens ('[' :: s) = (tokens s).map (⟨.bracketOpen, ['[']⟩ :: ·) :=
  tokens_symbol (by decide) (by decide) (by decide) (by decide) (by decide) s
theorem tokens_bclose (s : Text) : tokens (']' :: s) = (tokens s).map (⟨.bracketClose, [']']⟩ :: ·) :=
  tokens_symbol (by decide) (by decide) (by decide) (by decide) (by decide) s
theorem tokens_copen (s : Text) : tokens ('{' :: s) = (tokens s).map (⟨.curlyOpen, ['{']⟩ :: ·) :=
  tokens_symbol (by decide) (by decide) (by decide) (by decide) (by decide) s
theorem tokens_cclose (s : Text) : tokens ('}' :: s) = (tokens s).map (⟨.curlyClose, ['}']⟩ :: ·) :=
  tokens_symbol (by decide) (by decide) (by decide) (by decide) (by decide) s
theorem tokens_comma (s : Text) : tokens (',' :: s) = (tokens s).map (⟨.comma, [',']⟩ :: ·) :=
  tokens_symbol (by decide) (by decide) (by decide) (by decide) (by decide) s
theorem tokens_colon (s : Text) : tokens (':' :: s) = (tokens s).map (⟨.colon, [':']⟩ :: ·) :=
  tokens_symbol (by decide) (by decide) (by decide) (by decide) (by decide) s

theorem readString_plain {c : Char} (h1 : c ≠ '"') (h2 : c ≠ '\\') (s : Text) :
    readString (c :: s) = (readString s).map fun r => (c :: r.1, r.2) := by
  rw [readString]
  · exact h1
  · intro h; exact absurd h h2
  · intro d r h; exact absurd h h2

theorem readString_escape (c : Char) (s : Text) :
    readString ('\\' :: c :: s) = (readString s).map fun r => (c :: r.1, r.2) := by
  rw [readString]

theorem readString_chars {s t : Text} (h : Chars False s t) (r : Text) : readString (t ++ '"' :: r) = some (s, r) := by
  induction h with
  | nil => rfl
  | plain h1 h2 _ ih => rw [List.cons_append, readString_plain h1 h2, ih]; rfl
  | escape _ _ ih => rw [List.cons_append, List.cons_append, readString_escape, ih]; rfl
  | letter h _ _ _ => exact h.elim

theorem tokens_quote {s v r : Text} (h : readString s = some (v, r)) :
    tokens ('"' :: s) = (tokens r).map (⟨.string, v⟩ :: ·) := by
  rw [tokens.eq_def]
  simp only [if_neg (show '"' ∉ chars by decide), if_neg (show '"' ∉ digits by decide), if_neg (show '"' ∉ whitespaces by decide), if_true]
  split
  · rename_i h'; rw [h] at h'; cases h'
  · rename_i h'; rw [h] at h'; cases h'; rfl

theorem tokens_string {s t : Text} (h : Chars False s t) (r : Text) :
    tokens ('"' :: (t ++ '"' :: r)) = (tokens r).map (⟨.string, s⟩ :: ·) :=
  tokens_quote (readString_chars h r)

theorem readDigits_all {t r : Text} (ht : ∀ c ∈ t, c ∈ digits) (hr : Ends r) : readDigits (t ++ r) = some (t, r) := by
  induction t with
  | nil =>
    obtain ⟨c, r', rfl, -, h⟩ := hr
    rw [List.nil_append, readDigits, if_neg h]
  | cons c t ih =>
    rw [List.cons_append, readDigits, if_pos (ht c (List.mem_cons_self ..)), ih fun d hd => ht d (List.mem_cons_of_mem _ hd)]
    rfl

theorem digit_mem {c : Char} (h : '0' ≤ c ∧ c ≤ '9') : c ∈ digits ∧ c ∉ chars := by
  have h1 : 48 ≤ c.toNat := h.1
  have h2 : c.toNat ≤ 57 := h.2
  have h3 : ∀ n : Fin 10, Char.ofNat (48 + n.val) ∈ digits ∧ Char.ofNat (48 + n.val) ∉ chars := by decide
  have h4 := h3 ⟨c.toNat - 48, by omega⟩
  have h5 : Char.ofNat (48 + (c.toNat - 48)) = c := by
    rw [show 48 + (c.toNat - 48) = c.toNat by omega]; exact Char.ofNat_toNat c
  rwa [h5] at h4

theorem number_chars {t : Text} (h : IsNumber False t) : ∃ c r, t = c :: r ∧ c ∉ chars ∧ ∀ d ∈ t, d ∈ digits := by
  obtain ⟨sign, int, frac, exp, rfl, hs, ⟨hi, hd, -⟩, hf, he⟩ := h
  have hdig : ∀ {l : Text}, Digits l → ∀ d ∈ l, d ∈ digits := fun hl d hm => (digit_mem (hl d hm)).1
  have hall : ∀ d ∈ sign ++ int ++ frac ++ exp, d ∈ digits := by
    intro d hm
    simp only [List.mem_append] at hm
    rcases hm with ((hm | hm) | hm) | hm
    · rcases hs with rfl | rfl
      · cases hm
      · rw [List.mem_singleton] at hm; subst hm; decide
    · exact hdig hd d hm
    · rcases hf with rfl | ⟨ds, rfl, -, h⟩
      · cases hm
      · rcases List.mem_cons.1 hm with rfl | hm
        · decide
        · exact hdig h d hm
    · rcases he with rfl | ⟨e, s, ds, rfl, h1, h2, -, h⟩
      · cases hm
      · rcases List.mem_cons.1 hm with rfl | hm
        · rcases h1 with rfl | ⟨h1, -⟩
          · decide
          · exact h1.elim
        · rcases List.mem_append.1 hm with hm | hm
          · rcases h2 with rfl | rfl | rfl
            · cases hm
            · rw [List.mem_singleton] at hm; subst hm; decide
            · rw [List.mem_singleton] at hm; subst hm; decide
          · exact hdig h d hm
  rcases hs with rfl | rfl
  · cases int with
    | nil => exact absurd rfl hi
    | cons c r => exact ⟨c, r ++ frac ++ exp, by simp, (digit_mem (hd c (List.mem_cons_self ..))).2, hall⟩
  · exact ⟨'-', int ++ frac ++ exp, by simp, by decide, hall⟩

theorem tokens_digits {c : Char} {s v r : Text} (h1 : c ∉ chars) (h2 : c ∈ digits) (h : readDigits s = some (v, r)) :
    tokens (c :: s) = (tokens r).map (⟨.number, c :: v⟩ :: ·) := by
  rw [tokens.eq_def]
  simp only [if_neg h1, if_pos h2]
  split
  · rename_i h'; rw [h] at h'; cases h'
  · rename_i h'; rw [h] at h'; cases h'; rfl

theorem tokens_number {t r : Text} (h : IsNumber False t) (hr : Ends r) :
    tokens (t ++ r) = (tokens r).map (⟨.number, t⟩ :: ·) := by
  obtain ⟨c, t', rfl, h1, h2⟩ := number_chars h
  exact tokens_digits h1 (h2 c (List.mem_cons_self ..)) (readDigits_all (fun d hd => h2 d (List.mem_cons_of_mem _ hd)) hr)

theorem readId_all {t r : Text} (ht : ∀ c ∈ t, c ∈ chars ∨ c ∈ digits) (hr : Ends r) : readId (t ++ r) = (t, r) := by
  induction t with
  | nil =>
    obtain ⟨c, r', rfl, h1, h2⟩ := hr
    rw [List.nil_append, readId, if_neg (by rintro (h | h); exact h1 h; exact h2 h)]
  | cons c t ih =>
    rw [List.cons_append, readId, if_pos (ht c (List.mem_cons_self ..)), ih fun d hd => ht d (List.mem_cons_of_mem _ hd)]

theorem tokens_word {c : Char} {t r : Text} (h1 : c ∈ chars) (ht : ∀ c ∈ t, c ∈ chars ∨ c ∈ digits) (hr : Ends r) :
    tokens (c :: (t ++ r)) = (tokens r).map (word (c :: t) :: ·) := by
  rw [tokens.eq_def]
  simp only [if_pos h1, readId_all ht hr]

theorem Ends.blank {b r : Text} (hb : Blank b) (hr : Ends r) : Ends (b ++ r) := by
  cases b with
  | nil => exact hr
  | cons c b =>
    refine ⟨c, b ++ r, rfl, ?_⟩
    rcases hb c (List.mem_cons_self ..) with e | e | e | e <;> subst e <;> decide

mutual

/-- The tokens of a value. -/
def toks : Json → List Tok
  | .null => [⟨.null, "null".toList⟩]
  | .bool b => [⟨.boolean, if b then "true".toList else "false".toList⟩]
  | .num t => [⟨.number, t⟩]
  | .str s => [⟨.string, s⟩]
  | .arr l => ⟨.bracketOpen, ['[']⟩ :: (itemToks l ++ [⟨.bracketClose, [']']⟩])
  | .obj l => ⟨.curlyOpen, ['{']⟩ :: (memberToks l ++ [⟨.curlyClose, ['}']⟩])

def itemToks : List Json → List Tok
  | [] => []
  | v :: l => toks v ++ (if l.isEmpty then [] else ⟨.comma, [',']⟩ :: itemToks l)

def memberToks : List (Text × Json) → List Tok
  | [] => []
  | (k, v) :: l => ⟨.string, k⟩ :: ⟨.colon, [':']⟩ :: (toks v ++ (if l.isEmpty then [] else ⟨.comma, [',']⟩ :: memberToks l))

end

def Part.toks : Part → List Tok
  | .value v => Verif.Json.toks v
  | .items l => itemToks l
  | .members l => memberToks l

theorem Option.map_comp {α : Type} (o : Option (List α)) (a b : List α) :
    (o.map (b ++ ·)).map (a ++ ·) = o.map ((a ++ b) ++ ·) := by
  cases o <;> simp

/-- The text of a part gives its tokens, whatever follows. -/
theorem tokens_part {p : Part} {t : Text} (h : Writes False p t) :
    ∀ r, Ends r → tokens (t ++ r) = (tokens r).map (p.toks ++ ·) := by
  have fold : ∀ (a : Tok) (o : Option (List Tok)), o.map (a :: ·) = o.map ([a] ++ ·) := fun a o => rfl
  have close : ∀ (c : Char) (r : Text), (c = ']' ∨ c = '}' ∨ c = ',') → Ends (c :: r) := by
    rintro c r (rfl | rfl | rfl) <;> exact ⟨_, _, rfl, by decide, by decide⟩
  induction h with
  | null => intro r hr; exact tokens_word (c := 'n') (t := "ull".toList) (by decide) (by decide) hr
  | true => intro r hr; exact tokens_word (c := 't') (t := "rue".toList) (by decide) (by decide) hr
  | false => intro r hr; exact tokens_word (c := 'f') (t := "alse".toList) (by decide) (by decide) hr
  | num h => intro r hr; exact tokens_number h hr
  | str h => intro r hr; simpa [Part.toks, toks] using tokens_string h r
  | empty h =>
    intro r hr
    rw [List.cons_append, tokens_bopen, List.append_assoc, tokens_blank h, List.cons_append, tokens_bclose, fold, fold, Option.map_comp]
    rfl
  | arr _ ih =>
    intro r hr
    rw [List.cons_append, tokens_bopen, List.append_assoc, List.singleton_append,
      ih _ (close ']' r (.inl rfl)), tokens_bclose, fold, fold,
      Option.map_comp, Option.map_comp]
    simp [Part.toks, toks]
  | none h =>
    intro r hr
    rw [List.cons_append, tokens_copen, List.append_assoc, tokens_blank h, List.cons_append, tokens_cclose, fold, fold, Option.map_comp]
    rfl
  | obj _ ih =>
    intro r hr
    rw [List.cons_append, tokens_copen, List.append_assoc, List.singleton_append,
      ih _ (close '}' r (.inr (.inl rfl))), tokens_cclose, fold,
      fold, Option.map_comp, Option.map_comp]
    simp [Part.toks, toks]
  | item ha _ hb ih =>
    intro r hr
    rw [List.append_assoc, List.append_assoc, tokens_blank ha, ih _ (hr.blank hb), tokens_blank hb]
    simp [Part.toks, itemToks]
  | items ha _ hb _ ih ih2 =>
    intro r hr
    rw [List.append_assoc, List.append_assoc, List.append_assoc, tokens_blank ha, List.cons_append,
      ih _ ((close ',' _ (.inr (.inr rfl))).blank hb), tokens_blank hb, tokens_comma, ih2 r hr, fold, Option.map_comp, Option.map_comp]
    simp [Part.toks, itemToks]
  | member ha hk hb hc _ hd ih =>
    intro r hr
    simp only [List.append_assoc, List.cons_append]
    rw [tokens_blank ha, tokens_string hk, tokens_blank hb, tokens_colon, tokens_blank hc, ih _ (hr.blank hd), tokens_blank hd, fold, fold,
      Option.map_comp, Option.map_comp]
    simp [Part.toks, memberToks]
  | members ha hk hb hc _ hd _ ih ih2 =>
    intro r hr
    simp only [List.append_assoc, List.cons_append]
    rw [tokens_blank ha, tokens_string hk, tokens_blank hb, tokens_colon, tokens_blank hc,
      ih _ ((close ',' _ (.inr (.inr rfl))).blank hd), tokens_blank hd, tokens_comma, ih2 r hr, fold, fold, fold,
      Option.map_comp, Option.map_comp, Option.map_comp, Option.map_comp]
    simp [Part.toks, memberToks]

end Verif.Json
