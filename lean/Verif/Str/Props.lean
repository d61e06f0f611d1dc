import Verif.Str.Words
import Verif.Str.Ext

/-!
# Properties of the string tools (C27, C28, C60 - C63)
-/

namespace Verif.Str

/-! ## C27: integers survive conversion to text and back -/

/-- Every 64-bit integer survives printing and reading back. -/
theorem int_text_roundtrip (i : Int) (h : -2 ^ 63 ≤ i ∧ i < 2 ^ 63) : stringToInt (intToString i) = i :=
  stringToInt_intToString i (by omega)

example : (-2 ^ 63 : Int) ≤ -42 ∧ (-42 : Int) < 2 ^ 63 := by decide
example : intToString (-42) = "-42".toList := by simp [intToString, natDigits, digitChar]

/-- Different integers have different texts. -/
theorem int_text_injective (i j : Int) (hi : -2 ^ 63 ≤ i ∧ i < 2 ^ 63) (hj : -2 ^ 63 ≤ j ∧ j < 2 ^ 63)
    (h : intToString i = intToString j) : i = j := by
  rw [← int_text_roundtrip i hi, h, int_text_roundtrip j hj]

/-- The text has the conventional form: an optional minus sign and digits, and the digits are worth the
absolute value in base 10 (no leading zeros). -/
theorem int_text_form (i : Int) :
    ∃ ds : Text, ds ≠ [] ∧ intToString i = (if i < 0 then '-' :: ds else ds) ∧
      (∀ c ∈ ds, c ∈ ['0', '1', '2', '3', '4', '5', '6', '7', '8', '9']) ∧ (ds.head? = some '0' → ds = ['0']) ∧
      ds.foldl (fun n c => n * 10 + (c.toNat - '0'.toNat)) 0 = i.natAbs := by
  have dig : ∀ n, n < 10 → digitChar n ∈ ['0', '1', '2', '3', '4', '5', '6', '7', '8', '9'] := by
    intro n h
    have : n = 0 ∨ n = 1 ∨ n = 2 ∨ n = 3 ∨ n = 4 ∨ n = 5 ∨ n = 6 ∨ n = 7 ∨ n = 8 ∨ n = 9 := by omega
    rcases this with rfl | rfl | rfl | rfl | rfl | rfl | rfl | rfl | rfl | rfl <;> decide
  have all : ∀ n : Nat, (∀ c ∈ natDigits n, c ∈ ['0', '1', '2', '3', '4', '5', '6', '7', '8', '9']) ∧
      ((natDigits n).head? = some '0' → n = 0) := by
    intro n
    induction n using natDigits.induct with
    | case1 n h =>
      unfold natDigits; rw [if_pos h]
      refine ⟨fun c hc => by simp only [List.mem_singleton] at hc; subst hc; exact dig n h, ?_⟩
      have : n = 0 ∨ n = 1 ∨ n = 2 ∨ n = 3 ∨ n = 4 ∨ n = 5 ∨ n = 6 ∨ n = 7 ∨ n = 8 ∨ n = 9 := by omega
      rcases this with rfl | rfl | rfl | rfl | rfl | rfl | rfl | rfl | rfl | rfl <;> decide
    | case2 n h ih =>
      unfold natDigits; rw [if_neg h]
      refine ⟨fun c hc => ?_, fun hh => ?_⟩
      · rcases List.mem_append.1 hc with hc | hc
        · exact ih.1 c hc
        · simp only [List.mem_singleton] at hc; subst hc; exact dig _ (Nat.mod_lt _ (by omega))
      · have hne := natDigits_ne_nil (n / 10)
        have := ih.2 (by
          cases hx : natDigits (n / 10) with
          | nil => exact absurd hx hne
          | cons a l => rw [hx] at hh; simpa using hh)
        omega
  refine ⟨natDigits i.natAbs, natDigits_ne_nil _, rfl, (all _).1, fun h => ?_, digitsVal_natDigits _⟩
  rw [(all _).2 h]; simp [natDigits, digitChar]

/-! ## C28: text to boolean -/

theorem lowerChar_eq (c : Char) : lowerChar c = c.toLower := by
  unfold lowerChar Char.toLower
  have h : ('A' ≤ c ∧ c ≤ 'Z') ↔ (c.val ≥ 'A'.val ∧ c.val ≤ 'Z'.val) := by
    simp [Char.le_def]
  split
  · rename_i hc
    rw [h] at hc
    rw [dif_pos hc]
    apply Char.ext
    have h1 : 65 ≤ c.val.toNat := by simpa using UInt32.le_iff_toNat_le.1 hc.1
    have h2 : c.val.toNat ≤ 90 := by simpa using UInt32.le_iff_toNat_le.1 hc.2
    have hv : Nat.isValidChar (c.toNat + 32) := by left; show c.val.toNat + 32 < _; omega
    simp only [Char.ofNat, dif_pos hv, Char.ofNatAux]
    apply UInt32.toNat_inj.1
    have : ('a'.val - 'A'.val).toNat = 32 := by decide
    show c.toNat + 32 = (c.val + ('a'.val - 'A'.val)).toNat
    rw [UInt32.toNat_add, this]
    show c.val.toNat + 32 = _
    omega
  · rename_i hc
    rw [h] at hc
    rw [dif_neg hc]

theorem trim_unique {a m b : Text} {t : List Char} (ha : ∀ c ∈ a, c ∈ t) (hb : ∀ c ∈ b, c ∈ t)
    (hh : ∀ c, m.head? = some c → c ∉ t) (hl : ∀ c, m.getLast? = some c → c ∉ t) : trim (a ++ m ++ b) t = m := by
  have nilOf : ∀ s : Text, (∀ c ∈ s, c ∈ t) → trimRight s t = [] := by
    intro s hs
    obtain ⟨b', e, -, h3⟩ := trimRight_spec s t
    rcases List.eq_nil_or_concat (trimRight s t) with h | ⟨r, c, h⟩
    · exact h
    · exfalso
      have hc : c ∉ t := h3 c (by rw [h]; simp)
      exact hc (hs c (by rw [e, h]; simp))
  have rt : ∀ (b s : Text), (∀ c ∈ b, c ∈ t) → (∀ c, s.getLast? = some c → c ∉ t) → trimRight (s ++ b) t = s := by
    intro b s hb hs
    obtain ⟨b', e, h2, h3⟩ := trimRight_spec (s ++ b) t
    have key : ∀ (x y p q : Text), (∀ c ∈ x, c ∈ t) → (∀ c ∈ y, c ∈ t) → (∀ c, p.head? = some c → c ∉ t) →
        (∀ c, q.head? = some c → c ∉ t) → x ++ p = y ++ q → p = q := by
      intro x
      induction x with
      | nil =>
        intro y p q _ hy hp _ e
        cases y with
        | nil => simpa using e
        | cons z y => simp at e; exact absurd (hy z (by simp)) (hp z (by rw [e]; rfl))
      | cons w x ih =>
        intro y p q hx hy hp hq e
        cases y with
        | nil => simp at e; exact absurd (hx w (by simp)) (hq w (by rw [← e]; rfl))
        | cons z y =>
          simp at e
          exact ih y p q (fun c hc => hx c (by simp [hc])) (fun c hc => hy c (by simp [hc])) hp hq e.2
    have e' := congrArg List.reverse e
    rw [List.reverse_append, List.reverse_append] at e'
    have := key b.reverse b'.reverse s.reverse (trimRight (s ++ b) t).reverse (by simpa using hb) (by simpa using h2)
      (by simpa using hs) (by simpa using h3) e'
    exact (List.reverse_inj.1 this).symm
  unfold trim
  cases m with
  | nil =>
    rw [nilOf (a ++ [] ++ b) (by
      intro c hc
      rw [List.append_nil, List.mem_append] at hc
      exact hc.elim (ha c) (hb c))]
    exact trimLeft_of_head (by simp)
  | cons x m =>
    rw [rt b (a ++ x :: m) hb (by
      intro c hc
      rw [List.getLast?_append] at hc
      rw [List.getLast?_cons] at hc hl
      exact hl c (by simpa using hc))]
    obtain ⟨a', e, h2, h3⟩ := trimLeft_spec (a ++ x :: m) t
    have key : ∀ (x y p q : Text), (∀ c ∈ x, c ∈ t) → (∀ c ∈ y, c ∈ t) → (∀ c, p.head? = some c → c ∉ t) →
        (∀ c, q.head? = some c → c ∉ t) → x ++ p = y ++ q → p = q := by
      intro x
      induction x with
      | nil =>
        intro y p q _ hy hp _ e
        cases y with
        | nil => simpa using e
        | cons z y => simp at e; exact absurd (hy z (by simp)) (hp z (by rw [e]; rfl))
      | cons w x ih =>
        intro y p q hx hy hp hq e
        cases y with
        | nil => simp at e; exact absurd (hx w (by simp)) (hq w (by rw [← e]; rfl))
        | cons z y =>
          simp at e
          exact ih y p q (fun c hc => hx c (by simp [hc])) (fun c hc => hy c (by simp [hc])) hp hq e.2
    exact (key a a' (x :: m) _ ha h2 hh h3 e).symm

/-- A text is false exactly when it consists of spaces around nothing, a newline, or the word
"false" in any case. -/
theorem text_false_iff (s : Text) :
    stringToBool s = false ↔
      ∃ a m b, s = a ++ m ++ b ∧ (∀ c ∈ a, c = ' ') ∧ (∀ c ∈ b, c = ' ') ∧
        (m = [] ∨ m = ['\n'] ∨ m.map Char.toLower = ['f', 'a', 'l', 's', 'e']) := by
  have hlow : ∀ m : Text, toLowerCase m = m.map Char.toLower := by
    intro m; unfold toLowerCase; congr 1; funext c; exact lowerChar_eq c
  constructor
  · intro h
    obtain ⟨b, e1, hb, hl⟩ := trimRight_spec s [' ']
    obtain ⟨a, e2, ha, hh⟩ := trimLeft_spec (trimRight s [' ']) [' ']
    refine ⟨a, trim s [' '], b, ?_, by simpa using ha, by simpa using hb, ?_⟩
    · show s = a ++ trimLeft (trimRight s [' ']) [' '] ++ b
      rw [← e2, ← e1]
    · simp only [stringToBool, hlow, Bool.and_eq_false_iff, Bool.not_eq_false', bne_eq_false_iff_eq, List.isEmpty_iff,
        List.map_eq_nil_iff] at h
      rcases h with (h | h) | h
      · exact .inl h
      · right; left
        cases hm : trim s [' '] with
        | nil => rw [hm] at h; simp at h
        | cons c m =>
          rw [hm] at h
          simp only [List.map_cons, List.cons.injEq, List.map_eq_nil_iff] at h
          obtain ⟨h, rfl⟩ := h
          have : c = '\n' := by
            have hc := lowerChar_eq c
            unfold lowerChar at hc
            rw [h] at hc
            split at hc
            · rename_i hr
              exfalso
              have h1 : 65 ≤ c.toNat := UInt32.le_iff_toNat_le.1 (Char.le_def.1 hr.1)
              have h2 : c.toNat ≤ 90 := UInt32.le_iff_toNat_le.1 (Char.le_def.1 hr.2)
              have hv : Nat.isValidChar (c.toNat + 32) := by left; omega
              have h3 : (Char.ofNat (c.toNat + 32)).toNat = c.toNat + 32 := by
                simp only [Char.ofNat, dif_pos hv, Char.ofNatAux]; rfl
              rw [hc] at h3
              have h4 : '\n'.toNat = 10 := rfl
              omega
            · exact hc
          rw [this]
      · right; right
        exact h
  · rintro ⟨a, m, b, rfl, ha, hb, hm⟩
    have nosp : ∀ c : Char, c.toLower ∈ ['f', 'a', 'l', 's', 'e'] → c ∉ [' '] := by
      intro c hc h
      simp only [List.mem_singleton] at h; subst h; revert hc; decide
    have ht : trim (a ++ m ++ b) [' '] = m := by
      apply trim_unique (by simpa using ha) (by simpa using hb)
      · rcases hm with rfl | rfl | hm
        · simp
        · intro c hc; simp at hc; subst hc; decide
        · intro c hc
          have : c ∈ m := List.mem_of_head? hc
          exact nosp c (by rw [← hm]; exact List.mem_map_of_mem this)
      · rcases hm with rfl | rfl | hm
        · simp
        · intro c hc; simp at hc; subst hc; decide
        · intro c hc
          have : c ∈ m := List.mem_of_getLast? hc
          exact nosp c (by rw [← hm]; exact List.mem_map_of_mem this)
    unfold stringToBool
    rw [ht, hlow]
    rcases hm with rfl | rfl | hm
    · rfl
    · decide
    · rw [hm]; decide

example : stringToBool "  FaLSe ".toList = false := by decide
example : stringToBool "no".toList = true := by decide

/-- `toString(bool)` (Strings.h:46-51): stream output without `boolalpha`; this is what
`AtomicValue::toStdString` (AtomicValue.cpp:279-293) uses. -/
def boolToString (b : Bool) : Text := if b then ['1'] else ['0']

/-- The second half of C28 fails: `false` becomes the text "0", which reads back as `true`. -/
theorem bool_text_roundtrip_refuted : ¬ ∀ b, stringToBool (boolToString b) = b := by
  intro h
  exact absurd (h false) (by decide)

/-- `true` survives, and so do both of the words used in source code ("true", "false"); the text is the one of the number 1 or 0. -/
theorem bool_text_roundtrip_partial :
    stringToBool (boolToString true) = true ∧ stringToBool "true".toList = true ∧ stringToBool "false".toList = false ∧
      ∀ b, boolToString b = intToString (if b then 1 else 0) := by
  refine ⟨by decide, by decide, by decide, fun b => ?_⟩
  cases b <;> decide +kernel

/-! ## C60: splitting -/

/-- Splitting at a separator that occurs: head without separator, and nothing is lost. -/
theorem split_at_first (s : Text) (c : Char) (h : c ∈ s) :
    s = (splitBy s c).1 ++ c :: (splitBy s c).2 ∧ c ∉ (splitBy s c).1 := by
  rcases splitBy_spec s c with ⟨hn, -⟩ | ⟨a, t, e, hc, es⟩
  · exact absurd h hn
  · rw [es]; exact ⟨e, hc⟩

example : '.' ∈ "a.b.c".toList ∧ splitBy "a.b.c".toList '.' = ("a".toList, "b.c".toList) := by decide

/-- Splitting at a separator that does not occur. -/
theorem split_absent (s : Text) (c : Char) (h : c ∉ s) : splitBy s c = (s, []) := splitBy_not_mem h

example : '.' ∉ "abc".toList ∧ splitBy "abc".toList '.' = ("abc".toList, []) := by decide

/-- The variant with the fixed separator is the same function. -/
theorem split_is_splitBy (s : Text) : split s = splitBy s '.' := split_eq_splitBy s

/-! ## C61: trimming -/

/-- Trimming removes exactly the maximal runs at both ends. -/
theorem trim_removes_maximal_runs (s : Text) (t : List Char) :
    (∃ a b, s = a ++ trim s t ++ b ∧ (∀ c ∈ a, c ∈ t) ∧ (∀ c ∈ b, c ∈ t)) ∧
    (∀ c, (trim s t).head? = some c → c ∉ t) ∧ (∀ c, (trim s t).getLast? = some c → c ∉ t) := by
  obtain ⟨b, e1, hb, hl⟩ := trimRight_spec s t
  obtain ⟨a, e2, ha, hh⟩ := trimLeft_spec (trimRight s t) t
  refine ⟨⟨a, b, ?_, ha, hb⟩, hh, ?_⟩
  · show s = a ++ trimLeft (trimRight s t) t ++ b
    rw [← e2, ← e1]
  · intro c hc
    apply hl c
    rw [e2, List.getLast?_append]
    show Option.or (trim s t).getLast? _ = _
    rw [hc]; rfl

example : trim "  a b ".toList [' '] = "a b".toList := by decide

/-- Trimming one side only. -/
theorem trim_left_removes_maximal_run (s : Text) (t : List Char) :
    (∃ a, s = a ++ trimLeft s t ∧ ∀ c ∈ a, c ∈ t) ∧ ∀ c, (trimLeft s t).head? = some c → c ∉ t := by
  obtain ⟨a, h1, h2, h3⟩ := trimLeft_spec s t
  exact ⟨⟨a, h1, h2⟩, h3⟩

/-- Trimming the other side only. -/
theorem trim_right_removes_maximal_run (s : Text) (t : List Char) :
    (∃ b, s = trimRight s t ++ b ∧ ∀ c ∈ b, c ∈ t) ∧ ∀ c, (trimRight s t).getLast? = some c → c ∉ t := by
  obtain ⟨b, h1, h2, h3⟩ := trimRight_spec s t
  exact ⟨⟨b, h1, h2⟩, h3⟩

/-- Trimming again changes nothing. -/
theorem trim_idempotent (s : Text) (t : List Char) : trim (trim s t) t = trim s t := by
  obtain ⟨-, hh, hl⟩ := trim_removes_maximal_runs s t
  have e : trim (trim s t) t = trimLeft (trimRight (trim s t) t) t := rfl
  rw [e, trimRight_of_last hl, trimLeft_of_head hh]

/-! ## C164: quoted text -/

/-- A text between two equal quotation marks is what `extract` gives back. -/
theorem extract_quoted (q : Char) (hq : q = '"' ∨ q = '\'') (s : Text) : extract ([q] ++ s ++ [q]) = s := by
  have hl : (q :: (s ++ [q])).getLast? = some q := by
    rw [← List.cons_append, List.getLast?_concat]
  have ht : ((q :: (s ++ [q])).drop 1).take ((q :: (s ++ [q])).length - 2) = s := by simp
  rcases hq with rfl | rfl <;> simp [extract] at hl ⊢ <;> exact fun h => absurd hl h

/-- Any text that is not between two equal quotation marks gives the empty text. -/
theorem extract_unquoted (s : Text) (h : ∀ q r, q = '"' ∨ q = '\'' → s ≠ [q] ++ r ++ [q]) : extract s = [] := by
  have key : ∀ q, q = '"' ∨ q = '\'' → ∀ r, q :: r = s → r ≠ [] → r.getLast? ≠ some q := by
    intro q hq r e hr hl
    refine h q r.dropLast hq ?_
    rw [List.getLast?_eq_some_getLast hr, Option.some.injEq] at hl
    have := List.dropLast_concat_getLast hr
    rw [hl] at this
    rw [← e, List.append_assoc, this]
    rfl
  match s, key with
  | [], _ => rfl
  | [c], _ => simp only [extract]; split <;> (try split) <;> simp
  | c :: d :: r, key =>
    have h2 := key '"' (.inl rfl)
    have h3 := key '\'' (.inr rfl)
    simp only [extract]
    split
    · rename_i hc
      subst hc
      rw [if_neg]
      rintro ⟨_, hl⟩
      exact h2 _ rfl (by simp) (by simpa using hl)
    · split
      · rename_i hc
        subst hc
        rw [if_neg]
        rintro ⟨_, hl⟩
        exact h3 _ rfl (by simp) (by simpa using hl)
      · rfl

example : extract "\"a'b\"".toList = "a'b".toList ∧ extract "'x\"".toList = [] ∧ extract "\"".toList = [] := by decide +kernel

/-! ## C62: the word splitter -/

/-- Iterating the splitter over a text ends after at most one round more than the text has characters, and yields
exactly the maximal delimiter-free pieces (`IsWords` determines them, see `words_unique`). -/
theorem words_exact (s : Text) (d : List Char) (hd : d ≠ []) (fuel : Nat) (hf : s.length < fuel) :
    ∃ ws, (WordSplitter.new s d).collect fuel = some ws ∧ IsWords d s ws := by
  have hemp : d.isEmpty = false := by simpa using hd
  obtain ⟨ws, h1, h2⟩ := collect_spec fuel (WordSplitter.new s d) (by simpa [WordSplitter.new] using hf)
  refine ⟨ws, h1, ?_⟩
  simpa [WordSplitter.new, hemp] using h2

example : (WordSplitter.new " ab  c;".toList [' ', ';']).collect 8 = some ["ab".toList, "c".toList] := by decide

/-- With no delimiters given, the default ones are used. -/
theorem words_default (s : Text) (fuel : Nat) (hf : s.length < fuel) :
    ∃ ws, (WordSplitter.new s []).collect fuel = some ws ∧ IsWords [' ', '\t', '\n', '\r', ';'] s ws := by
  obtain ⟨ws, h1, h2⟩ := collect_spec fuel (WordSplitter.new s []) (by simpa [WordSplitter.new] using hf)
  exact ⟨ws, h1, h2⟩

/-- The specification has at most one solution. -/
theorem words_unique (d : List Char) (s : Text) (ws ws' : List Text) (h : IsWords d s ws) (h' : IsWords d s ws') :
    ws = ws' := h.unique h'

/-! ## C63: string library functions -/

/-- `substr(value, start, length)` is the slice at `start` with at most `length` characters, ended early only by the
end of the text; a negative length means "to the end". -/
theorem substr_slice (s r : Text) (start len : Int) (hs : s.length < 2 ^ 62) (h1 : -2 ^ 63 ≤ start ∧ start < 2 ^ 63)
    (h2 : -2 ^ 63 ≤ len ∧ len < 2 ^ 63) :
    extSubstr s start (some len) = .ok r ↔
      ∃ a b, s = a ++ r ++ b ∧ (a.length : Int) = start ∧
        ((0 ≤ len ∧ (r.length : Int) ≤ len ∧ ((r.length : Int) = len ∨ b = [])) ∨ (len < 0 ∧ b = [])) := by
  have ht : ∃ n : Nat, toSize len = n ∧ ((0 ≤ len ∧ (n : Int) = len) ∨ (len < 0 ∧ 2 ^ 63 ≤ n)) := by
    refine ⟨_, rfl, ?_⟩
    unfold toSize; omega
  obtain ⟨n, hn, hnc⟩ := ht
  unfold extSubstr substr
  simp only [hn]
  by_cases hneg : start < 0
  · have : ¬ ∃ a : Text, (a.length : Int) = start := by rintro ⟨a, ha⟩; omega
    have hbig := toSize_of_neg (i := start) (by omega)
    rw [if_pos (by omega)]
    constructor
    · intro h; simp at h
    · rintro ⟨a, b, -, ha, -⟩; exact absurd ⟨a, ha⟩ this
  · rw [toSize_of_nonneg (by omega)]
    by_cases hgt : start.toNat > s.length
    · rw [if_pos hgt]
      constructor
      · intro h; simp at h
      · rintro ⟨a, b, e, ha, -⟩
        have := congrArg List.length e
        simp at this; omega
    · rw [if_neg hgt]
      simp only [Ext.ok.injEq]
      constructor
      · intro h
        refine ⟨s.take start.toNat, (s.drop start.toNat).drop n, ?_, ?_, ?_⟩
        · rw [← h, List.append_assoc, List.take_append_drop, List.take_append_drop]
        · rw [List.length_take]; omega
        · have hr : r.length = min n (s.length - start.toNat) := by rw [← h]; simp
          rcases hnc with ⟨h0, hnl⟩ | ⟨h0, hnl⟩
          · left
            refine ⟨h0, by omega, ?_⟩
            by_cases hle : n ≤ s.length - start.toNat
            · left; omega
            · right; rw [List.drop_drop, List.drop_eq_nil_iff]; omega
          · right
            refine ⟨h0, ?_⟩
            rw [List.drop_drop, List.drop_eq_nil_iff]; omega
      · rintro ⟨a, b, e, ha, hc⟩
        have hst : start.toNat = a.length := by omega
        rw [hst, e, List.append_assoc, List.drop_left' rfl]
        rcases hc with ⟨h0, hle, hc⟩ | ⟨h0, rfl⟩
        · rcases hnc with ⟨-, hnl⟩ | ⟨hx, -⟩
          · rcases hc with hc | rfl
            · rw [List.take_left' (by omega)]
            · rw [List.append_nil, List.take_of_length_le (by omega)]
          · omega
        · rcases hnc with ⟨hx, -⟩ | ⟨-, hbig⟩
          · omega
          · rw [List.append_nil, List.take_of_length_le]
            have := congrArg List.length e
            simp at this; omega

example : extSubstr "hello".toList 1 (some 3) = .ok "ell".toList := by decide

/-- Without a length: everything from `start` on. -/
theorem substr_rest (s r : Text) (start : Int) (hs : s.length < 2 ^ 62) (h1 : -2 ^ 63 ≤ start ∧ start < 2 ^ 63) :
    extSubstr s start none = .ok r ↔ ∃ a, s = a ++ r ∧ (a.length : Int) = start := by
  have := substr_slice s r start (-1) hs h1 (by omega)
  have e : extSubstr s start none = extSubstr s start (some (-1)) := by
    unfold extSubstr
    rfl
  rw [e, this]
  constructor
  · rintro ⟨a, b, e, ha, hc⟩
    rcases hc with ⟨h, -⟩ | ⟨-, rfl⟩
    · omega
    · exact ⟨a, by simpa using e, ha⟩
  · rintro ⟨a, e, ha⟩
    exact ⟨a, [], by simpa using e, ha, .inr ⟨by omega, rfl⟩⟩

/-- Starting outside the text raises an exception. -/
theorem substr_out_of_range (s : Text) (start : Int) (len : Option Int) (hs : s.length < 2 ^ 62)
    (h1 : -2 ^ 63 ≤ start ∧ start < 2 ^ 63) (h : start < 0 ∨ start > s.length) : extSubstr s start len = .exception := by
  have : toSize start > s.length := by
    rcases h with h | h
    · have := toSize_of_neg (i := start) (by omega); omega
    · rw [toSize_of_nonneg (by omega)]; omega
  simp only [extSubstr, substr, if_pos this]

example : extSubstr "hello".toList (-1) none = .exception := by decide

/-- `strpos(value, index)` is the character at the index, for every index inside the text. -/
theorem strpos_char (s : Text) (i : Int) (h : 0 ≤ i ∧ i < s.length) (hs : s.length < 2 ^ 62) :
    ∃ a c b, s = a ++ c :: b ∧ (a.length : Int) = i ∧ extStrpos s i = .ok [c] := by
  have hi : i.toNat < s.length := by omega
  refine ⟨s.take i.toNat, s[i.toNat], s.drop (i.toNat + 1), ?_, ?_, ?_⟩
  · rw [List.getElem_cons_drop, List.take_append_drop]
  · rw [List.length_take]; omega
  · simp only [extStrpos, substr, toSize_of_nonneg (i := i) (by omega)]
    rw [if_neg (by omega), if_neg (by omega)]
    simp only [Ext.ok.injEq]
    rw [← List.getElem_cons_drop hi]; rfl

example : extStrpos "hello".toList 1 = .ok ['e'] := by decide

/-- An index outside the text raises an exception, except the index just behind the last character. -/
theorem strpos_out_of_range_partial (s : Text) (i : Int) (hr : -2 ^ 63 ≤ i ∧ i < 2 ^ 63) (hs : s.length < 2 ^ 62)
    (h : i < 0 ∨ i > s.length) : extStrpos s i = .exception := by
  have : toSize i > s.length := by
    rcases h with h | h
    · have := toSize_of_neg (i := i) (by omega); omega
    · rw [toSize_of_nonneg (by omega)]; omega
  simp only [extStrpos, if_pos this]

/-- The index just behind the last character is not rejected (StrPos.h:47 tests `>` instead of `>=`). -/
theorem strpos_out_of_range_refuted :
    ¬ ∀ (s : Text) (i : Int), s.length ≤ i → i < 2 ^ 31 → extStrpos s i = .exception := by
  intro h
  exact absurd (h ['a'] 1 (by decide) (by decide)) (by decide)

/-- `strfind(source, target, position)` is the first index at or after the position where the target
occurs, and -1 if there is none. -/
theorem strfind_first (s t : Text) (p : Int) (hs : s.length < 2 ^ 31) (hp : 0 ≤ p ∧ p < 2 ^ 63) :
    (extStrfind s t p = .ok (-1) ∧ ¬ ∃ a b, s = a ++ t ++ b ∧ p ≤ a.length) ∨
    (∃ a b, s = a ++ t ++ b ∧ p ≤ a.length ∧ extStrfind s t p = .ok a.length ∧
      ∀ a' b', s = a' ++ t ++ b' → p ≤ a'.length → a.length ≤ a'.length) := by
  have hsz := toSize_of_nonneg (i := p) (by omega)
  rcases stdFind_spec s t (toSize p) (by unfold npos; omega) with ⟨h1, h2⟩ | ⟨a, b, e, hp', h1, h2⟩
  · left
    refine ⟨by simp only [extStrfind, h1]; decide, ?_⟩
    rintro ⟨a, b, e, hle⟩
    exact h2 ⟨a, b, e, by omega⟩
  · right
    refine ⟨a, b, e, by omega, ?_, fun a' b' e' hle => h2 a' b' e' (by omega)⟩
    have hlen : a.length ≤ s.length := by rw [e]; simp
    simp only [extStrfind, h1, toInt32, Ext.ok.injEq]
    rw [Nat.mod_eq_of_lt (by omega), if_pos (by omega)]

/-- A position outside the text raises no exception: the answer is -1, as if the target did not occur — also for a negative position, behind
which the target does occur. -/
theorem strfind_out_of_range_refuted (s t : Text) (p : Int) (hs : s.length < 2 ^ 31) (hr : -2 ^ 63 ≤ p ∧ p < 2 ^ 63)
    (h : p < 0 ∨ p > s.length) : extStrfind s t p = .ok (-1) := by
  have hsz : s.length < toSize p := by
    rcases h with h | h
    · have := toSize_of_neg (i := p) (by omega); omega
    · rw [toSize_of_nonneg (by omega)]; omega
  rcases stdFind_spec s t (toSize p) (by unfold npos; omega) with ⟨h1, _⟩ | ⟨a, b, e, hp', _, _⟩
  · simp only [extStrfind, h1]; decide
  · have hlen : a.length ≤ s.length := by rw [e]; simp
    omega

example : extStrfind "abcabc".toList "bc".toList 2 = .ok 4 := by decide
example : extStrfind "abc".toList "bc".toList (-1) = .ok (-1) := by decide
example : extStrfind "abcabc".toList "x".toList 0 = .ok (-1) := by decide

/-- `strlpad` fills up on the left to the wanted length and never shortens. -/
theorem strlpad_pads (s : Text) (n : Int) (c : Char) (hn : 0 ≤ n ∧ n < 2 ^ 31) :
    ∃ k : Nat, extStrlpad s n [c] = .ok (List.replicate k c ++ s) ∧ ((k + s.length : Nat) : Int) = max n s.length := by
  simp only [extStrlpad, toSize_of_nonneg (i := n) (by omega)]
  by_cases h : n.toNat > s.length
  · rw [if_pos h, if_neg (by unfold maxSize; omega)]
    exact ⟨n.toNat - s.length, rfl, by omega⟩
  · rw [if_neg h]
    exact ⟨0, rfl, by omega⟩

/-- `strrpad` fills up on the right to the wanted length and never shortens. -/
theorem strrpad_pads (s : Text) (n : Int) (c : Char) (hn : 0 ≤ n ∧ n < 2 ^ 31) :
    ∃ k : Nat, extStrrpad s n [c] = .ok (s ++ List.replicate k c) ∧ ((k + s.length : Nat) : Int) = max n s.length := by
  simp only [extStrrpad, toSize_of_nonneg (i := n) (by omega)]
  by_cases h : n.toNat > s.length
  · rw [if_pos h, if_neg (by unfold maxSize; omega)]
    exact ⟨n.toNat - s.length, rfl, by omega⟩
  · rw [if_neg h]
    exact ⟨0, by simp, by omega⟩

example : extStrlpad "7".toList 3 ['0'] = .ok "007".toList := by decide
example : extStrrpad "7".toList 3 ['0'] = .ok "700".toList := by decide

/-- A pattern that is not a single character, and a negative length, raise an exception. -/
theorem pad_invalid (s : Text) (n : Int) (p : Text) (hs : s.length < 2 ^ 62) (hn : -2 ^ 63 ≤ n ∧ n < 2 ^ 63)
    (h : p.length ≠ 1 ∨ n < 0) : extStrlpad s n p = .exception ∧ extStrrpad s n p = .exception := by
  match p with
  | [] => exact ⟨rfl, rfl⟩
  | _ :: _ :: _ => exact ⟨rfl, rfl⟩
  | [c] =>
    rcases h with h | h
    · simp at h
    · have := toSize_of_neg (i := n) (by omega)
      simp only [extStrlpad, extStrrpad]
      rw [if_pos (by omega), if_pos (by unfold maxSize; omega)]
      exact ⟨rfl, by rw [if_pos (by omega), if_pos (by unfold maxSize; omega)]⟩

/-! ## C71: file name decomposition -/

/-- A path with a separator is its directory part followed by its file name; the file name has no separator and the
directory part ends with one. -/
theorem path_decomposes (f : Text) (h : '/' ∈ f ∨ '\\' ∈ f) :
    extractPathname f ++ extractFilename f = f ∧ '/' ∉ extractFilename f ∧ '\\' ∉ extractFilename f ∧
      ((extractPathname f).getLast? = some '/' ∨ (extractPathname f).getLast? = some '\\') := by
  have hne : f.isEmpty = false := by
    cases f with
    | nil => simp at h
    | cons _ _ => rfl
  unfold extractPathname extractFilename
  simp only [hne, Bool.false_eq_true, if_false]
  cases hf : findLastOf ['\\', '/'] f with
  | none =>
    have := findLastOf_none.1 hf
    rcases h with h | h
    · exact absurd (by simp) (this _ h)
    · exact absurd (by simp) (this _ h)
  | some i =>
    obtain ⟨c, e, hc, hd, hi⟩ := findLastOf_some hf
    simp only
    refine ⟨List.take_append_drop _ _, fun hx => hd _ hx (by simp), fun hx => hd _ hx (by simp), ?_⟩
    have : (f.take (i + 1)).getLast? = some c := by
      rw [List.take_add_one]
      have : f[i]? = some c := by
        rw [e, List.getElem?_append_right (by rw [List.length_take]; omega), List.length_take]
        rw [show i - min i f.length = 0 by omega]; rfl
      rw [this]; simp
    rw [this]
    simp at hc
    rcases hc with rfl | rfl
    · exact .inr rfl
    · exact .inl rfl

example : extractPathname "a/b.os".toList = "a/".toList ∧ extractFilename "a/b.os".toList = "b.os".toList := by decide

/-- Without separator the whole text is the file name. -/
theorem filename_of_plain (f : Text) (h : '/' ∉ f ∧ '\\' ∉ f) : extractFilename f = f := by
  have : findLastOf ['\\', '/'] f = none := findLastOf_none.2 (by
    intro d hd hm
    simp at hm
    rcases hm with rfl | rfl
    · exact h.2 hd
    · exact h.1 hd)
  unfold extractFilename
  rw [this]; split <;> rfl

/-- A name without separator has no directory part, yet its "path name" is the whole name. -/
theorem pathname_of_plain_refuted :
    ¬ ∀ f : Text, extractPathname f ++ extractFilename f = f := by
  intro h
  exact absurd (h ['a']) (by decide)

/-- Removing the extension of a name with non-empty extension gives the name back when the extension is put on again;
the extension has no dot. -/
theorem extension_decomposes (f : Text) (h : extractFileExt f ≠ []) :
    removeFileExt f ++ '.' :: extractFileExt f = f ∧ '.' ∉ extractFileExt f := by
  have hne : f.isEmpty = false := by
    cases f with
    | nil => exact absurd rfl h
    | cons _ _ => rfl
  have hx : (extractFileExt f).isEmpty = false := by simpa using h
  unfold removeFileExt
  simp only [hne, hx, Bool.false_eq_true, if_false]
  unfold extractFileExt at h ⊢
  simp only [hne, Bool.false_eq_true, if_false] at h ⊢
  cases hf : findLastOf ['.'] f with
  | none => rw [hf] at h; simp at h
  | some i =>
    obtain ⟨c, e, hc, hd, hi⟩ := findLastOf_some hf
    simp only at h ⊢
    simp at hc; subst hc
    refine ⟨?_, fun hx => hd _ hx (by simp)⟩
    have : f.length - (f.drop (i + 1)).length - 1 = i := by rw [List.length_drop]; omega
    rw [this]; exact e.symm

example : extractFileExt "lib/x.os".toList = "os".toList ∧ removeFileExt "lib/x.os".toList = "lib/x".toList := by decide

/-- The extension is looked for in the directory part as well: a file without extension inside a directory with a dot
gets an "extension" that spans the separator. -/
theorem extension_within_filename_refuted :
    ¬ ∀ f : Text, '/' ∉ extractFileExt f := by
  intro h
  exact h "a.b/c".toList (by decide)

end Verif.Str
