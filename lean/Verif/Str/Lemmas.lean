import Verif.Str.Tools

namespace Verif.Str

theorem findFirstOf_some {set : List Char} {s : Text} {i : Nat} (h : findFirstOf set s = some i) :
    ∃ c, s = s.take i ++ c :: s.drop (i + 1) ∧ c ∈ set ∧ (∀ d ∈ s.take i, d ∉ set) ∧ i < s.length := by
  obtain ⟨c, h1, h2, h3, h4⟩ := findIdx?_split h
  exact ⟨c, h1, by simpa using h2, fun d hd => by simpa using h3 d hd, h4⟩

theorem findFirstOf_none {set : List Char} {s : Text} : findFirstOf set s = none ↔ ∀ d ∈ s, d ∉ set := by
  unfold findFirstOf; rw [findIdx?_none]; simp

theorem findFirstNotOf_some {set : List Char} {s : Text} {i : Nat} (h : findFirstNotOf set s = some i) :
    ∃ c, s = s.take i ++ c :: s.drop (i + 1) ∧ c ∉ set ∧ (∀ d ∈ s.take i, d ∈ set) ∧ i < s.length := by
  obtain ⟨c, h1, h2, h3, h4⟩ := findIdx?_split h
  exact ⟨c, h1, by simpa using h2, fun d hd => by simpa using h3 d hd, h4⟩

theorem findFirstNotOf_none {set : List Char} {s : Text} : findFirstNotOf set s = none ↔ ∀ d ∈ s, d ∈ set := by
  unfold findFirstNotOf; rw [findIdx?_none]; simp

/-- The two results of `splitBy`. -/
theorem splitBy_spec (s : Text) (c : Char) :
    (c ∉ s ∧ splitBy s c = (s, [])) ∨
    (∃ h t, s = h ++ c :: t ∧ c ∉ h ∧ splitBy s c = (h, t)) := by
  cases hf : findFirstOf [c] s with
  | none =>
    left
    have := findFirstOf_none.1 hf
    refine ⟨fun hc => this c hc (by simp), by simp [splitBy, hf]⟩
  | some i =>
    right
    obtain ⟨d, h1, h2, h3, h4⟩ := findFirstOf_some hf
    simp at h2; subst h2
    refine ⟨s.take i, s.drop (i + 1), h1, fun hc => h3 d hc (by simp), ?_⟩
    have hl : (s.take i).length ≠ s.length := by rw [List.length_take]; omega
    simp only [splitBy, hf, if_pos hl]
    congr 1
    apply List.take_of_length_le
    rw [List.length_drop]; omega

theorem split_eq_splitBy (s : Text) : split s = splitBy s '.' := by
  cases hf : findFirstOf ['.'] s with
  | none => simp [splitBy, split, hf]
  | some i =>
    obtain ⟨d, h1, h2, h3, h4⟩ := findFirstOf_some hf
    have hl : (s.take i).length ≠ s.length := by rw [List.length_take]; omega
    simp only [splitBy, split, hf, if_pos hl]
    congr 1
    rw [List.take_of_length_le, List.take_of_length_le] <;> rw [List.length_drop] <;> omega

/-- Splitting a text at a separator that is known not to occur before. -/
theorem splitBy_append {h t : Text} {c : Char} (hc : c ∉ h) : splitBy (h ++ c :: t) c = (h, t) := by
  rcases splitBy_spec (h ++ c :: t) c with ⟨hn, -⟩ | ⟨h', t', e, hc', es⟩
  · exact absurd (by simp) hn
  · rw [es]
    have key : ∀ (h h' t t' : Text), c ∉ h → c ∉ h' → h ++ c :: t = h' ++ c :: t' → h = h' ∧ t = t' := by
      intro h
      induction h with
      | nil =>
        intro h' t t' _ hc' e
        cases h' with
        | nil => simpa using e
        | cons a h' => simp at e; exact absurd (by simp [e.1]) hc'
      | cons a h ih =>
        intro h' t t' hc hc' e
        cases h' with
        | nil => simp at e; exact absurd (by simp [e.1]) hc
        | cons b h' =>
          simp at e hc hc'
          obtain ⟨e1, e2⟩ := ih h' t t' hc.2 hc'.2 e.2
          exact ⟨by rw [e.1, e1], e2⟩
    obtain ⟨e1, e2⟩ := key h h' t t' hc hc' e
    rw [e1, e2]

theorem splitBy_not_mem {s : Text} {c : Char} (hc : c ∉ s) : splitBy s c = (s, []) := by
  rcases splitBy_spec s c with ⟨-, h⟩ | ⟨h', t', e, -, -⟩
  · exact h
  · rw [e] at hc; simp at hc

/-! ## Trimming -/

theorem trimLeft_spec (s : Text) (t : List Char) :
    ∃ a, s = a ++ trimLeft s t ∧ (∀ c ∈ a, c ∈ t) ∧ (∀ c, (trimLeft s t).head? = some c → c ∉ t) := by
  unfold trimLeft
  cases hf : findFirstNotOf t s with
  | none => exact ⟨s, by simp, findFirstNotOf_none.1 hf, by simp⟩
  | some i =>
    obtain ⟨d, h1, h2, h3, h4⟩ := findFirstNotOf_some hf
    refine ⟨s.take i, by simp, h3, ?_⟩
    intro c hc
    have : s.drop i = d :: s.drop (i + 1) := by
      have e : s.take i ++ s.drop i = s.take i ++ d :: s.drop (i + 1) := by
        rw [List.take_append_drop]; exact h1
      exact List.append_cancel_left e
    dsimp only at hc
    rw [this] at hc
    simp at hc; subst hc; exact h2

theorem trimRight_spec (s : Text) (t : List Char) :
    ∃ b, s = trimRight s t ++ b ∧ (∀ c ∈ b, c ∈ t) ∧ (∀ c, (trimRight s t).getLast? = some c → c ∉ t) := by
  unfold trimRight findLastNotOf
  cases hf : s.reverse.findIdx? (fun c => decide (c ∉ t)) with
  | none =>
    refine ⟨s, by simp, fun c hc => ?_, by simp⟩
    have := findIdx?_none.1 hf c (by simpa using hc)
    simpa using this
  | some i =>
    obtain ⟨d, h1, h2, h3, h4⟩ := findIdx?_split hf
    simp only [Option.map_some]
    rw [List.length_reverse] at h4
    have hs : s = (s.reverse.drop (i + 1)).reverse ++ d :: (s.reverse.take i).reverse := by
      have := congrArg List.reverse h1
      simpa using this
    have hlen : ((s.reverse.drop (i + 1)).reverse ++ [d]).length = s.length - 1 - i + 1 := by
      simp; omega
    have htake : s.take (s.length - 1 - i + 1) = (s.reverse.drop (i + 1)).reverse ++ [d] := by
      rw [← hlen]
      conv => lhs; arg 2; rw [hs]
      rw [show (s.reverse.drop (i + 1)).reverse ++ d :: (s.reverse.take i).reverse
        = ((s.reverse.drop (i + 1)).reverse ++ [d]) ++ (s.reverse.take i).reverse by simp]
      exact List.take_left' rfl
    rw [htake]
    refine ⟨(s.reverse.take i).reverse, ?_, ?_, ?_⟩
    · conv => lhs; rw [hs]
      simp
    · intro c hc
      have := h3 c (by simpa using hc)
      simpa using this
    · intro c hc
      simp at hc; subst hc; simpa using h2

theorem trimLeft_of_head {s : Text} {t : List Char} (h : ∀ c, s.head? = some c → c ∉ t) : trimLeft s t = s := by
  obtain ⟨a, h1, h2, h3⟩ := trimLeft_spec s t
  cases a with
  | nil => simpa using h1.symm
  | cons c a =>
    have hc := h c (by rw [h1]; rfl)
    exact absurd (h2 c (by simp)) hc

theorem trimRight_of_last {s : Text} {t : List Char} (h : ∀ c, s.getLast? = some c → c ∉ t) : trimRight s t = s := by
  obtain ⟨b, h1, h2, h3⟩ := trimRight_spec s t
  rcases List.eq_nil_or_concat b with rfl | ⟨b', c, rfl⟩
  · simpa using h1.symm
  · exfalso
    have hc := h c (by rw [h1]; simp [← List.append_assoc])
    exact hc (h2 c (by simp))

/-! ## Decimal notation -/

theorem digitChar_isDigit {n : Nat} (h : n < 10) : isDigit (digitChar n) = true ∧ digitVal (digitChar n) = n := by
  have : n = 0 ∨ n = 1 ∨ n = 2 ∨ n = 3 ∨ n = 4 ∨ n = 5 ∨ n = 6 ∨ n = 7 ∨ n = 8 ∨ n = 9 := by omega
  rcases this with rfl | rfl | rfl | rfl | rfl | rfl | rfl | rfl | rfl | rfl <;> decide

theorem natDigits_isDigit (n : Nat) : ∀ c ∈ natDigits n, isDigit c = true := by
  induction n using natDigits.induct with
  | case1 n h =>
    unfold natDigits; rw [if_pos h]
    intro c hc; simp at hc; subst hc; exact (digitChar_isDigit h).1
  | case2 n h ih =>
    unfold natDigits; rw [if_neg h]
    intro c hc
    rcases List.mem_append.1 hc with hc | hc
    · exact ih c hc
    · simp at hc; subst hc; exact (digitChar_isDigit (Nat.mod_lt _ (by omega))).1

theorem natDigits_ne_nil (n : Nat) : natDigits n ≠ [] := by
  unfold natDigits; split <;> simp

theorem digitsVal_natDigits (n : Nat) : digitsVal (natDigits n) = n := by
  induction n using natDigits.induct with
  | case1 n h => unfold natDigits; rw [if_pos h]; simp [digitsVal, (digitChar_isDigit h).2]
  | case2 n h ih =>
    unfold natDigits; rw [if_neg h]
    simp only [digitsVal] at ih ⊢
    rw [List.foldl_append, ih]
    simp only [List.foldl_cons, List.foldl_nil, (digitChar_isDigit (Nat.mod_lt n (by omega : 0 < 10))).2]
    omega

theorem takeWhile_digits_append {ds rest : Text} (h : ∀ c ∈ ds, isDigit c = true)
    (hr : ∀ c, rest.head? = some c → isDigit c = false) : (ds ++ rest).takeWhile isDigit = ds := by
  induction ds with
  | nil =>
    cases rest with
    | nil => rfl
    | cons c r => simp [hr c rfl]
  | cons d ds ih =>
    simp only [List.cons_append, List.takeWhile_cons, h d (by simp), if_true]
    rw [ih fun c hc => h c (by simp [hc])]

theorem isDigit_not_special {c : Char} (h : isDigit c = true) : c ≠ '-' ∧ c ≠ '+' ∧ c ≠ '.' ∧ isSpace c = false := by
  refine ⟨?_, ?_, ?_, ?_⟩
  · rintro rfl; revert h; decide
  · rintro rfl; revert h; decide
  · rintro rfl; revert h; decide
  · by_cases hs : isSpace c = true
    · simp [isSpace] at hs
      rcases hs with ((((rfl | rfl) | rfl) | rfl) | rfl) | rfl <;> revert h <;> decide
    · simpa using hs

/-- Reading back a printed integer, whatever non-digit text follows. -/
theorem streamInt_intToString (i : Int) (rest : Text) (h : -9223372036854775808 ≤ i ∧ i ≤ 9223372036854775807)
    (hr : ∀ c, rest.head? = some c → isDigit c = false) : streamInt (intToString i ++ rest) = i := by
  have hd := natDigits_isDigit i.natAbs
  have hv := digitsVal_natDigits i.natAbs
  have hne := natDigits_ne_nil i.natAbs
  unfold intToString
  split
  · rename_i hneg
    have hsp : ('-' :: natDigits i.natAbs ++ rest).dropWhile isSpace = '-' :: (natDigits i.natAbs ++ rest) := by
      simp [List.dropWhile_cons, isSpace]
    unfold streamInt
    rw [hsp]
    simp only [if_true]
    rw [takeWhile_digits_append hd hr, hv]
    unfold clamp64; omega
  · rename_i hneg
    cases hn : natDigits i.natAbs with
    | nil => exact absurd hn hne
    | cons c cs =>
      have hc := hd c (by rw [hn]; simp)
      obtain ⟨h1, h2, -, h4⟩ := isDigit_not_special hc
      have hsp : (c :: cs ++ rest).dropWhile isSpace = c :: (cs ++ rest) := by
        simp [List.dropWhile_cons, h4]
      unfold streamInt
      rw [hsp]
      simp only [if_neg h1, if_neg h2]
      rw [hn] at hd hv
      rw [← List.cons_append, takeWhile_digits_append hd hr, hv]
      unfold clamp64; omega

theorem intToString_ne_nil (i : Int) : intToString i ≠ [] := by
  unfold intToString; split
  · simp
  · exact natDigits_ne_nil _

theorem stringToInt_intToString (i : Int) (h : -9223372036854775808 ≤ i ∧ i ≤ 9223372036854775807) :
    stringToInt (intToString i) = i := by
  have := streamInt_intToString i [] h (by simp)
  simp only [List.append_nil] at this
  unfold stringToInt
  cases hs : intToString i with
  | nil => exact absurd hs (intToString_ne_nil i)
  | cons c cs => rw [hs] at this; simpa using this

theorem intToString_no_dot (i : Int) : '.' ∉ intToString i ∧ '+' ∉ intToString i := by
  have hd := natDigits_isDigit i.natAbs
  have h1 : '.' ∉ natDigits i.natAbs := fun h => (isDigit_not_special (hd _ h)).2.2.1 rfl
  have h2 : '+' ∉ natDigits i.natAbs := fun h => (isDigit_not_special (hd _ h)).2.1 rfl
  unfold intToString; split <;> simp [h1, h2]

theorem intToString_no_minus {i : Int} (h : 0 ≤ i) : '-' ∉ intToString i := by
  have hd := natDigits_isDigit i.natAbs
  have h1 : '-' ∉ natDigits i.natAbs := fun h => (isDigit_not_special (hd _ h)).1 rfl
  unfold intToString; rw [if_neg (by omega)]; exact h1

end Verif.Str
