import Verif.Libc.Model

/-!
# Properties of the C string functions, of changing case and of the environment (C168–C171)
-/

namespace Verif.Libc

theorem cstr_id {s : Bytes} (h : 0 ∉ s) : cstr s = s := by
  induction s with
  | nil => rfl
  | cons x xs ih =>
    simp only [List.mem_cons, not_or] at h
    rw [cstr, if_neg (fun e => h.1 e.symm), ih h.2]

theorem cstr_zero {a b : Bytes} (h : 0 ∉ a) : cstr (a ++ 0 :: b) = a := by
  induction a with
  | nil => rfl
  | cons x xs ih =>
    simp only [List.mem_cons, not_or] at h
    rw [List.cons_append, cstr, if_neg (fun e => h.1 e.symm), ih h.2]

theorem toChar_eq {c : Nat} (h : c < 256) : toChar c = c := by unfold toChar; omega

/-! ## C168: searching -/

/-- `strchr` gives the text from the first such character on.  `_partial`: the character is in the text. -/
theorem strchr_first_partial (a b : Bytes) (c : Nat) (hz : 0 ∉ a ++ c :: b) (hc : c < 256) (ha : c ∉ a) :
    strchr (a ++ c :: b) c = .ok (c :: b) := by
  unfold strchr
  rw [cstr_id hz, toChar_eq hc]
  clear hz
  induction a with
  | nil => simp [c_strchr, fromPointer]
  | cons x xs ih =>
    simp only [List.mem_cons, not_or] at ha
    rw [List.cons_append, c_strchr, if_neg (fun e => ha.1 e.symm)]
    exact ih ha.2

example : strchr [104, 101, 108, 108, 111] 108 = .ok [108, 108, 111] := by decide

/-- `strrchr` gives the text from the last such character on.  `_partial`: the character is in the text. -/
theorem strrchr_last_partial (a b : Bytes) (c : Nat) (hz : 0 ∉ a ++ c :: b) (hc : c < 256) (hb : c ∉ b) :
    strrchr (a ++ c :: b) c = .ok (c :: b) := by
  unfold strrchr
  rw [cstr_id hz, toChar_eq hc]
  have h0 : c ≠ 0 := fun e => hz (by simp [e])
  have hnone : ∀ l : Bytes, c ∉ l → c_strrchr l c = none := by
    intro l hl
    induction l with
    | nil => simp [c_strrchr, h0]
    | cons x xs ih =>
      simp only [List.mem_cons, not_or] at hl
      simp only [c_strrchr, ih hl.2]
      rw [if_neg (fun e => hl.1 e.symm)]
  have hmain : c_strrchr (a ++ c :: b) c = some (c :: b) := by
    induction a with
    | nil => simp [c_strrchr, hnone b hb]
    | cons x xs ih => simp [c_strrchr, ih (fun h => hz (by simp [List.mem_append] at h ⊢; right; exact h))]
  rw [hmain]; rfl

example : strrchr [104, 101, 108, 108, 111] 108 = .ok [108, 111] := by decide

/-- **Refuted**: searching for a character that is not in the text is undefined. -/
theorem strchr_absent_refuted (s : Bytes) (c : Nat) (hc : c ∉ s) (h0 : 0 < c ∧ c < 256) :
    strchr s c = .ub ∧ strrchr s c = .ub := by
  have hcs : c ∉ cstr s := by
    intro h
    apply hc
    clear hc
    induction s with
    | nil => simp [cstr] at h
    | cons x xs ih =>
      rw [cstr] at h
      split at h
      · simp at h
      · rcases List.mem_cons.1 h with h | h
        · simp [h]
        · simp [ih h]
  unfold strchr strrchr
  rw [toChar_eq h0.2]
  generalize cstr s = l at hcs
  have h1 : c_strchr l c = none := by
    induction l with
    | nil => simp [c_strchr]; omega
    | cons x xs ih =>
      simp only [List.mem_cons, not_or] at hcs
      rw [c_strchr, if_neg (fun e => hcs.1 e.symm), ih hcs.2]
  have h2 : c_strrchr l c = none := by
    clear h1
    induction l with
    | nil => simp [c_strrchr]; omega
    | cons x xs ih =>
      simp only [List.mem_cons, not_or] at hcs
      simp only [c_strrchr, ih hcs.2]
      rw [if_neg (fun e => hcs.1 e.symm)]
  rw [h1, h2]
  exact ⟨rfl, rfl⟩

example : strchr [104, 105] 120 = .ub ∧ (120 : Nat) ∉ [104, 105] := by decide

/-- `strpbrk` gives the text from the first of the given characters on.  `_partial`: one of them is in the text. -/
theorem strpbrk_first_partial (a b set : Bytes) (c : Nat) (hz : 0 ∉ a ++ c :: b) (hs : 0 ∉ set) (hc : c ∈ set)
    (ha : ∀ x ∈ a, x ∉ set) : strpbrk (a ++ c :: b) set = .ok (c :: b) := by
  unfold strpbrk
  rw [cstr_id hz, cstr_id hs]
  clear hz
  induction a with
  | nil => simp [c_strpbrk, fromPointer, hc]
  | cons x xs ih =>
    have hx : x ∉ set := ha x (by simp)
    rw [List.cons_append, c_strpbrk, if_neg (by simpa using hx)]
    exact ih fun y hy => ha y (by simp [hy])

/-- **Refuted**: if none of the characters is in the text, `strpbrk` is undefined. -/
theorem strpbrk_absent_refuted (s set : Bytes) (hz : 0 ∉ s) (hs : 0 ∉ set) (h : ∀ x ∈ s, x ∉ set) :
    strpbrk s set = .ub := by
  unfold strpbrk
  rw [cstr_id hz, cstr_id hs]
  clear hz
  induction s with
  | nil => rfl
  | cons x xs ih =>
    have hx : x ∉ set := h x (by simp)
    rw [c_strpbrk, if_neg (by simpa using hx)]
    exact ih fun y hy => h y (by simp [hy])

example : strpbrk [104, 101, 108, 108, 111] [108, 101] = .ok [101, 108, 108, 111] ∧ strpbrk [104] [108] = .ub := by decide

/-- The text `t` stands in `s` behind `a`. -/
def Behind (s t a : Bytes) : Prop := ∃ b, s = a ++ t ++ b

theorem c_strstr_spec (t : Bytes) : ∀ s : Bytes,
    (c_strstr s t = none ∧ ∀ a, ¬ Behind s t a) ∨
    ∃ a b, s = a ++ t ++ b ∧ c_strstr s t = some (t ++ b) ∧ ∀ a', Behind s t a' → a.length ≤ a'.length
  | [] => by
    by_cases ht : t = []
    · right; exact ⟨[], [], by simp [ht], by simp [c_strstr, ht], by simp⟩
    · left
      refine ⟨by simp [c_strstr, ht], fun a ⟨b, e⟩ => ?_⟩
      have := congrArg List.length e
      have := List.length_pos_iff.2 ht
      simp at *; omega
  | x :: xs => by
    by_cases hp : t.isPrefixOf (x :: xs) = true
    · right
      obtain ⟨b, e⟩ := List.isPrefixOf_iff_prefix.1 hp
      exact ⟨[], b, by simpa using e.symm, by rw [c_strstr, if_pos hp, e], by simp⟩
    · have hno : ¬ t <+: (x :: xs) := fun h => hp (List.isPrefixOf_iff_prefix.2 h)
      have hstep : ∀ a, Behind (x :: xs) t a → ∃ a', a = x :: a' ∧ Behind xs t a' := by
        rintro a ⟨b, e⟩
        cases a with
        | nil => exact absurd ⟨b, by simpa using e.symm⟩ hno
        | cons y a' =>
          simp only [List.cons_append, List.cons.injEq] at e
          exact ⟨a', by rw [e.1], b, e.2⟩
      rw [c_strstr, if_neg hp]
      rcases c_strstr_spec t xs with ⟨h1, h2⟩ | ⟨a, b, e, h1, h2⟩
      · left
        refine ⟨h1, fun a ha => ?_⟩
        obtain ⟨a', -, ha'⟩ := hstep a ha
        exact h2 a' ha'
      · right
        refine ⟨x :: a, b, by rw [e]; simp, h1, fun a' ha' => ?_⟩
        obtain ⟨a'', rfl, h⟩ := hstep a' ha'
        have := h2 a'' h
        simp; omega

/-- `strstr` gives the text from the first occurrence on, or is undefined if there is none (**refuted**: an absent text
should be reported). -/
theorem strstr_first_partial (s t : Bytes) (hs : 0 ∉ s) (ht : 0 ∉ t) :
    (strstr s t = .ub ∧ ∀ a, ¬ Behind s t a) ∨
    ∃ a b, s = a ++ t ++ b ∧ strstr s t = .ok (t ++ b) ∧ ∀ a', Behind s t a' → a.length ≤ a'.length := by
  unfold strstr
  rw [cstr_id hs, cstr_id ht]
  rcases c_strstr_spec t s with ⟨h1, h2⟩ | ⟨a, b, e, h1, h2⟩
  · left; rw [h1]; exact ⟨rfl, h2⟩
  · right; exact ⟨a, b, e, by rw [h1]; rfl, h2⟩

/-- **Refuted**: searching for a text that is not there is undefined. -/
theorem strstr_absent_refuted (s t : Bytes) (hs : 0 ∉ s) (ht : 0 ∉ t) (h : ∀ a, ¬ Behind s t a) : strstr s t = .ub := by
  rcases strstr_first_partial s t hs ht with ⟨h1, -⟩ | ⟨a, b, e, -, -⟩
  · exact h1
  · exact absurd ⟨b, e⟩ (h a)

example : strstr [97, 98, 99, 98, 99] [98, 99] = .ok [98, 99, 98, 99] ∧ strstr [97] [98] = .ub ∧
    ∀ a, ¬ Behind [97] [98] a := by
  refine ⟨by decide, by decide, ?_⟩
  rintro a ⟨b, e⟩
  have : (98 : Nat) ∈ [97] := by rw [e]; simp
  simp at this

/-- `strspn` is the length of the longest start of the text made of the given characters, `strcspn` of the longest
start without them. -/
theorem spans (s set : Bytes) (hs : 0 ∉ s) (hset : 0 ∉ set) :
    (∃ a b, s = a ++ b ∧ strspn s set = a.length ∧ (∀ x ∈ a, x ∈ set) ∧ ∀ x, b.head? = some x → x ∉ set) ∧
    (∃ a b, s = a ++ b ∧ strcspn s set = a.length ∧ (∀ x ∈ a, x ∉ set) ∧ ∀ x, b.head? = some x → x ∈ set) := by
  unfold strspn strcspn
  rw [cstr_id hs, cstr_id hset]
  clear hs
  induction s with
  | nil => exact ⟨⟨[], [], by simp [c_strspn]⟩, ⟨[], [], by simp [c_strcspn]⟩⟩
  | cons x xs ih =>
    obtain ⟨⟨a, b, e, h1, h2, h3⟩, ⟨a', b', e', h1', h2', h3'⟩⟩ := ih
    by_cases hx : x ∈ set
    · refine ⟨⟨x :: a, b, by rw [e]; rfl, ?_, ?_, h3⟩, ⟨[], x :: xs, rfl, ?_, by simp, by simpa using hx⟩⟩
      · rw [c_strspn, if_pos (by simpa using hx)]; simp; omega
      · intro y hy; rcases List.mem_cons.1 hy with rfl | hy
        · exact hx
        · exact h2 y hy
      · rw [c_strcspn, if_pos (by simpa using hx)]; rfl
    · refine ⟨⟨[], x :: xs, rfl, ?_, by simp, by simpa using hx⟩, ⟨x :: a', b', by rw [e']; rfl, ?_, ?_, h3'⟩⟩
      · rw [c_strspn, if_neg (by simpa using hx)]; rfl
      · rw [c_strcspn, if_neg (by simpa using hx)]; simp; omega
      · intro y hy; rcases List.mem_cons.1 hy with rfl | hy
        · exact hx
        · exact h2' y hy

example : strspn [97, 98, 99] [98, 97] = 2 ∧ strcspn [97, 98, 99] [99] = 2 := by decide

/-! ## C169: comparing and joining -/

theorem c_strcmp_eq : ∀ s t : Bytes, c_strcmp s t = .eq ↔ s = t
  | [], [] => by simp [c_strcmp]
  | [], _ :: _ => by simp [c_strcmp]
  | _ :: _, [] => by simp [c_strcmp]
  | x :: xs, y :: ys => by
    rw [c_strcmp]
    by_cases h1 : x < y
    · rw [if_pos h1]; simp; omega
    · rw [if_neg h1]
      by_cases h2 : y < x
      · rw [if_pos h2]; simp; omega
      · rw [if_neg h2, c_strcmp_eq xs ys]
        have : x = y := by omega
        simp [this]

theorem c_strcmp_lt : ∀ s t : Bytes, c_strcmp s t = .lt ↔ s < t
  | [], [] => by simp [c_strcmp]
  | [], _ :: _ => by simp [c_strcmp]
  | _ :: _, [] => by simp [c_strcmp]
  | x :: xs, y :: ys => by
    rw [c_strcmp, List.cons_lt_cons_iff, ← c_strcmp_lt xs ys]
    by_cases h1 : x < y
    · simp [h1]
    · rw [if_neg h1]
      by_cases h2 : y < x
      · rw [if_pos h2]; simp [h1]; omega
      · rw [if_neg h2]
        have : x = y := by omega
        simp [this]

theorem c_strcmp_gt : ∀ s t : Bytes, c_strcmp s t = .gt ↔ t < s
  | [], [] => by simp [c_strcmp]
  | [], _ :: _ => by simp [c_strcmp]
  | _ :: _, [] => by simp [c_strcmp]
  | x :: xs, y :: ys => by
    rw [c_strcmp, List.cons_lt_cons_iff, ← c_strcmp_gt xs ys]
    by_cases h1 : x < y
    · rw [if_pos h1]; simp; omega
    · rw [if_neg h1]
      by_cases h2 : y < x
      · simp [h2]
      · rw [if_neg h2]
        have : x = y := by omega
        simp [this]

theorem signed_iff (n : Nat) (o : Ordering) : (signed n o = 0 ↔ o = .eq) ∧ (signed n o < 0 ↔ o = .lt) ∧ (0 < signed n o ↔ o = .gt) := by
  cases o <;> simp [signed] <;> omega

/-- `strcmp` is zero exactly for equal texts, negative exactly if the first text comes before the second in the order
of dictionaries by bytes, and positive exactly if it comes behind. -/
theorem strcmp_compares_partial (size : Bytes → Bytes → Nat) (s t : Bytes) (hs : 0 ∉ s) (ht : 0 ∉ t) :
    (strcmp size s t = 0 ↔ s = t) ∧ (strcmp size s t < 0 ↔ s < t) ∧ (0 < strcmp size s t ↔ t < s) := by
  unfold strcmp
  rw [cstr_id hs, cstr_id ht]
  obtain ⟨h1, h2, h3⟩ := signed_iff (size s t) (c_strcmp s t)
  exact ⟨h1.trans (c_strcmp_eq s t), h2.trans (c_strcmp_lt s t), h3.trans (c_strcmp_gt s t)⟩

example : strcmp (fun _ _ => 0) [97, 98] [97, 99] = -1 ∧ strcmp (fun _ _ => 0) [97, 98] [97] = 1 ∧
    (0 : Nat) ∉ [97, 98] := by decide

/-- **Refuted**: texts that differ behind a zero byte compare as equal. -/
theorem strcmp_zero_byte_refuted (size : Bytes → Bytes → Nat) (a b c : Bytes) (ha : 0 ∉ a) :
    strcmp size (a ++ 0 :: b) (a ++ 0 :: c) = 0 := by
  unfold strcmp
  rw [cstr_zero ha, cstr_zero ha]
  exact (signed_iff _ _).1.2 ((c_strcmp_eq a a).2 rfl)

example : strcmp (fun _ _ => 0) [97, 0, 98] [97, 0, 99] = 0 := by decide

theorem c_strncmp_eq : ∀ (n : Nat) (s t : Bytes), c_strncmp n s t = c_strcmp (s.take n) (t.take n)
  | 0, s, t => by simp [c_strncmp, c_strcmp]
  | _ + 1, [], [] => by simp [c_strncmp, c_strcmp]
  | _ + 1, [], _ :: _ => by simp [c_strncmp, c_strcmp]
  | _ + 1, _ :: _, [] => by simp [c_strncmp, c_strcmp]
  | n + 1, x :: xs, y :: ys => by
    rw [c_strncmp, List.take_succ_cons, List.take_succ_cons, c_strcmp, c_strncmp_eq n xs ys]

/-- `strncmp` compares the first `num` bytes of the texts; a negative number means all of them. -/
theorem strncmp_compares_partial (size : Bytes → Bytes → Nat) (s t : Bytes) (hs : 0 ∉ s) (ht : 0 ∉ t)
    (hls : s.length < 2 ^ 31) (hlt : t.length < 2 ^ 31) (num : Int) (hn : -2 ^ 31 ≤ num ∧ num < 2 ^ 31) (s' t' : Bytes)
    (hs' : s' = if num < 0 then s else s.take num.toNat) (ht' : t' = if num < 0 then t else t.take num.toNat) :
    (strncmp size s t num = 0 ↔ s' = t') ∧ (strncmp size s t num < 0 ↔ s' < t') ∧ (0 < strncmp size s t num ↔ t' < s') := by
  unfold strncmp
  rw [cstr_id hs, cstr_id ht, c_strncmp_eq]
  have hsize : s.take (toSize num) = s' ∧ t.take (toSize num) = t' := by
    by_cases h : num < 0
    · rw [if_pos h] at hs' ht'
      have : 2 ^ 32 ≤ toSize num := by unfold toSize; omega
      rw [hs', ht']
      exact ⟨List.take_of_length_le (by omega), List.take_of_length_le (by omega)⟩
    · rw [if_neg h] at hs' ht'
      have : toSize num = num.toNat := by unfold toSize; omega
      rw [hs', ht', this]
      exact ⟨rfl, rfl⟩
  rw [hsize.1, hsize.2]
  obtain ⟨h1, h2, h3⟩ := signed_iff (size s t) (c_strcmp s' t')
  exact ⟨h1.trans (c_strcmp_eq _ _), h2.trans (c_strcmp_lt _ _), h3.trans (c_strcmp_gt _ _)⟩

example : strncmp (fun _ _ => 0) [97, 98, 99] [97, 98, 100] 2 = 0 ∧ strncmp (fun _ _ => 0) [97, 98] [97, 99] (-1) = -1 := by
  decide

/-- `strcat` joins its arguments and loses nothing: the lengths and both parts can be told from the result. -/
theorem strcat_joins (s t : Bytes) : (strcat s t).take s.length = s ∧ (strcat s t).drop s.length = t := by
  simp [strcat]

/-- **Refuted** (C: `strncat` appends at most `num` characters): it leaves out the first `num` characters instead and
appends the rest. -/
theorem strncat_refuted (s t u : Bytes) (h : (t ++ u).length < 2 ^ 31) :
    strncat s (t ++ u) t.length = .ok (s ++ u) := by
  have : toSize (t.length : Int) = t.length := by unfold toSize; rw [List.length_append] at h; omega
  unfold strncat
  rw [this, if_neg (by simp)]
  simp

/-- **Refuted**: for a number that is negative or greater than the length of the source, an exception of the C++ library
is thrown. -/
theorem strncat_exception_refuted (s t : Bytes) (num : Int) (h : num < 0 ∨ t.length < num) (ht : t.length < 2 ^ 31)
    (hn : -2 ^ 31 ≤ num ∧ num < 2 ^ 31) : strncat s t num = .exception := by
  unfold strncat
  rw [if_pos]
  unfold toSize; omega

example : strncat [97] [98, 99] 1 = .ok [97, 99] ∧ strncat [97] [98, 99] 3 = .exception ∧ strncat [97] [98] (-1) = .exception := by
  decide

/-! ## C170: case -/

theorem lower_lt {x : Nat} (h : x < 128) : lower x = some (if 65 ≤ x ∧ x ≤ 90 then x + 32 else x) := by
  unfold lower
  rw [if_neg (by omega)]
  split <;> rfl

theorem upper_lt {x : Nat} (h : x < 128) : upper x = some (if 97 ≤ x ∧ x ≤ 122 then x - 32 else x) := by
  unfold upper
  rw [if_neg (by omega)]
  split <;> rfl

theorem transform_map {f : Nat → Option Nat} {g : Nat → Nat} : ∀ {s : Bytes}, (∀ x ∈ s, f x = some (g x)) →
    transform f s = some (s.map g)
  | [], _ => rfl
  | x :: xs, h => by
    rw [transform, h x (by simp), transform_map (fun y hy => h y (by simp [hy]))]
    rfl

theorem transform_undefined {f : Nat → Option Nat} : ∀ {s : Bytes} {x : Nat}, x ∈ s → f x = none → transform f s = none
  | y :: ys, x, h, hx => by
    rw [transform]
    rcases List.mem_cons.1 h with rfl | h
    · rw [hx]
    · rw [transform_undefined h hx]
      cases f y <;> rfl

/-- `tolower` turns every capital letter into the small one at the same place and changes nothing else; `toupper` the other
way round.  `_partial`: ASCII texts. -/
theorem case_partial (s : String) (h : ∀ c ∈ s.toList, c.toNat < 128) :
    tolower (s.toList.map Char.toNat) = some (s.toList.map fun c => c.toLower.toNat) ∧
    toupper (s.toList.map Char.toNat) = some (s.toList.map fun c => c.toUpper.toNat) := by
  have hl : ∀ n < 128, ∀ c : Char, c.toNat = n → (if 65 ≤ n ∧ n ≤ 90 then n + 32 else n) = c.toLower.toNat ∧
      (if 97 ≤ n ∧ n ≤ 122 then n - 32 else n) = c.toUpper.toNat := by
    have hall : ∀ n : Fin 128, (if 65 ≤ n.val ∧ n.val ≤ 90 then n.val + 32 else n.val) = (Char.ofNat n.val).toLower.toNat ∧
        (if 97 ≤ n.val ∧ n.val ≤ 122 then n.val - 32 else n.val) = (Char.ofNat n.val).toUpper.toNat := by decide +kernel
    intro n hn c hc
    subst hc
    have := hall ⟨c.toNat, hn⟩
    simp only [Char.ofNat_toNat] at this
    exact this
  have hmap : ∀ (f : Nat → Option Nat) (g : Nat → Nat) (k : Char → Char), (∀ x < 128, f x = some (g x)) →
      (∀ c : Char, c.toNat < 128 → g c.toNat = (k c).toNat) →
      transform f (s.toList.map Char.toNat) = some (s.toList.map fun c => (k c).toNat) := by
    intro f g k hf hg
    rw [transform_map (g := g)]
    · rw [List.map_map]
      congr 1
      exact List.map_congr_left fun c hc => hg c (h c hc)
    · intro x hx
      obtain ⟨c, hc, rfl⟩ := List.mem_map.1 hx
      exact hf _ (h c hc)
  exact ⟨hmap _ _ _ (fun x hx => lower_lt hx) fun c hc => (hl _ hc c rfl).1,
    hmap _ _ _ (fun x hx => upper_lt hx) fun c hc => (hl _ hc c rfl).2⟩

example : tolower ("Hello, 42".toList.map Char.toNat) = some ("hello, 42".toList.map Char.toNat) ∧
    ∀ c ∈ "Hello, 42".toList, c.toNat < 128 := by decide +kernel

/-- Changing the case again changes nothing, and the other change undoes the first one up to case. -/
theorem case_again (s t : Bytes) :
    (tolower s = some t → tolower t = some t ∧ toupper t = toupper s ∧ t.length = s.length) ∧
    (toupper s = some t → toupper t = some t ∧ tolower t = tolower s ∧ t.length = s.length) := by
  have hdef : ∀ {f : Nat → Option Nat} {s t : Bytes}, transform f s = some t → ∀ x ∈ s, (f x).isSome := by
    intro f s t e x hx
    cases hf : f x with
    | some y => rfl
    | none => rw [transform_undefined hx hf] at e; cases e
  have l128 : ∀ {x}, (lower x).isSome → x < 128 := by
    intro x h; unfold lower at h; split at h
    · cases h
    · omega
  have u128 : ∀ {x}, (upper x).isSome → x < 128 := by
    intro x h; unfold upper at h; split at h
    · cases h
    · omega
  constructor
  · intro e
    have hs : ∀ x ∈ s, x < 128 := fun x hx => l128 (hdef e x hx)
    unfold tolower at e
    rw [transform_map (fun x hx => lower_lt (hs x hx))] at e
    cases e
    have ht : ∀ y ∈ s.map (fun x => if 65 ≤ x ∧ x ≤ 90 then x + 32 else x), y < 128 := by
      intro y hy
      obtain ⟨x, hx, rfl⟩ := List.mem_map.1 hy
      have := hs x hx
      split <;> omega
    unfold tolower toupper
    rw [transform_map (fun x hx => lower_lt (ht x hx)), transform_map (fun x hx => upper_lt (ht x hx)),
      transform_map (fun x hx => upper_lt (hs x hx)), List.map_map, List.map_map]
    refine ⟨?_, ?_, by simp⟩ <;> congr 1 <;> refine List.map_congr_left fun x hx => ?_ <;> simp only [Function.comp] <;>
      (repeat' split) <;> omega
  · intro e
    have hs : ∀ x ∈ s, x < 128 := fun x hx => u128 (hdef e x hx)
    unfold toupper at e
    rw [transform_map (fun x hx => upper_lt (hs x hx))] at e
    cases e
    have ht : ∀ y ∈ s.map (fun x => if 97 ≤ x ∧ x ≤ 122 then x - 32 else x), y < 128 := by
      intro y hy
      obtain ⟨x, hx, rfl⟩ := List.mem_map.1 hy
      have := hs x hx
      split <;> omega
    unfold tolower toupper
    rw [transform_map (fun x hx => upper_lt (ht x hx)), transform_map (fun x hx => lower_lt (ht x hx)),
      transform_map (fun x hx => lower_lt (hs x hx)), List.map_map, List.map_map]
    refine ⟨?_, ?_, by simp⟩ <;> congr 1 <;> refine List.map_congr_left fun x hx => ?_ <;> simp only [Function.comp] <;>
      (repeat' split) <;> omega

/-- **Refuted**: a text with a byte from 128 on (an umlaut in any encoding) is undefined. -/
theorem case_other_refuted (s : Bytes) (x : Nat) (hx : x ∈ s) (h : 128 ≤ x) : tolower s = none ∧ toupper s = none :=
  ⟨transform_undefined hx (if_pos h), transform_undefined hx (if_pos h)⟩

example : tolower [195, 164] = none := by decide

/-! ## C171: the environment -/

/-- What a script expects of the environment: a map from names to values.  `getenv` of a variable that is not set gives
the empty text; `setenv` gives 0 and sets the variable, but an existing one only if told to overwrite it, and refuses
an empty name or one with `=` with -1. -/
def specCall (m : Bytes → Option Bytes) : Call → Answer × (Bytes → Option Bytes)
  | .getenv name => (.text ((m name).getD []), m)
  | .setenv name value overwrite =>
    if name = [] ∨ 61 ∈ name then (.int (-1), m)
    else (.int 0, if overwrite = 0 ∧ m name ≠ none then m else fun n => if n = name then some value else m n)
  | .putenv _ => (.ub, m)

/-- The answers to calls one after the other. -/
def specCalls (m : Bytes → Option Bytes) : List Call → List Answer
  | [] => []
  | c :: cs => (specCall m c).1 :: specCalls (specCall m c).2 cs

/-- A name a variable can have. -/
def Name (n : Bytes) : Prop := n ≠ [] ∧ 61 ∉ n

/-- The calls the theorem speaks of: texts without zero bytes, `getenv` with the name of a variable, no `putenv`. -/
def Plain : Call → Prop
  | .getenv n => Name n ∧ 0 ∉ n
  | .setenv n v _ => 0 ∉ n ∧ 0 ∉ v
  | .putenv _ => False

/-- All entries are texts, and the variables have these values. -/
def Shows (env : List Entry) (m : Bytes → Option Bytes) : Prop :=
  (∀ e ∈ env, e ≠ .dangling) ∧ ∀ n, Name n → c_getenv env n = some (m n)

theorem getenv_nil (n : Bytes) : c_getenv [] n = some none := by cases n <;> rfl

theorem getenv_text {n : Bytes} (h : Name n) (t : Bytes) (rest : List Entry) :
    c_getenv (.text t :: rest) n = if hasName t n then some (some (t.drop (n.length + 1))) else c_getenv rest n := by
  cases n with
  | nil => exact absurd rfl h.1
  | cons x xs => rw [c_getenv]; rfl

theorem getenv_dangling {n : Bytes} (h : Name n) (rest : List Entry) : c_getenv (.dangling :: rest) n = none := by
  cases n with
  | nil => exact absurd rfl h.1
  | cons x xs => rw [c_getenv]

theorem hasName_self (n v : Bytes) : hasName (n ++ [61] ++ v) n = true := by
  unfold hasName
  exact List.isPrefixOf_iff_prefix.2 ⟨v, rfl⟩

theorem hasName_inj : ∀ {n n' t : Bytes}, 61 ∉ n → 61 ∉ n' → hasName t n = true → hasName t n' = true → n = n'
  | [], [], _, _, _, _, _ => rfl
  | [], y :: ys, t, _, h', h1, h2 => by
    unfold hasName at h1 h2
    cases t with
    | nil => simp at h1
    | cons c cs =>
      simp at h1 h2
      exact absurd (by rw [h2.1, ← h1]; simp) h'
  | x :: xs, [], t, h, _, h1, h2 => by
    unfold hasName at h1 h2
    cases t with
    | nil => simp at h1
    | cons c cs =>
      simp at h1 h2
      exact absurd (by rw [h1.1, ← h2]; simp) h
  | x :: xs, y :: ys, t, h, h', h1, h2 => by
    cases t with
    | nil => simp [hasName] at h1
    | cons c cs =>
      have e1 : x = c ∧ hasName cs xs = true := by simpa [hasName] using h1
      have e2 : y = c ∧ hasName cs ys = true := by simpa [hasName] using h2
      rw [e1.1, e2.1, hasName_inj (fun k => h (by simp [k])) (fun k => h' (by simp [k])) e1.2 e2.2]

theorem setEntry_spec {name : Bytes} (hn : Name name) (value : Bytes) : ∀ {env : List Entry} {m : Bytes → Option Bytes},
    Shows env m → ∃ env', setEntry env name (.text (name ++ [61] ++ value)) = some env' ∧
      Shows env' fun n => if n = name then some value else m n
  | [], m, h => by
    refine ⟨_, rfl, by simp, fun n hx => ?_⟩
    rw [getenv_text hx]
    by_cases e : n = name
    · subst e
      rw [if_pos (hasName_self _ _)]; simp
    · have : hasName (name ++ [61] ++ value) n = false := by
        cases hh : hasName (name ++ [61] ++ value) n with
        | false => rfl
        | true => exact absurd (hasName_inj hx.2 hn.2 hh (hasName_self _ _)) e
      rw [this, if_neg (by simp)]
      simp only [e, if_false]
      exact h.2 n hx
  | .dangling :: _, _, h => absurd rfl (h.1 _ (by simp))
  | .text t :: rest, m, h => by
    by_cases ht : hasName t name = true
    · refine ⟨_, by rw [setEntry, if_pos ht], ?_, fun n hx => ?_⟩
      · intro e he
        rcases List.mem_cons.1 he with rfl | he
        · simp
        · exact h.1 e (by simp [he])
      · rw [getenv_text hx]
        by_cases e : n = name
        · subst e
          rw [if_pos (hasName_self _ _)]; simp
        · have h1 : hasName (name ++ [61] ++ value) n = false := by
            cases hh : hasName (name ++ [61] ++ value) n with
            | false => rfl
            | true => exact absurd (hasName_inj hx.2 hn.2 hh (hasName_self _ _)) e
          have h2 : hasName t n = false := by
            cases hh : hasName t n with
            | false => rfl
            | true => exact absurd (hasName_inj hx.2 hn.2 hh ht) e
          have := h.2 n hx
          rw [getenv_text hx, h2, if_neg (by simp)] at this
          rw [h1, if_neg (by simp), this]
          simp only [e, if_false]
    · have hrest : Shows rest fun n => (c_getenv rest n).getD none := by
        refine ⟨fun e he => h.1 e (by simp [he]), fun n hx => ?_⟩
        have hsome : ∀ l : List Entry, (∀ e ∈ l, e ≠ .dangling) → (c_getenv l n).isSome := by
          intro l hl
          induction l with
          | nil => rw [getenv_nil]; rfl
          | cons e es ih =>
            cases e with
            | dangling => exact absurd rfl (hl _ (by simp))
            | text u =>
              rw [getenv_text hx]
              split
              · rfl
              · exact ih fun e he => hl e (by simp [he])
        have := hsome rest fun e he => h.1 e (by simp [he])
        cases hc : c_getenv rest n with
        | none => rw [hc] at this; cases this
        | some v => simp only [hc, Option.getD_some]
      obtain ⟨env', e1, e2⟩ := setEntry_spec hn value hrest
      refine ⟨.text t :: env', by rw [setEntry, if_neg ht, e1]; rfl, ?_, fun n hx => ?_⟩
      · intro e he
        rcases List.mem_cons.1 he with rfl | he
        · simp
        · exact e2.1 e he
      · have hm := h.2 n hx
        rw [getenv_text hx] at hm ⊢
        rw [e2.2 n hx]
        by_cases hh : hasName t n = true
        · rw [if_pos hh] at hm ⊢
          have e : n ≠ name := fun e => ht (by rw [← e]; exact hh)
          simp only [e, if_false]
          exact hm
        · rw [if_neg hh] at hm ⊢
          simp only [hm, Option.getD_some]

theorem call_spec {env : List Entry} {m : Bytes → Option Bytes} (h : Shows env m) {c : Call} (hc : Plain c) :
    (call env c).1 = (specCall m c).1 ∧ Shows (call env c).2 (specCall m c).2 := by
  cases c with
  | putenv t => exact absurd hc id
  | getenv n =>
    simp only [call, specCall, cstr_id hc.2, h.2 n hc.1]
    cases m n <;> exact ⟨rfl, h⟩
  | setenv n v o =>
    simp only [call, specCall, cstr_id hc.1, cstr_id hc.2, c_setenv]
    by_cases hn : n = [] ∨ 61 ∈ n
    · rw [if_pos hn, if_pos hn]
      exact ⟨rfl, h⟩
    · have hname : Name n := ⟨fun e => hn (.inl e), fun e => hn (.inr e)⟩
      obtain ⟨env', e1, e2⟩ := setEntry_spec hname v h
      rw [if_neg hn, if_neg hn, h.2 n hname]
      cases hm : m n with
      | none =>
        simp only [e1, Option.map_some]
        exact ⟨trivial, by simpa using e2⟩
      | some w =>
        by_cases ho : o = 0
        · simp only [ho, if_true]
          exact ⟨trivial, by simpa using h⟩
        · simp only [ho, if_false, e1, Option.map_some]
          exact ⟨trivial, by simpa using e2⟩

/-- `getenv` and `setenv` in any order give the answers of a map from names to values, from any environment a process can
start with.  `_partial`: no `putenv`. -/
theorem environment_partial (cs : List Call) (env : List Entry) (m : Bytes → Option Bytes) (h : Shows env m)
    (hc : ∀ c ∈ cs, Plain c) : calls env cs = specCalls m cs := by
  induction cs generalizing env m with
  | nil => rfl
  | cons c cs ih =>
    obtain ⟨h1, h2⟩ := call_spec h (hc c (by simp))
    rw [calls, specCalls, h1, ih _ _ h2 fun c' hc' => hc c' (by simp [hc'])]

example : Shows [] (fun _ => none) := ⟨by simp, fun n _ => getenv_nil n⟩

example : calls [.text [65, 61, 49]] [.getenv [65], .setenv [65] [50] 0, .getenv [65], .setenv [65] [51] 1, .getenv [65],
    .getenv [66], .setenv [] [50] 1] =
    [.text [49], .int 0, .text [49], .int 0, .text [51], .text [], .int (-1)] := by decide

/-- **Refuted**: a variable set with `putenv` cannot be read: its text is gone when the call is over. -/
theorem putenv_refuted (env : List Entry) (m : Bytes → Option Bytes) (h : Shows env m) (n v : Bytes) (hn : Name n)
    (hz : 0 ∉ n ++ [61] ++ v) (cs : List Call) :
    ∃ rest, calls env (.putenv (n ++ [61] ++ v) :: .getenv n :: cs) = .int 0 :: .ub :: rest := by
  have hname : nameOf (n ++ [61] ++ v) = n := by
    obtain ⟨-, h61⟩ := hn
    clear hz h
    induction n with
    | nil => rfl
    | cons x xs ih =>
      simp only [List.mem_cons, not_or] at h61
      simp only [List.cons_append, nameOf]
      rw [if_neg (fun e => h61.1 e.symm), ih h61.2]
  have hset : ∀ l : List Entry, (∀ e ∈ l, e ≠ .dangling) →
      ∃ l', setEntry l n .dangling = some l' ∧ c_getenv l' n = none := by
    intro l hl
    induction l with
    | nil => exact ⟨_, rfl, getenv_dangling hn _⟩
    | cons e es ih =>
      cases e with
      | dangling => exact absurd rfl (hl _ (by simp))
      | text t =>
        by_cases ht : hasName t n = true
        · exact ⟨_, by rw [setEntry, if_pos ht], getenv_dangling hn _⟩
        · obtain ⟨l', e1, e2⟩ := ih fun e he => hl e (by simp [he])
          exact ⟨_, by rw [setEntry, if_neg ht, e1]; rfl, by rw [getenv_text hn, if_neg ht, e2]⟩
  obtain ⟨env', e1, e2⟩ := hset env h.1
  have hn0 : 0 ∉ n := fun k => hz (by simp [k])
  refine ⟨calls env' cs, ?_⟩
  have hc1 : call env (.putenv (n ++ [61] ++ v)) = (.int 0, env') := by
    simp only [call, cstr_id hz, hname, e1]
    rw [if_pos (by simp)]
  have hc2 : call env' (.getenv n) = (.ub, env') := by
    simp only [call, cstr_id hn0, e2]
  rw [calls, calls, hc1, hc2]

example : calls [] [.putenv [65, 61, 49], .getenv [65]] = [.int 0, .ub] ∧ Name [65] := ⟨by decide, by decide, by decide⟩

end Verif.Libc
