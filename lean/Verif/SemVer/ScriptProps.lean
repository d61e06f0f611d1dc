import Verif.SemVer.Script

/-!
# C142: the version class of libSemVer
-/

namespace Verif.SemVer.Script

open Verif.Str

/-! ## Specification -/

/-- A label that a version can have: none, or a text that does not count as false. -/
def Usable (t : Text) : Prop := t = [] ∨ stringToBool t = true

/-- The order of versions: by the numbers; a version with a label comes before the one without, labels by the order of texts; then by the
build. -/
def Before (a b : SemVer) : Prop :=
  a.major < b.major ∨ (a.major = b.major ∧ (a.minor < b.minor ∨ (a.minor = b.minor ∧ (a.bugfix < b.bugfix ∨ (a.bugfix = b.bugfix ∧
    ((a.label ≠ [] ∧ (b.label = [] ∨ a.label < b.label)) ∨ (a.label = b.label ∧ a.build < b.build)))))))

/-- The text has three parts between points: `a`, `b` and the rest `c`. -/
def Parts (t a b c : Text) : Prop := t = a ++ '.' :: (b ++ '.' :: c) ∧ '.' ∉ a ∧ '.' ∉ b

/-- The numbers are in the range of the type. -/
def SemVer.InRange (v : SemVer) : Prop := inInt32 v.major ∧ inInt32 v.minor ∧ inInt32 v.bugfix

/-! ## Lemmas -/

theorem find_some {h t : Text} {c : Char} {p : Nat} (hl : (h ++ c :: t).length < 2 ^ 31) (hp : p ≤ h.length) (hc : c ∉ h.drop p) :
    find (h ++ c :: t) [c] p = h.length := by
  rcases strfind_first (h ++ c :: t) [c] p hl ⟨by omega, by simp at hl; omega⟩ with ⟨-, hn⟩ | ⟨a, b, e, ha, hf, hmin⟩
  · exact absurd ⟨h, t, by simp, by omega⟩ hn
  · simp only [find, hf]
    have h1 := hmin h t (by simp) (by omega)
    by_cases h2 : a.length = h.length
    · rw [h2]
    · exfalso
      have hlt : a.length < h.length := by omega
      apply hc
      have e1 : (h ++ c :: t)[a.length]? = some c := by rw [e]; simp
      rw [List.getElem?_append_left hlt] at e1
      rw [List.mem_iff_getElem?]
      exact ⟨a.length - p, by rw [List.getElem?_drop]; rw [← e1]; congr 1; omega⟩

theorem find_none {s : Text} {c : Char} {p : Nat} (hl : s.length < 2 ^ 31) (hp : p < 2 ^ 63) (hc : c ∉ s.drop p) : find s [c] p = -1 := by
  rcases strfind_first s [c] p hl ⟨by omega, by omega⟩ with ⟨hf, -⟩ | ⟨a, b, e, ha, -, -⟩
  · simp only [find, hf]
  · exfalso
    apply hc
    rw [List.mem_iff_getElem?]
    refine ⟨a.length - p, ?_⟩
    rw [List.getElem?_drop, e, show p + (a.length - p) = a.length by omega]
    simp

theorem takeWhile_stop {p : Char → Bool} (x r : Text) (c : Char) (hc : p c = false) : (x ++ c :: r).takeWhile p = x.takeWhile p := by
  induction x with
  | nil => simp [hc]
  | cons a x ih => simp only [List.cons_append, List.takeWhile_cons, ih]

/-- A number ends at a point. -/
theorem stringToInt_stop (b r : Text) (c : Char) (hc : isDigit c = false) (hs : isSpace c = false) (hm : c ≠ '-' ∧ c ≠ '+') :
    stringToInt (b ++ c :: r) = stringToInt b := by
  have hne : (b ++ c :: r).isEmpty = false := by cases b <;> rfl
  have hz : ∀ x : Text, stringToInt x = streamInt x := by
    intro x; cases x with
    | nil => rfl
    | cons _ _ => rfl
  rw [hz, hz]
  unfold streamInt
  have hd : ∀ b : Text, (b ++ c :: r).dropWhile isSpace = b.dropWhile isSpace ++ c :: r := by
    intro b
    induction b with
    | nil => simp [hs]
    | cons x b ih =>
      simp only [List.cons_append, List.dropWhile_cons]
      split
      · exact ih
      · rfl
  rw [hd]
  cases hx : b.dropWhile isSpace with
  | nil =>
    simp only [List.nil_append, hm.1, hm.2, if_false, List.takeWhile_cons, hc, Bool.false_eq_true]
    rfl
  | cons x xs =>
    simp only [List.cons_append]
    rw [takeWhile_stop _ _ _ hc, ← List.cons_append, takeWhile_stop _ _ _ hc]

theorem sub_tail (x y : Text) (n : Int) (hn : n = x.length) (hl : (x ++ y).length < 2 ^ 31) : extSubstr (x ++ y) n none = .ok y := by
  simp only [List.length_append] at hl
  have hsz := toSize_of_nonneg (i := n) (by omega)
  simp only [extSubstr, substr, hsz]
  rw [if_neg (by simp only [List.length_append]; omega)]
  simp only [Ext.ok.injEq]
  rw [show n.toNat = x.length by omega, List.drop_left, List.take_of_length_le (by unfold npos; omega)]

theorem sub_part (x y : Text) (n k : Int) (hn : n = x.length) (hk : 0 ≤ k ∧ k < 2 ^ 32) (hl : (x ++ y).length < 2 ^ 31) :
    extSubstr (x ++ y) n (some k) = .ok (y.take k.toNat) := by
  simp only [List.length_append] at hl
  have hsz := toSize_of_nonneg (i := n) (by omega)
  have hsk := toSize_of_nonneg (i := k) (by omega)
  simp only [extSubstr, substr, hsz, hsk]
  rw [if_neg (by simp only [List.length_append]; omega)]
  simp only [Ext.ok.injEq]
  rw [show n.toNat = x.length by omega, List.drop_left]

/-- What is read from a text of three parts. -/
theorem fromString_parts {t a b c : Text} (h : Parts t a b c) (ha : a ≠ []) (h5 : 5 ≤ t.length) (hl : t.length < 2 ^ 31) :
    fromString t = some { major := stringToInt a, minor := stringToInt b, bugfix := stringToInt c, label := (splitBy c '-').2 } := by
  obtain ⟨rfl, hda, hdb⟩ := h
  have hal : 0 < a.length := List.length_pos_iff.2 ha
  have hl' := hl
  simp only [List.length_append, List.length_cons] at hl'
  have e1 : find (a ++ '.' :: (b ++ '.' :: c)) ['.'] 0 = a.length := find_some (p := 0) hl (by omega) (by simpa using hda)
  have e2 : find (a ++ '.' :: (b ++ '.' :: c)) ['.'] (a.length + 1) = (a.length + 1 + b.length : Nat) := by
    have := find_some (h := a ++ '.' :: b) (c := '.') (t := c) (p := a.length + 1) (by simpa using hl) (by simp)
      (by rw [show a.length + 1 = (a ++ ['.']).length by simp, show a ++ '.' :: b = (a ++ ['.']) ++ b by simp, List.drop_left]; exact hdb)
    simp only [List.append_assoc, List.cons_append, List.length_append, List.length_cons] at this
    rw [show ((a.length : Int) + 1) = ((a.length + 1 : Nat) : Int) by omega, this]
    omega
  have e3 : extSubstr (a ++ '.' :: (b ++ '.' :: c)) 0 (some (a.length : Int)) = .ok a := by
    have := sub_part [] (a ++ '.' :: (b ++ '.' :: c)) 0 a.length (by simp) (by omega) (by simpa using hl)
    rw [List.nil_append] at this
    rw [this]
    simp
  have e4 : extSubstr (a ++ '.' :: (b ++ '.' :: c)) (a.length + 1) (some ((a.length + 1 + b.length : Nat) : Int)) =
      .ok (b ++ '.' :: c.take a.length) := by
    have := sub_part (a ++ ['.']) (b ++ '.' :: c) (a.length + 1) ((a.length + 1 + b.length : Nat) : Int) (by simp) (by omega) (by simpa using hl)
    simp only [List.append_assoc, List.cons_append, List.nil_append] at this
    rw [this, Ext.ok.injEq, Int.toNat_natCast, show a.length + 1 + b.length = b.length + (a.length + 1) by omega, List.take_length_add_append,
      List.take_succ_cons]
  have e5 : extSubstr (a ++ '.' :: (b ++ '.' :: c)) ((a.length + 1 + b.length : Nat) + 1) none = .ok c := by
    have := sub_tail (a ++ '.' :: (b ++ ['.'])) c ((a.length + 1 + b.length : Nat) + 1) (by simp; omega) (by simpa using hl)
    simpa using this
  have e6 : (if find (a ++ '.' :: (b ++ '.' :: c)) ['-'] ((a.length + 1 + b.length : Nat) + 1) ≠ -1 then
      extSubstr (a ++ '.' :: (b ++ '.' :: c)) (find (a ++ '.' :: (b ++ '.' :: c)) ['-'] ((a.length + 1 + b.length : Nat) + 1) + 1) none
      else .ok []) = .ok (splitBy c '-').2 := by
    have hcast : (((a.length + 1 + b.length : Nat) : Int) + 1) = ((a.length + 1 + b.length + 1 : Nat) : Int) := by omega
    have hdrop : (a ++ '.' :: (b ++ '.' :: c)).drop (a.length + 1 + b.length + 1) = c := by
      rw [show a ++ '.' :: (b ++ '.' :: c) = (a ++ '.' :: (b ++ ['.'])) ++ c by simp,
        show a.length + 1 + b.length + 1 = (a ++ '.' :: (b ++ ['.'])).length by simp; omega, List.drop_left]
    rcases splitBy_spec c '-' with ⟨hn, es⟩ | ⟨x, y, ec, hx, es⟩
    · rw [hcast, find_none hl (by omega) (by rw [hdrop]; exact hn)]
      rw [splitBy_not_mem hn]
      simp
    · have := find_some (h := a ++ '.' :: (b ++ '.' :: x)) (c := '-') (t := y) (p := a.length + 1 + b.length + 1)
        (by rw [ec] at hl; simpa using hl) (by simp; omega)
        (by rw [show a ++ '.' :: (b ++ '.' :: x) = (a ++ '.' :: (b ++ ['.'])) ++ x by simp,
              show a.length + 1 + b.length + 1 = (a ++ '.' :: (b ++ ['.'])).length by simp; omega, List.drop_left]; exact hx)
      simp only [List.append_assoc, List.cons_append] at this
      rw [← ec, ← hcast] at this
      rw [this, es, if_pos (by omega)]
      have := sub_tail (a ++ '.' :: (b ++ '.' :: (x ++ ['-']))) y ((a ++ '.' :: (b ++ '.' :: x)).length + 1) (by simp; omega)
        (by rw [ec] at hl; simpa using hl)
      simp only [List.append_assoc, List.cons_append, List.nil_append] at this
      rw [← ec] at this
      exact this
  unfold fromString
  simp only [e1, e2]
  rw [if_neg (by omega), if_neg (by omega), if_neg (by omega)]
  simp only [e3, e4, e5, e6]
  rw [stringToInt_stop b _ '.' (by decide) (by decide) (by decide)]

/-- What has no three parts, begins with a point or is shorter than five characters is rejected. -/
theorem fromString_none {t : Text} (hl : t.length < 2 ^ 31) (h : ¬ ∃ a b c, Parts t a b c ∧ a ≠ [] ∧ 5 ≤ t.length) : fromString t = none := by
  rcases splitBy_spec t '.' with ⟨hn, -⟩ | ⟨a, r, rfl, ha, -⟩
  · have e1 : find t ['.'] 0 = -1 := find_none (p := 0) hl (by omega) (by simpa using hn)
    unfold fromString
    simp only [e1]
    simp
  · have e1 : find (a ++ '.' :: r) ['.'] 0 = a.length := find_some (p := 0) hl (by omega) (by simpa using ha)
    have hdrop : (a ++ '.' :: r).drop (a.length + 1) = r := by
      rw [show a ++ '.' :: r = (a ++ ['.']) ++ r by simp, show a.length + 1 = (a ++ ['.']).length by simp, List.drop_left]
    unfold fromString
    simp only [e1]
    by_cases hz : (a.length : Int) = 0
    · rw [if_pos hz]
    · rw [if_neg hz]
      by_cases hr : '.' ∈ r
      · rcases splitBy_spec r '.' with ⟨hn, -⟩ | ⟨b, c, rfl, hb, -⟩
        · exact absurd hr hn
        · have : ¬ 5 ≤ (a ++ '.' :: (b ++ '.' :: c)).length := fun h5 => h ⟨a, b, c, ⟨rfl, ha, hb⟩, by intro e; rw [e] at hz; exact hz rfl, h5⟩
          split
          · rfl
          · rw [if_pos (by omega)]
      · have e2 : find (a ++ '.' :: r) ['.'] ((a.length : Int) + 1) = -1 := by
          have := find_none (s := a ++ '.' :: r) (c := '.') (p := a.length + 1) hl (by simp only [List.length_append] at hl; omega)
            (by rw [hdrop]; exact hr)
          rw [← this]; congr 1
        simp only [e2]
        simp

/-! ## Theorems -/

/-- C142: what is read: a text of three parts gives the three numbers and the label behind the first dash; everything else is an exception. -/
theorem version_read (t : Text) (hl : t.length < 2 ^ 31) :
    (∃ a b c, Parts t a b c ∧ a ≠ [] ∧ 5 ≤ t.length ∧ fromString t =
      some { major := stringToInt a, minor := stringToInt b, bugfix := stringToInt c, label := (splitBy c '-').2, build := [] }) ∨
    (fromString t = none ∧ ¬ ∃ a b c, Parts t a b c ∧ a ≠ [] ∧ 5 ≤ t.length) := by
  by_cases h : ∃ a b c, Parts t a b c ∧ a ≠ [] ∧ 5 ≤ t.length
  · obtain ⟨a, b, c, hp, ha, h5⟩ := h
    exact .inl ⟨a, b, c, hp, ha, h5, fromString_parts hp ha h5 hl⟩
  · exact .inr ⟨fromString_none hl h, h⟩

theorem toText_parts (v : SemVer) : Parts v.toText (intToString v.major) (intToString v.minor) (intToString v.bugfix ++
    ((if stringToBool v.label then '-' :: v.label else []) ++ (if stringToBool v.build then '+' :: v.build else []))) := by
  refine ⟨?_, (intToString_no_dot _).1, (intToString_no_dot _).1⟩
  unfold SemVer.toText
  simp

theorem stringToInt_range {i : Int} (h : inInt32 i) (r : Text) (hr : ∀ c, r.head? = some c → isDigit c = false) :
    stringToInt (intToString i ++ r) = i := by
  have : stringToInt (intToString i ++ r) = streamInt (intToString i ++ r) := by
    cases hx : intToString i with
    | nil => exact absurd hx (intToString_ne_nil i)
    | cons _ _ => rfl
  rw [this, streamInt_intToString i r (by unfold inInt32 at h; omega) hr]

theorem read_toText (v : SemVer) (hv : v.InRange) (hb : 0 ≤ v.bugfix) (hl : v.toText.length < 2 ^ 31) :
    fromString v.toText = some { major := v.major, minor := v.minor, bugfix := v.bugfix, label :=
      (splitBy ((if stringToBool v.label then '-' :: v.label else []) ++ (if stringToBool v.build then '+' :: v.build else [])) '-').2 } := by
  have h5 : 5 ≤ v.toText.length := by
    have h1 := List.length_pos_iff.2 (intToString_ne_nil v.major)
    have h2 := List.length_pos_iff.2 (intToString_ne_nil v.minor)
    have h3 := List.length_pos_iff.2 (intToString_ne_nil v.bugfix)
    rw [(toText_parts v).1]
    simp only [List.length_append, List.length_cons]
    omega
  rw [fromString_parts (toText_parts v) (intToString_ne_nil _) h5 hl]
  have ea := stringToInt_range hv.1 [] (by simp)
  have eb := stringToInt_range hv.2.1 [] (by simp)
  rw [List.append_nil] at ea eb
  rw [ea, eb, stringToInt_range hv.2.2]
  · rw [Option.some.injEq, SemVer.mk.injEq]
    refine ⟨rfl, rfl, rfl, ?_, rfl⟩
    generalize hr : ((if stringToBool v.label then '-' :: v.label else []) ++ (if stringToBool v.build then '+' :: v.build else [])) = r
    rcases splitBy_spec r '-' with ⟨hn, es⟩ | ⟨x, y, rfl, hx, es⟩
    · rw [splitBy_not_mem hn, splitBy_not_mem]
      simp [intToString_no_minus hb, hn]
    · rw [splitBy_append hx, ← List.append_assoc, splitBy_append]
      simp [intToString_no_minus hb, hx]
  · intro c
    split
    · simp; rintro rfl; decide
    · split
      · simp; rintro rfl; decide
      · simp

/-- C142 (partial): a version that is turned into a text and read again is the same version, if it has no build, its label does not count as
false and the last number is not negative. -/
theorem version_roundtrip_partial (v : SemVer) (hv : v.InRange) (hb : 0 ≤ v.bugfix) (hn : v.build = []) (hu : Usable v.label)
    (hl : v.toText.length < 2 ^ 31) : fromString v.toText = some v := by
  rw [read_toText v hv hb hl, hn]
  rw [Option.some.injEq]
  obtain ⟨M, m, b, l, d⟩ := v
  simp only at hn hu ⊢
  subst hn
  rw [SemVer.mk.injEq]
  refine ⟨rfl, rfl, rfl, ?_, rfl⟩
  have e : stringToBool [] = false := by decide
  rcases hu with rfl | h
  · simp [e, splitBy_not_mem]
  · have := splitBy_append (h := []) (t := l) (c := '-') (by simp)
    simp only [List.nil_append] at this
    simp [h, e, this]

/-- C142: the build is never read back. -/
theorem build_refuted (v : SemVer) (hv : v.InRange) (hb : 0 ≤ v.bugfix) (hn : v.build ≠ []) (hl : v.toText.length < 2 ^ 31) :
    fromString v.toText ≠ some v := by
  rw [read_toText v hv hb hl]
  intro h
  rw [Option.some.injEq] at h
  exact hn (congrArg SemVer.build h).symm

/-- C142: with a label, the build becomes a part of the label. -/
theorem build_in_label_refuted (v : SemVer) (hv : v.InRange) (hb : 0 ≤ v.bugfix) (hn : stringToBool v.label = true)
    (hd : stringToBool v.build = true) (hl : v.toText.length < 2 ^ 31) :
    fromString v.toText = some { v with label := v.label ++ '+' :: v.build, build := [] } := by
  rw [read_toText v hv hb hl, hn, hd]
  have := splitBy_append (h := []) (t := v.label ++ '+' :: v.build) (c := '-') (by simp)
  simp only [List.nil_append] at this
  simp [this]

/-- C142: a label that counts as false is lost. -/
theorem label_refuted (v : SemVer) (hv : v.InRange) (hb : 0 ≤ v.bugfix) (hd : v.build = []) (hn : ¬ Usable v.label)
    (hl : v.toText.length < 2 ^ 31) : fromString v.toText = some { v with label := [] } := by
  have e : stringToBool [] = false := by decide
  have h : stringToBool v.label = false := by
    cases hx : stringToBool v.label with
    | false => rfl
    | true => exact absurd (.inr hx) hn
  rw [read_toText v hv hb hl, hd, h]
  simp [e, splitBy_not_mem]

/-- C142 (partial): `<`, `>` and `==` are the order of versions and equality, for labels that do not count as false. -/
theorem compare_partial (a b : SemVer) (ha : Usable a.label) (hb : Usable b.label) :
    (a.lt b = true ↔ Before a b) ∧ (a.gt b = true ↔ Before b a) ∧ (a.eq b = true ↔ a = b) := by
  have e : stringToBool [] = false := by decide
  obtain ⟨M, m, x, l, d⟩ := a
  obtain ⟨M', m', x', l', d'⟩ := b
  simp only at ha hb
  refine ⟨?_, ?_, ?_⟩
  · unfold SemVer.lt Before
    simp only
    by_cases h1 : M = M'
    · by_cases h2 : m = m'
      · by_cases h3 : x = x'
        · by_cases h4 : l = l'
          · subst h4; simp [h1, h2, h3, List.lt_irrefl]
          · rcases ha with rfl | ha <;> rcases hb with rfl | hb
            · exact absurd rfl h4
            · simp [h1, h2, h3, h4, e]
            · have : l ≠ [] := h4
              simp [h1, h2, h3, h4, e, ha]
            · have q1 : l ≠ [] := by rintro rfl; rw [e] at ha; cases ha
              have q2 : l' ≠ [] := by rintro rfl; rw [e] at hb; cases hb
              simp [h1, h2, h3, h4, ha, hb, q1, q2]
        · simp [h1, h2, h3]
      · simp [h1, h2]
    · simp [h1]
  · unfold SemVer.gt Before
    simp only
    by_cases h1 : M = M'
    · by_cases h2 : m = m'
      · by_cases h3 : x = x'
        · by_cases h4 : l = l'
          · subst h4; simp [h1, h2, h3, List.lt_irrefl]
          · rcases ha with rfl | ha <;> rcases hb with rfl | hb
            · exact absurd rfl h4
            · have : l' ≠ [] := fun h => h4 h.symm
              simp [h1, h2, h3, h4, e, hb, this]
            · have : [] ≠ l := fun h => h4 h.symm
              simp [h1, h2, h3, h4, e, ha, this]
            · have q1 : l ≠ [] := by rintro rfl; rw [e] at ha; cases ha
              have q2 : l' ≠ [] := by rintro rfl; rw [e] at hb; cases hb
              simp [h1, h2, h3, h4, ha, hb, q1, q2, Ne.symm h4]
        · simp [h1, h2, h3, Ne.symm h3]
      · simp [h1, h2, Ne.symm h2]
    · simp [h1, Ne.symm h1]
  · unfold SemVer.eq
    simp [and_assoc]

/-- The order of versions is a strict total order: versions are the same, or one is before the other, never both. -/
theorem before_total (a b c : SemVer) :
    ¬ Before a a ∧ (Before a b → ¬ Before b a) ∧ (Before a b → Before b c → Before a c) ∧ (a = b ∨ Before a b ∨ Before b a) := by
  have trans : ∀ a b c : SemVer, Before a b → Before b c → Before a c := by
    intro a b c h1 h2
    unfold Before at *
    rcases h1 with h | ⟨e1, h | ⟨e2, h | ⟨e3, h⟩⟩⟩
    · left
      rcases h2 with h' | ⟨e', -⟩ <;> omega
    · rcases h2 with h' | ⟨e', h' | ⟨e'', -⟩⟩
      · left; omega
      · right; exact ⟨by omega, .inl (by omega)⟩
      · right; exact ⟨by omega, .inl (by omega)⟩
    · rcases h2 with h' | ⟨e', h' | ⟨e'', h' | ⟨e''', -⟩⟩⟩
      · left; omega
      · right; exact ⟨by omega, .inl (by omega)⟩
      · right; exact ⟨by omega, .inr ⟨by omega, .inl (by omega)⟩⟩
      · right; exact ⟨by omega, .inr ⟨by omega, .inl (by omega)⟩⟩
    · rcases h2 with h' | ⟨e', h' | ⟨e'', h' | ⟨e''', h'⟩⟩⟩
      · left; omega
      · right; exact ⟨by omega, .inl (by omega)⟩
      · right; exact ⟨by omega, .inr ⟨by omega, .inl (by omega)⟩⟩
      · right; refine ⟨by omega, .inr ⟨by omega, .inr ⟨by omega, ?_⟩⟩⟩
        rcases h with ⟨n1, n2⟩ | ⟨q1, q2⟩
        · rcases h' with ⟨m1, m2⟩ | ⟨m1, m2⟩
          · left
            refine ⟨n1, ?_⟩
            rcases n2 with n2 | n2
            · exact absurd n2 m1
            · rcases m2 with m2 | m2
              · exact .inl m2
              · exact .inr (List.lt_trans n2 m2)
          · left
            rw [← m1]
            exact ⟨n1, n2⟩
        · rcases h' with ⟨m1, m2⟩ | ⟨m1, m2⟩
          · left; rw [q1]; exact ⟨m1, m2⟩
          · right; exact ⟨q1.trans m1, List.lt_trans q2 m2⟩
  have irrefl : ∀ a : SemVer, ¬ Before a a := by
    intro a h
    unfold Before at h
    rcases h with h | ⟨-, h | ⟨-, h | ⟨-, ⟨h1, h | h⟩ | ⟨-, h⟩⟩⟩⟩
    · omega
    · omega
    · omega
    · exact h1 h
    · exact List.lt_irrefl _ h
    · exact List.lt_irrefl _ h
  refine ⟨irrefl a, fun h h' => irrefl _ (trans _ _ _ h h'), trans a b c, ?_⟩
  obtain ⟨M, m, x, l, d⟩ := a
  obtain ⟨M', m', x', l', d'⟩ := b
  unfold Before
  simp only [SemVer.mk.injEq]
  have tri : ∀ s t : Text, s = t ∨ s < t ∨ t < s := by
    intro s t
    by_cases h1 : s < t
    · exact .inr (.inl h1)
    · by_cases h2 : t < s
      · exact .inr (.inr h2)
      · exact .inl (List.le_antisymm (List.not_lt.1 h2) (List.not_lt.1 h1))
  rcases Int.lt_trichotomy M M' with h1 | h1 | h1
  · exact .inr (.inl (.inl h1))
  · rcases Int.lt_trichotomy m m' with h2 | h2 | h2
    · exact .inr (.inl (.inr ⟨h1, .inl h2⟩))
    · rcases Int.lt_trichotomy x x' with h3 | h3 | h3
      · exact .inr (.inl (.inr ⟨h1, .inr ⟨h2, .inl h3⟩⟩))
      · by_cases h4 : l = l'
        · rcases tri d d' with h5 | h5 | h5
          · exact .inl ⟨h1, h2, h3, h4, h5⟩
          · exact .inr (.inl (.inr ⟨h1, .inr ⟨h2, .inr ⟨h3, .inr ⟨h4, h5⟩⟩⟩⟩))
          · exact .inr (.inr (.inr ⟨h1.symm, .inr ⟨h2.symm, .inr ⟨h3.symm, .inr ⟨h4.symm, h5⟩⟩⟩⟩))
        · by_cases q : l = []
          · have : l' ≠ [] := fun e => h4 (q.trans e.symm)
            exact .inr (.inr (.inr ⟨h1.symm, .inr ⟨h2.symm, .inr ⟨h3.symm, .inl ⟨this, .inl q⟩⟩⟩⟩))
          · by_cases q' : l' = []
            · exact .inr (.inl (.inr ⟨h1, .inr ⟨h2, .inr ⟨h3, .inl ⟨q, .inl q'⟩⟩⟩⟩))
            · rcases tri l l' with h5 | h5 | h5
              · exact absurd h5 h4
              · exact .inr (.inl (.inr ⟨h1, .inr ⟨h2, .inr ⟨h3, .inl ⟨q, .inr h5⟩⟩⟩⟩))
              · exact .inr (.inr (.inr ⟨h1.symm, .inr ⟨h2.symm, .inr ⟨h3.symm, .inl ⟨q', .inr h5⟩⟩⟩⟩))
      · exact .inr (.inr (.inr ⟨h1.symm, .inr ⟨h2.symm, .inl h3⟩⟩))
    · exact .inr (.inr (.inr ⟨h1.symm, .inl h2⟩))
  · exact .inr (.inr (.inl h1))

/-- C142: `a > b` says the same as `b < a`, whatever the labels. -/
theorem greater_is_less (a b : SemVer) : a.gt b = b.lt a := by
  unfold SemVer.gt SemVer.lt
  by_cases h1 : a.major = b.major
  · by_cases h2 : a.minor = b.minor
    · by_cases h3 : a.bugfix = b.bugfix
      · by_cases h4 : a.label = b.label
        · simp [h1, h2, h3, h4]
        · simp only [h1, h2, h3, h4, if_true, if_false, Ne.symm h4, gt_iff_lt]
          cases stringToBool a.label <;> cases stringToBool b.label <;> rfl
      · simp [h1, h2, h3, Ne.symm h3]
    · simp [h1, h2, Ne.symm h2]
  · simp [h1, Ne.symm h1]

/-- C142: a label that counts as false makes versions that are neither less nor greater nor equal. -/
theorem label_order_refuted (M m b : Int) (l d d' : Text) (hl : ¬ Usable l) :
    SemVer.lt ⟨M, m, b, l, d⟩ ⟨M, m, b, [], d'⟩ = false ∧ SemVer.gt ⟨M, m, b, l, d⟩ ⟨M, m, b, [], d'⟩ = false ∧
      SemVer.eq ⟨M, m, b, l, d⟩ ⟨M, m, b, [], d'⟩ = false := by
  have e : stringToBool [] = false := by decide
  have h : stringToBool l = false := by
    cases hx : stringToBool l with
    | false => rfl
    | true => exact absurd (.inr hx) hl
  have hn : l ≠ [] := fun h => hl (.inl h)
  simp [SemVer.lt, SemVer.gt, SemVer.eq, h, e, hn]

/-- C142: the next versions come after the version, and after all versions with the same numbers up to there: the next bugfix after all
with these three numbers, the next minor after all with these first two, the next major after all with this first one. -/
theorem next_after (v w : SemVer) :
    (w.major = v.major → w.minor = v.minor → w.bugfix ≤ v.bugfix → Before w v.nextBugfix) ∧
      (w.major = v.major → w.minor ≤ v.minor → Before w v.nextMinor) ∧ (w.major ≤ v.major → Before w v.nextMajor) := by
  unfold Before SemVer.nextBugfix SemVer.nextMinor SemVer.nextMajor
  refine ⟨fun h1 h2 h3 => .inr ⟨h1, .inr ⟨h2, .inl ?_⟩⟩, fun h1 h2 => .inr ⟨h1, .inl ?_⟩, fun h1 => .inl ?_⟩ <;> dsimp only <;> omega

/-- C142: and no release with non-negative numbers is between a version and the next one. -/
theorem next_least (v w : SemVer) (hw : w.label = [] ∧ 0 ≤ w.minor ∧ 0 ≤ w.bugfix) :
    (Before w v.nextBugfix → w.major = v.major → w.minor = v.minor → w.bugfix ≤ v.bugfix) ∧
      (Before w v.nextMinor → w.major = v.major → w.minor ≤ v.minor) ∧ (Before w v.nextMajor → w.major ≤ v.major) := by
  obtain ⟨hl, hm, hb⟩ := hw
  have nn : ¬ w.build < [] := List.not_lt_nil _
  unfold Before SemVer.nextBugfix SemVer.nextMinor SemVer.nextMajor
  simp only [hl, ne_eq, not_true_eq_false, false_and, nn, and_false, or_false]
  refine ⟨?_, ?_, ?_⟩ <;> omega

/-! ## Examples -/

example : fromString "1.20.3-rc.1-b".toList = some ⟨1, 20, 3, "rc.1-b".toList, []⟩ := by decide +kernel
example : fromString "1.2".toList = none := by decide +kernel
example : fromString "a.b.c".toList = some ⟨0, 0, 0, [], []⟩ := by decide +kernel
example : (⟨1, 20, 3, "rc.1-b".toList, []⟩ : SemVer).InRange ∧ Usable "rc.1-b".toList := by
  unfold SemVer.InRange inInt32 Usable; decide +kernel
example := version_roundtrip_partial ⟨1, 20, 3, "rc.1-b".toList, []⟩ (by unfold SemVer.InRange inInt32; decide) (by decide) rfl
  (by unfold Usable; decide +kernel) (by decide +kernel)
example := build_in_label_refuted ⟨1, 0, 0, "rc".toList, "7".toList⟩ (by unfold SemVer.InRange inInt32; decide) (by decide) (by decide +kernel)
  (by decide +kernel) (by decide +kernel)
example : ¬ Usable " False".toList ∧ ¬ Usable "\n".toList := by unfold Usable; decide +kernel
example := label_refuted ⟨1, 0, 0, "false".toList, []⟩ (by unfold SemVer.InRange inInt32; decide) (by decide) rfl (by unfold Usable; decide +kernel)
  (by decide +kernel)
example := label_order_refuted 1 0 0 "false".toList [] [] (by unfold Usable; decide +kernel)
example : Before ⟨1, 0, 0, "alpha".toList, []⟩ ⟨1, 0, 0, "beta".toList, []⟩ ∧ Before ⟨1, 0, 0, "beta".toList, []⟩ ⟨1, 0, 0, [], []⟩ := by
  unfold Before; decide +kernel
example := next_least ⟨1, 0, 4, "beta".toList, []⟩ ⟨1, 0, 5, [], "3".toList⟩ ⟨rfl, by decide, by decide⟩

end Verif.SemVer.Script
