import Verif.SemVer.Model

/-!
# Properties of version numbers (C53 - C55)
-/

namespace Verif.SemVer

open Verif.Str

theorem cast32_of_range {i : Int} (h : inInt32 i) : cast32 i = i := by
  unfold cast32; unfold inInt32 at h; dsimp only; split <;> omega

theorem stringToInt_digits {i : Int} (h : inInt32 i) : cast32 (stringToInt (intToString i)) = i := by
  rw [stringToInt_intToString i (by unfold inInt32 at h; omega), cast32_of_range h]

/-- The text in three dot-separated parts. -/
theorem toText_parts (v : Version) : v.toText =
    intToString v.major ++ '.' :: (intToString v.minor ++ '.' :: (intToString v.bugfix ++
      ((if !v.label.isEmpty then '-' :: v.label else []) ++ (if !v.metadata.isEmpty then '+' :: v.metadata else [])))) := by
  unfold Version.toText; simp

theorem parse_toText (v : Version) (old : Version) (h : v.InRange) :
    old.parse v.toText =
      (let rest := intToString v.bugfix ++
        ((if !v.label.isEmpty then '-' :: v.label else []) ++ (if !v.metadata.isEmpty then '+' :: v.metadata else []))
       let b := cast32 (stringToInt (splitBy (splitBy rest '+').1 '-').1)
       ⟨v.major, v.minor, b, (splitBy (splitBy rest '+').1 '-').2, (splitBy rest '+').2,
        v.major != 0 || v.minor != 0 || b != 0 || !(splitBy (splitBy rest '+').1 '-').2.isEmpty || !(splitBy rest '+').2.isEmpty⟩) := by
  have hne : v.toText.isEmpty = false := by
    rw [toText_parts]
    cases hx : intToString v.major with
    | nil => rfl
    | cons _ _ => rfl
  unfold Version.parse
  simp only [hne, Bool.false_eq_true, if_false]
  rw [toText_parts]
  simp only [splitBy_append (intToString_no_dot v.major).1, splitBy_append (intToString_no_dot v.minor).1,
    stringToInt_digits h.1, stringToInt_digits h.2.1]

/-- C53: printing and parsing gives back an equal version exactly when the notation can express
it: the label has no `+` and the last number is not negative. -/
theorem version_roundtrip (v : Version) (h : v.InRange) :
    (Version.ofText v.toText).eq v = true ↔ 0 ≤ v.bugfix ∧ '+' ∉ v.label := by
  unfold Version.ofText
  rw [parse_toText v _ h]
  dsimp only
  simp only [Version.eq, Bool.and_eq_true, beq_iff_eq, true_and]
  by_cases hp : '+' ∈ v.label
  · -- the label is cut at the plus sign
    simp only [hp, not_true_eq_false, and_false, iff_false]
    rintro ⟨⟨-, hl⟩, hm⟩
    have hemp : v.label.isEmpty = false := by
      cases hx : v.label with
      | nil => rw [hx] at hp; simp at hp
      | cons _ _ => rfl
    rw [hemp] at hl hm
    have hin : '+' ∈ intToString v.bugfix ++ ((if (!false) = true then '-' :: v.label else []) ++
        (if (!v.metadata.isEmpty) = true then '+' :: v.metadata else [])) := by
      simp [hp]
    rcases splitBy_spec (intToString v.bugfix ++ ((if (!false) = true then '-' :: v.label else []) ++
        (if (!v.metadata.isEmpty) = true then '+' :: v.metadata else []))) '+' with ⟨hn, -⟩ | ⟨a, t, e, ha, es⟩
    · exact hn hin
    · rw [es] at hl
      simp only at hl
      -- the parsed label is part of `a`, which has no plus sign
      have : '+' ∉ (splitBy a '-').2 := by
        rcases splitBy_spec a '-' with ⟨-, e'⟩ | ⟨a1, t1, e', -, es'⟩
        · rw [e']; simp
        · rw [es']; intro hx; apply ha; rw [e']; simp [hx]
      rw [hl] at this
      exact this hp
  · simp only [hp, not_false_eq_true, and_true]
    have hs1 : splitBy (intToString v.bugfix ++ ((if (!v.label.isEmpty) = true then '-' :: v.label else []) ++
        (if (!v.metadata.isEmpty) = true then '+' :: v.metadata else []))) '+'
        = (intToString v.bugfix ++ (if (!v.label.isEmpty) = true then '-' :: v.label else []), v.metadata) := by
      have hno : '+' ∉ intToString v.bugfix ++ (if (!v.label.isEmpty) = true then '-' :: v.label else []) := by
        have h1 := (intToString_no_dot v.bugfix).2
        intro hx
        rcases List.mem_append.1 hx with hx | hx
        · exact h1 hx
        · split at hx
          · simp [hp] at hx
          · simp at hx
      cases hm : v.metadata with
      | nil => simpa using splitBy_not_mem hno
      | cons c m => rw [← List.append_assoc]; exact splitBy_append hno
    rw [hs1]
    simp only [and_true]
    by_cases hb : 0 ≤ v.bugfix
    · have hno := intToString_no_minus hb
      have hs2 : splitBy (intToString v.bugfix ++ (if (!v.label.isEmpty) = true then '-' :: v.label else [])) '-'
          = (intToString v.bugfix, v.label) := by
        cases hl : v.label with
        | nil => simpa using splitBy_not_mem hno
        | cons c m => exact splitBy_append hno
      rw [hs2]
      simp [stringToInt_digits h.2.2, hb]
    · simp only [hb, iff_false]
      rintro ⟨hx, -⟩
      have : intToString v.bugfix = [] ++ '-' :: natDigits v.bugfix.natAbs := by
        unfold intToString; rw [if_pos (by omega)]; rfl
      rw [this, List.append_assoc, List.cons_append, splitBy_append (by simp)] at hx
      simp [stringToInt, cast32] at hx
      omega

example : (⟨1, 2, 3, "alpha.1-x".toList, "b+7".toList, true⟩ : Version).InRange := by
  unfold Version.InRange inInt32; decide
example : (Version.make 1 2 3 "alpha.1-x".toList "b+7".toList).toText = "1.2.3-alpha.1-x+b+7".toList := by
  simp [Version.toText, Version.make, intToString, natDigits, digitChar]

/-- The version of no text is the one that was never set, and not valid. -/
theorem no_text_not_valid : Version.ofText [] = Version.default ∧ (Version.ofText []).valid = false := ⟨rfl, rfl⟩

/-- A printed version is recognised as valid unless all parts are zero or empty. -/
theorem version_printed_valid (v : Version) (h : v.InRange) (hb : 0 ≤ v.bugfix) (hp : '+' ∉ v.label) :
    (Version.ofText v.toText).valid = true ↔
      ¬ (v.major = 0 ∧ v.minor = 0 ∧ v.bugfix = 0 ∧ v.label = [] ∧ v.metadata = []) := by
  have := (version_roundtrip v h).2 ⟨hb, hp⟩
  simp only [Version.eq, Bool.and_eq_true, beq_iff_eq] at this
  obtain ⟨⟨⟨⟨h1, h2⟩, h3⟩, h4⟩, h5⟩ := this
  have hv : (Version.ofText v.toText).valid = ((Version.ofText v.toText).major != 0 || (Version.ofText v.toText).minor != 0 ||
      (Version.ofText v.toText).bugfix != 0 || !(Version.ofText v.toText).label.isEmpty ||
      !(Version.ofText v.toText).metadata.isEmpty) := by
    unfold Version.ofText
    rw [parse_toText v _ h]
  rw [hv, h1, h2, h3, h4, h5]
  simp only [Bool.or_eq_true, bne_iff_ne, Bool.not_eq_true', List.isEmpty_eq_false_iff]
  by_cases a1 : v.major = 0 <;> by_cases a2 : v.minor = 0 <;> by_cases a3 : v.bugfix = 0 <;>
    by_cases a4 : v.label = [] <;> by_cases a5 : v.metadata = [] <;> simp [a1, a2, a3, a4, a5]

/-! ## C54 -/

/-- No version is before itself. -/
theorem version_lt_irrefl (v : Version) : v.lt v = false := by
  simp [Version.lt, List.lt_irrefl]

/-- The code's comparison is not asymmetric: two pre-releases of the same version with different labels are
each before the other (Version.cpp:71). -/
theorem version_lt_asymm_refuted :
    ¬ ∀ a b : Version, a.InRange → b.InRange → a.lt b = true → b.lt a = false := by
  intro h
  exact absurd (h (.make 1 0 0 ['a'] []) (.make 1 0 0 ['b'] []) (by unfold Version.InRange inInt32; decide)
    (by unfold Version.InRange inInt32; decide) (by decide)) (by decide)

/-- Nor is it transitive. -/
theorem version_lt_trans_refuted :
    ¬ ∀ a b c : Version, a.InRange → b.InRange → c.InRange → a.lt b = true → b.lt c = true → a.lt c = true := by
  intro h
  exact absurd (h (.make 1 0 0 ['a'] []) (.make 1 0 0 ['b'] []) (.make 1 0 0 ['a'] [])
    (by unfold Version.InRange inInt32; decide) (by unfold Version.InRange inInt32; decide)
    (by unfold Version.InRange inInt32; decide) (by decide) (by decide)) (by decide)

/-- Two versions whose labels the code can compare: the same label, or one of them a release. -/
def LabelsComparable (a b : Version) : Prop := a.label = b.label ∨ a.label = [] ∨ b.label = []

/-- The order as a proposition. -/
theorem lt_iff (a b : Version) : a.lt b = true ↔
    a.major < b.major ∨ (a.major = b.major ∧ (a.minor < b.minor ∨ (a.minor = b.minor ∧
      (a.bugfix < b.bugfix ∨ (a.bugfix = b.bugfix ∧
        ((a.label ≠ b.label ∧ a.label ≠ []) ∨ (a.label = b.label ∧ a.metadata < b.metadata))))))) := by
  unfold Version.lt
  by_cases h1 : a.major = b.major
  · by_cases h2 : a.minor = b.minor
    · by_cases h3 : a.bugfix = b.bugfix
      · by_cases h4 : a.label = b.label
        · simp [h1, h2, h3, h4]
        · simp [h1, h2, h3, h4]
      · simp [h1, h2, h3]
    · simp [h1, h2]
  · simp [h1]

/-- Asymmetry holds for versions with comparable labels.  Missing from C54: versions with two different
non-empty labels, for which it fails. -/
theorem version_lt_asymm_partial (a b : Version) (hl : LabelsComparable a b) (h : a.lt b = true) : b.lt a = false := by
  rw [← Bool.not_eq_true, lt_iff]
  rw [lt_iff] at h
  intro h'
  rcases h with h | ⟨e1, h | ⟨e2, h | ⟨e3, h⟩⟩⟩
  · rcases h' with h' | ⟨e', -⟩ <;> omega
  · rcases h' with h' | ⟨-, h' | ⟨e', -⟩⟩ <;> omega
  · rcases h' with h' | ⟨-, h' | ⟨-, h' | ⟨e', -⟩⟩⟩ <;> omega
  · rcases h' with h' | ⟨-, h' | ⟨-, h' | ⟨-, h'⟩⟩⟩
    · omega
    · omega
    · omega
    · rcases h with ⟨n1, n2⟩ | ⟨q1, q2⟩
      · rcases h' with ⟨m1, m2⟩ | ⟨m1, m2⟩
        · rcases hl with hl | hl | hl
          · exact n1 hl
          · exact n2 hl
          · exact m2 hl
        · exact n1 m1.symm
      · rcases h' with ⟨m1, m2⟩ | ⟨m1, m2⟩
        · exact m1 q1.symm
        · exact absurd m2 (List.lt_asymm q2)

example : LabelsComparable (.make 1 0 0 "rc1".toList []) (.make 1 0 0 [] []) ∧
    (Version.make 1 0 0 "rc1".toList []).lt (.make 1 0 0 [] []) = true := by
  constructor
  · right; right; rfl
  · decide

/-- Transitivity holds for versions with pairwise comparable labels. -/
theorem version_lt_trans_partial (a b c : Version) (h1 : LabelsComparable a b) (h2 : LabelsComparable b c)
    (h3 : LabelsComparable a c) (hab : a.lt b = true) (hbc : b.lt c = true) : a.lt c = true := by
  rw [lt_iff] at *
  rcases hab with h | ⟨e1, h | ⟨e2, h | ⟨e3, h⟩⟩⟩
  · left
    rcases hbc with h' | ⟨e', -⟩ <;> omega
  · rcases hbc with h' | ⟨e', h' | ⟨e'', -⟩⟩
    · left; omega
    · right; exact ⟨by omega, .inl (by omega)⟩
    · right; exact ⟨by omega, .inl (by omega)⟩
  · rcases hbc with h' | ⟨e', h' | ⟨e'', h' | ⟨e''', -⟩⟩⟩
    · left; omega
    · right; exact ⟨by omega, .inl (by omega)⟩
    · right; exact ⟨by omega, .inr ⟨by omega, .inl (by omega)⟩⟩
    · right; exact ⟨by omega, .inr ⟨by omega, .inl (by omega)⟩⟩
  · rcases hbc with h' | ⟨e', h' | ⟨e'', h' | ⟨e''', h'⟩⟩⟩
    · left; omega
    · right; exact ⟨by omega, .inl (by omega)⟩
    · right; exact ⟨by omega, .inr ⟨by omega, .inl (by omega)⟩⟩
    · right; refine ⟨by omega, .inr ⟨by omega, .inr ⟨by omega, ?_⟩⟩⟩
      rcases h with ⟨n1, n2⟩ | ⟨q1, q2⟩
      · rcases h' with ⟨m1, m2⟩ | ⟨m1, m2⟩
        · rcases h1 with h1 | h1 | h1
          · exact absurd h1 n1
          · exact absurd h1 n2
          · exact absurd h1 m2
        · left; exact ⟨fun h => n1 (h.trans m1.symm), n2⟩
      · rcases h' with ⟨m1, m2⟩ | ⟨m1, m2⟩
        · left; exact ⟨fun h => m1 (q1.symm.trans h), q1 ▸ m2⟩
        · right; exact ⟨q1.trans m1, List.lt_trans q2 m2⟩

/-- Between versions without label and metadata the comparison is the lexicographic order of the three numbers. -/
theorem version_lt_lexicographic (M m b M' m' b' : Int) :
    (Version.make M m b [] []).lt (.make M' m' b' [] []) = true ↔
      M < M' ∨ (M = M' ∧ m < m') ∨ (M = M' ∧ m = m' ∧ b < b') := by
  rw [lt_iff]; simp only [Version.make]
  constructor
  · rintro (h | ⟨e, h | ⟨e', h | ⟨e'', h⟩⟩⟩)
    · exact .inl h
    · exact .inr (.inl ⟨e, h⟩)
    · exact .inr (.inr ⟨e, e', h⟩)
    · rcases h with ⟨h, -⟩ | ⟨-, h⟩
      · exact absurd rfl h
      · exact absurd h (List.lt_irrefl _)
  · rintro (h | ⟨e, h⟩ | ⟨e, e', h⟩)
    · exact .inl h
    · exact .inr ⟨e, .inl h⟩
    · exact .inr ⟨e, .inr ⟨e', .inl h⟩⟩

/-- A pre-release comes before its release, and never after. -/
theorem prerelease_before_release (M m b : Int) (l md md' : Text) (hl : l ≠ []) :
    (Version.make M m b l md).lt (.make M m b [] md') = true ∧ (Version.make M m b [] md').lt (.make M m b l md) = false := by
  have h1 : l.isEmpty = false := by simpa using hl
  have h2 : ¬ ([] : Text) = l := fun h => hl h.symm
  simp [Version.lt, Version.make, hl, h1, h2]

/-- `==` and `!=` are complementary, and `==` holds exactly for versions equal in all observable components. -/
theorem version_eq_ne (a b : Version) : a.ne b = !a.eq b ∧
    (a.eq b = true ↔ a.major = b.major ∧ a.minor = b.minor ∧ a.bugfix = b.bugfix ∧ a.label = b.label ∧ a.metadata = b.metadata) := by
  constructor
  · simp only [Version.ne, Version.eq, Bool.not_and, bne]
  · simp only [Version.eq, Bool.and_eq_true, beq_iff_eq, and_assoc]

/-- Trichotomy for versions with comparable labels. -/
theorem version_lt_total_partial (a b : Version) (hl : LabelsComparable a b) :
    a.lt b = true ∨ a.eq b = true ∨ b.lt a = true := by
  rw [lt_iff, lt_iff]
  simp only [Version.eq, Bool.and_eq_true, beq_iff_eq]
  by_cases h1 : a.major = b.major
  · by_cases h2 : a.minor = b.minor
    · by_cases h3 : a.bugfix = b.bugfix
      · by_cases h4 : a.label = b.label
        · by_cases h5 : a.metadata < b.metadata
          · left; exact .inr ⟨h1, .inr ⟨h2, .inr ⟨h3, .inr ⟨h4, h5⟩⟩⟩⟩
          · by_cases h6 : b.metadata < a.metadata
            · right; right; exact .inr ⟨h1.symm, .inr ⟨h2.symm, .inr ⟨h3.symm, .inr ⟨h4.symm, h6⟩⟩⟩⟩
            · right; left
              refine ⟨⟨⟨⟨h1, h2⟩, h3⟩, h4⟩, ?_⟩
              exact List.le_antisymm h6 h5
        · by_cases h5 : a.label = []
          · right; right
            exact .inr ⟨h1.symm, .inr ⟨h2.symm, .inr ⟨h3.symm, .inl ⟨fun h => h4 h.symm, fun h => h4 (h5.trans h.symm)⟩⟩⟩⟩
          · left
            exact .inr ⟨h1, .inr ⟨h2, .inr ⟨h3, .inl ⟨h4, h5⟩⟩⟩⟩
      · by_cases h : a.bugfix < b.bugfix
        · left; exact .inr ⟨h1, .inr ⟨h2, .inl h⟩⟩
        · right; right; exact .inr ⟨h1.symm, .inr ⟨h2.symm, .inl (by omega)⟩⟩
    · by_cases h : a.minor < b.minor
      · left; exact .inr ⟨h1, .inl h⟩
      · right; right; exact .inr ⟨h1.symm, .inl (by omega)⟩
  · by_cases h : a.major < b.major
    · left; exact .inl h
    · right; right; exact .inl (by omega)

/-! ## C55 -/

/-- The next bugfix version exists below the maximum, is a release of the same minor line, is greater, and no release with a greater bugfix number in the
same minor line is before it. -/
theorem nextBugfix_least (v : Version) (h : v.InRange) (hm : v.bugfix < 2 ^ 31 - 1) :
    ∃ n, v.nextBugfix = some n ∧ v.lt n = true ∧
      (n.major = v.major ∧ n.minor = v.minor ∧ v.bugfix < n.bugfix ∧ n.label = [] ∧ n.metadata = []) ∧
      ∀ b : Int, v.bugfix < b → (Version.make v.major v.minor b [] []).lt n = false := by
  have : inInt32 (v.bugfix + 1) := by unfold Version.InRange inInt32 at *; omega
  refine ⟨_, by simp only [Version.nextBugfix, inc32, if_pos this, Option.map_some]; rfl, ?_, ?_, ?_⟩
  · rw [lt_iff]; simp only [Version.make]; exact .inr ⟨trivial, .inr ⟨trivial, .inl (by omega)⟩⟩
  · simp only [Version.make]; exact ⟨trivial, trivial, by omega, trivial, trivial⟩
  · intro b hb
    rw [← Bool.not_eq_true, version_lt_lexicographic]; omega

/-- The next minor version exists below the maximum, is a release of the same major line, is greater, and no release with a greater minor number (and
non-negative numbers) in the same major line is before it. -/
theorem nextMinor_least (v : Version) (h : v.InRange) (hm : v.minor < 2 ^ 31 - 1) :
    ∃ n, v.nextMinor = some n ∧ v.lt n = true ∧
      (n.major = v.major ∧ v.minor < n.minor ∧ 0 ≤ n.bugfix ∧ n.label = [] ∧ n.metadata = []) ∧
      ∀ m b : Int, v.minor < m → 0 ≤ b → (Version.make v.major m b [] []).lt n = false := by
  have : inInt32 (v.minor + 1) := by unfold Version.InRange inInt32 at *; omega
  refine ⟨_, by simp only [Version.nextMinor, inc32, if_pos this, Option.map_some]; rfl, ?_, ?_, ?_⟩
  · rw [lt_iff]; simp only [Version.make]; exact .inr ⟨trivial, .inl (by omega)⟩
  · simp only [Version.make]; exact ⟨trivial, by omega, by omega, trivial, trivial⟩
  · intro m b hm hb
    rw [← Bool.not_eq_true, version_lt_lexicographic]; omega

/-- The next major version exists below the maximum, is a release, is greater, and no release with a greater major number (and
non-negative numbers) is before it. -/
theorem nextMajor_least (v : Version) (h : v.InRange) (hm : v.major < 2 ^ 31 - 1) :
    ∃ n, v.nextMajor = some n ∧ v.lt n = true ∧
      (v.major < n.major ∧ 0 ≤ n.minor ∧ 0 ≤ n.bugfix ∧ n.label = [] ∧ n.metadata = []) ∧
      ∀ M m b : Int, v.major < M → 0 ≤ m → 0 ≤ b → (Version.make M m b [] []).lt n = false := by
  have : inInt32 (v.major + 1) := by unfold Version.InRange inInt32 at *; omega
  refine ⟨_, by simp only [Version.nextMajor, inc32, if_pos this, Option.map_some]; rfl, ?_, ?_, ?_⟩
  · rw [lt_iff]; simp only [Version.make]; exact .inl (by omega)
  · simp only [Version.make]; exact ⟨by omega, by omega, by omega, trivial, trivial⟩
  · intro M m b hM hm hb
    rw [← Bool.not_eq_true, version_lt_lexicographic]; omega

example : (Version.make 1 2 3 "rc".toList []).nextMinor = some (.make 1 3 0 [] []) := by decide

end Verif.SemVer
