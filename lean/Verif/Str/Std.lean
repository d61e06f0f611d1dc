/-!
# `std::string`

A `std::string` is a list of characters.  `npos` is `none`.
The functions below follow the documented contract of the C++ standard library.
-/

namespace Verif.Str

/-- A C++ `std::string`. -/
abbrev Text := List Char

/-- `find_first_of(set)`: index of the first character in the set. -/
def findFirstOf (set : List Char) (s : Text) : Option Nat := s.findIdx? fun c => decide (c ∈ set)

/-- `find_first_not_of(set)`: index of the first character not in the set. -/
def findFirstNotOf (set : List Char) (s : Text) : Option Nat := s.findIdx? fun c => decide (c ∉ set)

/-- `find_last_not_of(set)`: index of the last character not in the set. -/
def findLastNotOf (set : List Char) (s : Text) : Option Nat :=
  (s.reverse.findIdx? fun c => decide (c ∉ set)).map fun i => s.length - 1 - i

/-- `find_last_of(set)`. -/
def findLastOf (set : List Char) (s : Text) : Option Nat :=
  (s.reverse.findIdx? fun c => decide (c ∈ set)).map fun i => s.length - 1 - i

/-- `substr(pos, n)`; `n = none` is `npos`.  Only used where `pos` is at most the size (otherwise
`std::out_of_range` is thrown: result `none`). -/
def substr (s : Text) (pos : Nat) (n : Option Nat) : Option Text :=
  if pos > s.length then none
  else some (match n with
    | none => s.drop pos
    | some n => (s.drop pos).take n)

/-! ## Lemmas -/

theorem findIdx?_split {p : Char → Bool} {s : Text} {i : Nat} (h : s.findIdx? p = some i) :
    ∃ c, s = s.take i ++ c :: s.drop (i + 1) ∧ p c = true ∧ (∀ d ∈ s.take i, p d = false) ∧ i < s.length := by
  rw [List.findIdx?_eq_some_iff_getElem] at h
  obtain ⟨hi, hp, hlt⟩ := h
  refine ⟨s[i], ?_, hp, ?_, hi⟩
  · rw [List.getElem_cons_drop, List.take_append_drop]
  · intro d hd
    obtain ⟨j, hj, rfl⟩ := List.mem_iff_getElem.1 hd
    rw [List.length_take] at hj
    have := hlt j (by omega)
    rw [List.getElem_take]
    simpa using this

theorem findIdx?_none {p : Char → Bool} {s : Text} : s.findIdx? p = none ↔ ∀ d ∈ s, p d = false := by
  rw [List.findIdx?_eq_none_iff]

end Verif.Str
