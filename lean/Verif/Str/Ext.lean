import Verif.Str.Lemmas

/-!
# String extension functions (`Projects/Extensions/System/Strings/*.h`) and file names
(`Projects/Utils/Tools/Files.cpp`)

The functions are called by the interpreter, which turns every `std::exception` into a catchable
exception of the program (TreeInterpreter.cpp:304-318): outcome `exception`.
-/

namespace Verif.Str

/-- Result of a native function. -/
inductive Ext (α : Type) where
  | ok (a : α)
  | exception
deriving Repr, DecidableEq

/-- `static_cast<size_t>(int64_t)` / `unsigned long x = int64_t`: reduction modulo 2^64. -/
def toSize (i : Int) : Nat := (i % 18446744073709551616).toNat

/-- `static_cast<int32_t>(size_t)`: reduction modulo 2^32 into the signed range. -/
def toInt32 (n : Nat) : Int :=
  let r := n % 4294967296
  if r < 2147483648 then (r : Int) else (r : Int) - 4294967296

/-- `std::string::npos`. -/
def npos : Nat := 18446744073709551615

/-- `std::string::max_size()` of libstdc++ on a 64-bit platform. -/
def maxSize : Nat := 9223372036854775807

/-- `substr` (SubStr.h:40-59): `length = none` when the argument is omitted. -/
def extSubstr (value : Text) (start : Int) (length : Option Int) : Ext Text :=
  let s := toSize start
  let e := match length with
    | none => npos
    | some l => toSize l
  match substr value s (some e) with
  | none => .exception
  | some r => .ok r

/-- `strpos` (StrPos.h:40-58). -/
def extStrpos (value : Text) (index : Int) : Ext Text :=
  let i := toSize index
  if i > value.length then .exception
  else match substr value i (some 1) with
    | none => .exception
    | some r => .ok r

/-- `std::string::find(target, pos)`. -/
def stdFind (source target : Text) (pos : Nat) : Nat :=
  match (List.range (source.length + 1)).find? fun i => decide (pos ≤ i) && target.isPrefixOf (source.drop i) with
  | none => npos
  | some i => i

/-- `strfind` (StrFind.h:41-54). -/
def extStrfind (source target : Text) (position : Int) : Ext Int :=
  .ok (toInt32 (stdFind source target (toSize position)))

/-- `strlpad` (StrLPad.h:41-65).  The test `param_length < 0` is on an unsigned variable and never holds;
`insert` of more than `max_size()` characters throws `std::length_error`. -/
def extStrlpad (value : Text) (length : Int) (pattern : Text) : Ext Text :=
  let n := toSize length
  match pattern with
  | [c] =>
    if n > value.length then
      if n > maxSize then .exception else .ok (List.replicate (n - value.length) c ++ value)
    else .ok value
  | _ => .exception

/-- `strrpad` (StrRPad.h:41-65). -/
def extStrrpad (value : Text) (length : Int) (pattern : Text) : Ext Text :=
  let n := toSize length
  match pattern with
  | [c] =>
    if n > value.length then
      if n > maxSize then .exception else .ok (value ++ List.replicate (n - value.length) c)
    else .ok value
  | _ => .exception

/-! ## File names -/

/-- `ExtractFileExt` (Files.cpp:51-63). -/
def extractFileExt (f : Text) : Text :=
  if f.isEmpty then []
  else match findLastOf ['.'] f with
    | none => []
    | some i => f.drop (i + 1)

/-- `ExtractFilename` (Files.cpp:65-77). -/
def extractFilename (f : Text) : Text :=
  if f.isEmpty then f
  else match findLastOf ['\\', '/'] f with
    | none => f
    | some i => f.drop (i + 1)

/-- `ExtractPathname` (Files.cpp:79-91). -/
def extractPathname (f : Text) : Text :=
  if f.isEmpty then f
  else match findLastOf ['\\', '/'] f with
    | none => f
    | some i => f.take (i + 1)

/-- `RemoveFileExt` (Files.cpp:114-126). -/
def removeFileExt (f : Text) : Text :=
  if f.isEmpty then []
  else if (extractFileExt f).isEmpty then f
  else f.take (f.length - (extractFileExt f).length - 1)

/-! ## Lemmas -/

theorem findLastOf_some {set : List Char} {s : Text} {i : Nat} (h : findLastOf set s = some i) :
    ∃ c, s = s.take i ++ c :: s.drop (i + 1) ∧ c ∈ set ∧ (∀ d ∈ s.drop (i + 1), d ∉ set) ∧ i < s.length := by
  unfold findLastOf at h
  cases hf : s.reverse.findIdx? (fun c => decide (c ∈ set)) with
  | none => rw [hf] at h; simp at h
  | some j =>
    rw [hf] at h
    simp only [Option.map_some, Option.some.injEq] at h
    obtain ⟨d, h1, h2, h3, h4⟩ := findIdx?_split hf
    rw [List.length_reverse] at h4
    have hs : s = (s.reverse.drop (j + 1)).reverse ++ d :: (s.reverse.take j).reverse := by
      have := congrArg List.reverse h1
      simpa using this
    have hlen : (s.reverse.drop (j + 1)).reverse.length = i := by simp; omega
    have ht : s.take i = (s.reverse.drop (j + 1)).reverse := by
      conv => lhs; arg 2; rw [hs]
      exact List.take_left' hlen
    have hd : s.drop (i + 1) = (s.reverse.take j).reverse := by
      conv => lhs; arg 2; rw [hs]
      rw [show (s.reverse.drop (j + 1)).reverse ++ d :: (s.reverse.take j).reverse
        = ((s.reverse.drop (j + 1)).reverse ++ [d]) ++ (s.reverse.take j).reverse by simp]
      exact List.drop_left' (by rw [List.length_append, hlen]; rfl)
    refine ⟨d, ?_, by simpa using h2, ?_, by omega⟩
    · rw [ht, hd]; exact hs
    · intro c hc
      rw [hd] at hc
      have := h3 c (by simpa using hc)
      simpa using this

theorem findLastOf_none {set : List Char} {s : Text} : findLastOf set s = none ↔ ∀ d ∈ s, d ∉ set := by
  unfold findLastOf
  rw [Option.map_eq_none_iff, findIdx?_none]; simp

theorem toSize_of_nonneg {i : Int} (h : 0 ≤ i ∧ i ≤ 9223372036854775807) : toSize i = i.toNat := by
  unfold toSize; rw [Int.emod_eq_of_lt h.1 (by omega)]

theorem toSize_of_neg {i : Int} (h : i < 0 ∧ -9223372036854775808 ≤ i) : 9223372036854775808 ≤ toSize i := by
  unfold toSize; omega

/-- `find` returns the first occurrence at or after the position. -/
theorem stdFind_spec (s t : Text) (pos : Nat) (hs : s.length < npos) :
    (stdFind s t pos = npos ∧ ¬ ∃ a b, s = a ++ t ++ b ∧ pos ≤ a.length) ∨
    (∃ a b, s = a ++ t ++ b ∧ pos ≤ a.length ∧ stdFind s t pos = a.length ∧
      ∀ a' b', s = a' ++ t ++ b' → pos ≤ a'.length → a.length ≤ a'.length) := by
  have occ : ∀ a b, s = a ++ t ++ b → a.length < s.length + 1 ∧ t.isPrefixOf (s.drop a.length) = true := by
    intro a b e
    refine ⟨by rw [e]; simp; omega, ?_⟩
    rw [List.isPrefixOf_iff_prefix, e, List.append_assoc, List.drop_left' rfl]
    exact List.prefix_append t b
  unfold stdFind
  cases hf : (List.range (s.length + 1)).find? (fun i => decide (pos ≤ i) && t.isPrefixOf (s.drop i)) with
  | none =>
    left
    refine ⟨rfl, ?_⟩
    rintro ⟨a, b, e, hp⟩
    rw [List.find?_eq_none] at hf
    obtain ⟨h1, h2⟩ := occ a b e
    have := hf a.length (List.mem_range.2 h1)
    simp [hp, h2] at this
  | some i =>
    right
    have hlt : i < s.length + 1 := List.mem_range.1 (List.mem_of_find?_eq_some hf)
    have hp := List.find?_some hf
    simp only [Bool.and_eq_true, decide_eq_true_eq] at hp
    obtain ⟨hp1, hp2⟩ := hp
    rw [List.isPrefixOf_iff_prefix] at hp2
    obtain ⟨b, hb⟩ := hp2
    have hlen : (s.take i).length = i := by rw [List.length_take]; omega
    refine ⟨s.take i, b, ?_, by omega, hlen.symm, ?_⟩
    · rw [List.append_assoc, hb, List.take_append_drop]
    · intro a' b' e' hp'
      rw [hlen]
      obtain ⟨h1, h2⟩ := occ a' b' e'
      rw [List.find?_range_eq_some] at hf
      obtain ⟨-, -, hmin⟩ := hf
      refine Nat.le_of_not_lt fun hlt' => ?_
      have := hmin a'.length hlt'
      simp [hp', h2] at this

end Verif.Str
