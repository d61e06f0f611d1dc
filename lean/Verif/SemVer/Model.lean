import Verif.Str.Lemmas

/-!
# Semantic version numbers (`Projects/Utils/SemVer/Version.cpp`, `Version.h`)
-/

namespace Verif.SemVer

open Verif.Str

/-- `SemanticVersionNumber` (Version.h:66-72).  The numbers are `int32_t`, see `Version.InRange`. -/
structure Version where
  major : Int
  minor : Int
  bugfix : Int
  label : Text
  metadata : Text
  valid : Bool
deriving Repr, DecidableEq

/-- Range of `int32_t`. -/
def inInt32 (i : Int) : Prop := -2147483648 ≤ i ∧ i ≤ 2147483647

instance (i : Int) : Decidable (inInt32 i) := by unfold inInt32; infer_instance

/-- The numbers of an object of the class are in the range of their C++ type. -/
def Version.InRange (v : Version) : Prop := inInt32 v.major ∧ inInt32 v.minor ∧ inInt32 v.bugfix

/-- `static_cast<int32_t>( int64_t )`: modulo 2^32 into the signed range. -/
def cast32 (i : Int) : Int :=
  let r := i % 4294967296
  if r < 2147483648 then r else r - 4294967296

/-- The default constructed version (Version.h:18, 66-72). -/
def Version.default : Version := ⟨0, 0, 0, [], [], false⟩

/-- The five-argument constructor (Version.cpp:18-25); `mIsValid` keeps its default `false`. -/
def Version.make (major minor bugfix : Int) (label metadata : Text) : Version :=
  ⟨major, minor, bugfix, label, metadata, false⟩

/-- `SemanticVersionNumber::parse` (Version.cpp:94-126) on an existing object. -/
def Version.parse (old : Version) (version : Text) : Version :=
  if version.isEmpty then { old with valid := false }
  else
    let (major, version) := splitBy version '.'
    let (minor, version) := splitBy version '.'
    let (label, metadata) := splitBy version '+'
    let (bugfix, label) := splitBy label '-'
    let b := cast32 (stringToInt bugfix)
    let M := cast32 (stringToInt major)
    let m := cast32 (stringToInt minor)
    ⟨M, m, b, label, metadata, M != 0 || m != 0 || b != 0 || !label.isEmpty || !metadata.isEmpty⟩

/-- The constructor from text (Version.cpp:13-16). -/
def Version.ofText (s : Text) : Version := Version.default.parse s

/-- `toString` (Version.cpp:128-135). -/
def Version.toText (v : Version) : Text :=
  intToString v.major ++ ['.'] ++ intToString v.minor ++ ['.'] ++ intToString v.bugfix ++
    (if !v.label.isEmpty then '-' :: v.label else []) ++ (if !v.metadata.isEmpty then '+' :: v.metadata else [])

/-- `operator==` (Version.cpp:34-41): the flag is not compared. -/
def Version.eq (a b : Version) : Bool :=
  a.major == b.major && a.minor == b.minor && a.bugfix == b.bugfix && a.label == b.label && a.metadata == b.metadata

/-- `operator!=` (Version.cpp:48-55). -/
def Version.ne (a b : Version) : Bool :=
  a.major != b.major || a.minor != b.minor || a.bugfix != b.bugfix || a.label != b.label || a.metadata != b.metadata

/-- `operator<` (Version.cpp:62-82).  Texts are compared lexicographically by character. -/
def Version.lt (a b : Version) : Bool :=
  if a.major = b.major then
    if a.minor = b.minor then
      if a.bugfix = b.bugfix then
        if a.label = b.label then decide (a.metadata < b.metadata)
        else !a.label.isEmpty
      else decide (a.bugfix < b.bugfix)
    else decide (a.minor < b.minor)
  else decide (a.major < b.major)

/-- Signed increment: `none` is the undefined overflow. -/
def inc32 (i : Int) : Option Int := if inInt32 (i + 1) then some (i + 1) else none

/-- `nextBugfix` (Version.h:44-46). -/
def Version.nextBugfix (v : Version) : Option Version := (inc32 v.bugfix).map fun b => .make v.major v.minor b [] []

/-- `nextMajor` (Version.h:51-53). -/
def Version.nextMajor (v : Version) : Option Version := (inc32 v.major).map fun M => .make M 0 0 [] []

/-- `nextMinor` (Version.h:58-60). -/
def Version.nextMinor (v : Version) : Option Version := (inc32 v.minor).map fun m => .make v.major m 0 [] []

end Verif.SemVer
