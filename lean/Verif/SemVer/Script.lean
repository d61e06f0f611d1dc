import Verif.SemVer.Props
import Verif.Str.Props

/-!
# The class `SemVer` of libSemVer (`Projects/Library/libSemVer/SemVer.os`)

The class is written in the language itself.  A text used as a condition counts as false if it is empty, a line end or the word "false"
between blanks (`AtomicValue::toBool`, AtomicValue.cpp:206, `StringType::operator_bool`, StringType.cpp:94-97): `Str.stringToBool`.
-/

namespace Verif.SemVer.Script

open Verif.Str

/-- The members (SemVer.os:43-47).  The `int` members are integers; the theorems speak of numbers in the range of the type. -/
structure SemVer where
  major : Int
  minor : Int
  bugfix : Int
  label : Text := []
  build : Text := []
deriving Repr, DecidableEq

/-- `strfind`, which throws nothing (StrFind.h:41-54). -/
def find (s t : Text) (p : Int) : Int :=
  match extStrfind s t p with
  | .ok i => i
  | .exception => -1

/-- `FromString` (SemVer.os:13-37).  `none` is the exception.  `cast<int>` of a text is `stringToInt` (TypeCast.cpp:27, AtomicValue::toInt);
simplification: no overflow of `dot1 + 1`, as texts are shorter than 2^31 in the theorems. -/
def fromString (version : Text) : Option SemVer :=
  let dot1 := find version ['.'] 0
  if dot1 = 0 then none
  else
    let dot2 := find version ['.'] (dot1 + 1)
    if dot2 = 0 then none
    else if dot1 = -1 ∨ dot2 = -1 ∨ version.length < 5 then none
    else
      let dash := find version ['-'] (dot2 + 1)
      let label := if dash ≠ -1 then extSubstr version (dash + 1) none else .ok []
      match label, extSubstr version 0 (some dot1), extSubstr version (dot1 + 1) (some dot2), extSubstr version (dot2 + 1) none with
      | .ok label, .ok a, .ok b, .ok c => some { major := stringToInt a, minor := stringToInt b, bugfix := stringToInt c, label := label }
      | _, _, _, _ => none

/-- `nextBugfix` (SemVer.os:63-65).  The sum is exact for numbers below the greatest one. -/
def SemVer.nextBugfix (v : SemVer) : SemVer := { major := v.major, minor := v.minor, bugfix := v.bugfix + 1 }

/-- `nextMajor` (SemVer.os:70-72). -/
def SemVer.nextMajor (v : SemVer) : SemVer := { major := v.major + 1, minor := 0, bugfix := 0 }

/-- `nextMinor` (SemVer.os:77-79). -/
def SemVer.nextMinor (v : SemVer) : SemVer := { major := v.major, minor := v.minor + 1, bugfix := 0 }

/-- `operator<` (SemVer.os:84-105). -/
def SemVer.lt (a b : SemVer) : Bool :=
  if a.major = b.major then
    if a.minor = b.minor then
      if a.bugfix = b.bugfix then
        if a.label = b.label then decide (a.build < b.build)
        else if stringToBool a.label && stringToBool b.label then decide (a.label < b.label)
        else stringToBool a.label && !stringToBool b.label
      else decide (a.bugfix < b.bugfix)
    else decide (a.minor < b.minor)
  else decide (a.major < b.major)

/-- `operator>` (SemVer.os:110-131). -/
def SemVer.gt (a b : SemVer) : Bool :=
  if a.major = b.major then
    if a.minor = b.minor then
      if a.bugfix = b.bugfix then
        if a.label = b.label then decide (a.build > b.build)
        else if stringToBool a.label && stringToBool b.label then decide (a.label > b.label)
        else !stringToBool a.label && stringToBool b.label
      else decide (a.bugfix > b.bugfix)
    else decide (a.minor > b.minor)
  else decide (a.major > b.major)

/-- `operator==` (SemVer.os:136-142). -/
def SemVer.eq (a b : SemVer) : Bool :=
  a.major == b.major && a.minor == b.minor && a.bugfix == b.bugfix && a.label == b.label && a.build == b.build

/-- `=operator(string)` (SemVer.os:147-153). -/
def SemVer.toText (v : SemVer) : Text :=
  intToString v.major ++ ".".toList ++ intToString v.minor ++ ".".toList ++ intToString v.bugfix ++
    (if stringToBool v.label then '-' :: v.label else []) ++ (if stringToBool v.build then '+' :: v.build else [])

end Verif.SemVer.Script
