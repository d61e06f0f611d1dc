import Verif.Str.Ext
import Verif.Str.Tools

/-!
# `System.String` and its iterators (`Projects/Library/System/String.os`, `StringIterator.os`,
`CharacterIterator.os`)

The classes are written in the language itself; the native functions they use are those of
`Verif/Str/Ext.lean`.  An exception of a native function and an exception thrown by the
class both are the outcome `exception`.  Sums and differences of `int` are exact: the
theorems speak of texts shorter than 2^31, so none of them overflows.
-/

namespace Verif.Text

open Verif.Str

/-- Go on with the value of an outcome. -/
def thenDo {α β : Type} (r : Ext α) (k : α → Ext β) : Ext β :=
  match r with
  | .ok a => k a
  | .exception => .exception

/-- `strlen` (`Extensions/LIBC/cstring/strlen.h:38-50`): the size as an `int`. -/
def strlen (s : Text) : Int := toInt32 s.length

/-- The members of a `String` (`Library/System/String.os:440-441`). -/
structure StringObj where
  size : Int
  value : Text
  deriving DecidableEq, Repr

/-- `String.Constructor( string )` (`String.os:14-17`). -/
def newString (value : Text) : StringObj := { size := strlen value, value := value }

/-- `String.CharAt` (`String.os:75-81`), also `operator[]( int )` (425-427). -/
def charAt (o : StringObj) (index : Int) : Ext Text :=
  if index < 0 ∨ index ≥ o.size then .exception
  else extSubstr o.value index (some 1)

/-- `String.Contains` (`String.os:86-88`). -/
def contains (o : StringObj) (value : Text) : Ext Bool :=
  thenDo (extStrfind o.value value 0) fun i => .ok (decide (i ≥ 0))

/-- `String.EndsWith` (`String.os:93-95`). -/
def endsWith (o : StringObj) (str : Text) : Ext Bool :=
  thenDo (extSubstr o.value (strlen o.value - strlen str) none) fun r => .ok (decide (str = r))

/-- `String.IndexOf` (`String.os:107-109`). -/
def indexOf (o : StringObj) (str : Text) (startpos : Int := 0) : Ext Int := extStrfind o.value str startpos

/-- The loop of `String.LastIndexOf` (`String.os:118-120`); `none`: the rounds do not
suffice. -/
def lastIndexLoop : Nat → StringObj → Text → Int → Option (Ext Int)
  | 0, _, _, _ => none
  | fuel + 1, o, str, index => match indexOf o str (index + 1) with
    | .exception => some .exception
    | .ok index2 => if index2 ≠ -1 then lastIndexLoop fuel o str index2 else some (.ok index)

/-- `String.LastIndexOf` (`String.os:114-123`). -/
def lastIndexOf (fuel : Nat) (o : StringObj) (str : Text) : Option (Ext Int) := lastIndexLoop fuel o str (-1)

/-- `String.Length` (`String.os:128-130`). -/
def length (o : StringObj) : Int := o.size

/-- `String.StartsWith` (`String.os:193-195`). -/
def startsWith (o : StringObj) (str : Text) : Ext Bool :=
  thenDo (extSubstr o.value 0 (some (strlen str))) fun r => .ok (decide (str = r))

/-- `String.SubString( int )` (`String.os:200-202`). -/
def subString (o : StringObj) (start : Int) : Ext Text := extSubstr o.value start none

/-- `String.SubString( int, int )` (`String.os:207-209`). -/
def subStringLen (o : StringObj) (start len : Int) : Ext Text := extSubstr o.value start (some len)

/-- `operator[]( int, int )` (`String.os:432-438`). -/
def between (o : StringObj) (first last : Int) : Ext Text :=
  if o.size ≥ first ∧ o.size ≤ last - first then extSubstr o.value first (some (last - first))
  else .ok []

/-- `String.Replace` (`String.os:135-149`). -/
def replace (o : StringObj) (oldStr newStr : Text) : Ext Bool × StringObj :=
  match extStrfind o.value oldStr 0 with
  | .exception => (.exception, o)
  | .ok position =>
    if position ≥ 0 then
      match extSubstr o.value 0 (some position), extSubstr o.value (position + strlen oldStr) none with
      | .ok a, .ok b => (.ok true, newString (a ++ newStr ++ b))
      | _, _ => (.exception, o)
    else (.ok false, o)

/-- The loop of `String.ReplaceAll` (`String.os:157-159`); `none`: the rounds do not
suffice. -/
def replaceAllLoop : Nat → StringObj → Text → Text → Bool → Option (Ext Bool × StringObj)
  | 0, _, _, _, _ => none
  | fuel + 1, o, oldStr, newStr, hasFound => match replace o oldStr newStr with
    | (.exception, o') => some (.exception, o')
    | (.ok true, o') => replaceAllLoop fuel o' oldStr newStr true
    | (.ok false, o') => some (.ok hasFound, o')

/-- `String.ReplaceAll` (`String.os:154-162`). -/
def replaceAll (fuel : Nat) (o : StringObj) (oldStr newStr : Text) : Option (Ext Bool × StringObj) :=
  replaceAllLoop fuel o oldStr newStr false

/-- `String.RemoveCharAt` (`String.os:167-174`). -/
def removeCharAt (o : StringObj) (index : Int) : Ext Unit × StringObj :=
  if index < 0 ∨ index ≥ o.size then (.exception, o)
  else
    let o1 := { o with size := o.size - 1 }
    match extSubstr o.value 0 (some index), extSubstr o.value (index + 1) none with
    | .ok a, .ok b => (.ok (), { o1 with value := a ++ b })
    | _, _ => (.exception, o1)

/-- `strltrim` and `strrtrim` (`Extensions/System/Strings/StrLTrim.h:40-52`,
`StrRTrim.h:40-52`) remove blanks. -/
def blank : List Char := [' ']

/-- `String.TrimLeft()` (`String.os:242-247`). -/
def trimLeft (o : StringObj) : StringObj := newString (Str.trimLeft o.value blank)

/-- `String.TrimLeft( int )` (`String.os:252-261`). -/
def trimLeftBy (o : StringObj) (index : Int) : Ext Text × StringObj :=
  if index < 0 ∨ index ≥ o.size then (.exception, o)
  else match extSubstr o.value index none with
    | .ok r => (.ok r, newString r)
    | .exception => (.exception, o)

/-- `String.TrimRight()` (`String.os:266-271`). -/
def trimRight (o : StringObj) : StringObj := newString (Str.trimRight o.value blank)

/-- `String.TrimRight( int )` (`String.os:276-281`). -/
def trimRightBy (o : StringObj) (index : Int) : Ext Text × StringObj :=
  match extSubstr o.value 0 (some (strlen o.value - index)) with
  | .ok r => (.ok r, newString r)
  | .exception => (.exception, o)

/-- `String.Trim` (`String.os:286-292`). -/
def trim (o : StringObj) : StringObj := newString (Str.trimRight (Str.trimLeft o.value blank) blank)

/-- `operator=` (`String.os:325-338`). -/
def assign (_ : StringObj) (other : Text) : StringObj := { size := strlen other, value := other }

/-- `operator<<` (`String.os:371-375`, the others likewise): the size is not updated. -/
def append (o : StringObj) (other : Text) : StringObj := { o with value := o.value ++ other }

/-- A call of one of the methods that modify the object. -/
inductive Op where
  | replace (oldStr newStr : Text)
  | removeCharAt (index : Int)
  | trimLeft
  | trimLeftBy (index : Int)
  | trimRight
  | trimRightBy (index : Int)
  | trim
  | assign (other : Text)
  | append (other : Text)
  deriving Repr

/-- The object after a call, whether or not an exception was thrown. -/
def call (o : StringObj) : Op → StringObj
  | .replace a b => (replace o a b).2
  | .removeCharAt i => (removeCharAt o i).2
  | .trimLeft => trimLeft o
  | .trimLeftBy i => (trimLeftBy o i).2
  | .trimRight => trimRight o
  | .trimRightBy i => (trimRightBy o i).2
  | .trim => trim o
  | .assign v => assign o v
  | .append v => append o v

/-! ## `CharacterIterator` -/

/-- The members (`CharacterIterator.os:113-115`). -/
structure CharIter where
  currentIndex : Int
  length : Int
  value : Text
  deriving DecidableEq, Repr

/-- The constructors and `reset` (`CharacterIterator.os:12-21, 82-86`). -/
def CharIter.new (value : Text) : CharIter := { currentIndex := -1, length := strlen value, value := value }

/-- `hasNext` (`CharacterIterator.os:49-51`). -/
def CharIter.hasNext (it : CharIter) : Bool := decide (it.currentIndex < it.length)

/-- `next` (`CharacterIterator.os:57-65`). -/
def CharIter.next (it : CharIter) : Ext Text × CharIter :=
  if it.currentIndex + 1 > it.length then (.exception, it)
  else
    let it' := { it with currentIndex := it.currentIndex + 1 }
    (extSubstr it'.value it'.currentIndex (some 1), it')

/-- `current` (`CharacterIterator.os:35-44`). -/
def CharIter.current (it : CharIter) : Ext Text :=
  if it.currentIndex < 0 then .exception
  else if it.currentIndex > it.length then .exception
  else extSubstr it.value it.currentIndex (some 1)

/-- `peek` (`CharacterIterator.os:71-77`). -/
def CharIter.peek (it : CharIter) (offset : Int := 1) : Ext Text :=
  if it.currentIndex + offset < 0 ∨ it.currentIndex + offset > it.length then .exception
  else extSubstr it.value (it.currentIndex + offset) (some 1)

/-- `foreach`: `next` as long as `hasNext`; `none`: the rounds do not suffice. -/
def CharIter.collect : Nat → CharIter → Option (Ext (List Text))
  | 0, _ => none
  | fuel + 1, it =>
    if it.hasNext then
      match it.next with
      | (.exception, _) => some .exception
      | (.ok c, it') => match CharIter.collect fuel it' with
        | some (.ok cs) => some (.ok (c :: cs))
        | r => r
    else some (.ok [])

/-! ## `StringIterator` -/

/-- The members (`StringIterator.os:142-145`).  The iterator keeps a reference to the
`String`; it is assumed that the `String` is not modified while the iterator is used. -/
structure StrIter where
  currentPosition : Int
  nextPosition : Int
  separator : Text
  value : StringObj
  deriving DecidableEq, Repr

/-- `reset` (`StringIterator.os:94-97`). -/
def StrIter.reset (it : StrIter) : StrIter :=
  { it with
    currentPosition := -1
    nextPosition := strlen it.separator * (-1) }

/-- The constructors (`StringIterator.os:13-26`). -/
def StrIter.new (value : StringObj) (separator : Text) : StrIter :=
  StrIter.reset { currentPosition := 0, nextPosition := 0, separator := separator, value := value }

/-- `hasNext` (`StringIterator.os:54-56`). -/
def StrIter.hasNext (it : StrIter) : Bool := decide (it.nextPosition < length it.value)

/-- `next` (`StringIterator.os:62-77`). -/
def StrIter.next (it : StrIter) : Ext Text × StrIter :=
  if it.nextPosition ≥ length it.value then (.exception, it)
  else
    let cur := it.nextPosition + strlen it.separator
    match indexOf it.value it.separator cur with
    | .exception => (.exception, { it with currentPosition := cur })
    | .ok nxt =>
      if nxt ≥ 0 then
        (subStringLen it.value cur (nxt - cur), { it with currentPosition := cur, nextPosition := nxt })
      else
        (subString it.value cur, { it with currentPosition := cur, nextPosition := length it.value })

/-- `setSeparator( separator, false )` (`StringIterator.os:102-115`). -/
def StrIter.setSeparator (it : StrIter) (separator : Text) : StrIter :=
  match indexOf it.value separator it.currentPosition with
  | .exception => { it with separator := separator }
  | .ok nxt => { it with separator := separator, nextPosition := if nxt ≤ 0 then length it.value else nxt }

/-- `next( separator )` (`StringIterator.os:83-89`). -/
def StrIter.nextWith (it : StrIter) (separator : Text) : Ext Text × StrIter :=
  (StrIter.setSeparator { it with currentPosition := it.nextPosition + strlen it.separator } separator).next

/-- `current` (`StringIterator.os:40-49`). -/
def StrIter.current (it : StrIter) : Ext Text :=
  if it.currentPosition < 0 then .exception
  else if it.nextPosition > length it.value then .exception
  else subStringLen it.value it.currentPosition (it.nextPosition - it.currentPosition)

/-- `foreach`: `next` as long as `hasNext`; `none`: the rounds do not suffice. -/
def StrIter.collect : Nat → StrIter → Option (Ext (List Text))
  | 0, _ => none
  | fuel + 1, it =>
    if it.hasNext then
      match it.next with
      | (.exception, _) => some .exception
      | (.ok c, it') => match StrIter.collect fuel it' with
        | some (.ok cs) => some (.ok (c :: cs))
        | r => r
    else some (.ok [])

/-- `String.SplitBy` (`String.os:186-188`), all pieces. -/
def splitBy (fuel : Nat) (value separator : Text) : Option (Ext (List Text)) :=
  (StrIter.new (newString value) separator).collect fuel

end Verif.Text
