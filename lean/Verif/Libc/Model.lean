/-!
# The C string functions, changing case, and the environment

A text is a list of bytes (numbers below 256).  The functions of the C library follow the C standard.
-/

namespace Verif.Libc

/-- A text as bytes. -/
abbrev Bytes := List Nat

/-- How a call ends: with a value, with an exception of the C++ library, or undefined. -/
inductive Out (α : Type) where
  | ok (v : α)
  | exception
  | ub
  deriving DecidableEq, Repr

/-- What a C function sees of `c_str()`: the bytes in front of the first zero byte. -/
def cstr : Bytes → Bytes
  | [] => []
  | x :: xs => if x = 0 then [] else x :: cstr xs

/-! ## The C library -/

/-- `strchr`: the text from the first such byte on; the zero byte at the end counts. -/
def c_strchr : Bytes → Nat → Option Bytes
  | [], c => if c = 0 then some [] else none
  | x :: xs, c => if x = c then some (x :: xs) else c_strchr xs c

/-- `strrchr`: the text from the last such byte on; the zero byte at the end counts. -/
def c_strrchr : Bytes → Nat → Option Bytes
  | [], c => if c = 0 then some [] else none
  | x :: xs, c => match c_strrchr xs c with
    | some r => some r
    | none => if x = c then some (x :: xs) else none

/-- `strpbrk`: the text from the first byte on that is one of the given ones. -/
def c_strpbrk : Bytes → Bytes → Option Bytes
  | [], _ => none
  | x :: xs, set => if set.contains x then some (x :: xs) else c_strpbrk xs set

/-- `strstr`: the text from the first occurrence of another one on. -/
def c_strstr : Bytes → Bytes → Option Bytes
  | [], t => if t = [] then some [] else none
  | x :: xs, t => if t.isPrefixOf (x :: xs) then some (x :: xs) else c_strstr xs t

/-- `strspn`: how many bytes at the start are of the given ones. -/
def c_strspn : Bytes → Bytes → Nat
  | [], _ => 0
  | x :: xs, set => if set.contains x then c_strspn xs set + 1 else 0

/-- `strcspn`: how many bytes at the start are not of the given ones. -/
def c_strcspn : Bytes → Bytes → Nat
  | [], _ => 0
  | x :: xs, set => if set.contains x then 0 else c_strcspn xs set + 1

/-- `strcmp` compares byte by byte, as `unsigned char`s. -/
def c_strcmp : Bytes → Bytes → Ordering
  | [], [] => .eq
  | [], _ :: _ => .lt
  | _ :: _, [] => .gt
  | x :: xs, y :: ys => if x < y then .lt else if y < x then .gt else c_strcmp xs ys

/-- `strncmp` compares at most `n` bytes. -/
def c_strncmp : Nat → Bytes → Bytes → Ordering
  | 0, _, _ => .eq
  | _ + 1, [], [] => .eq
  | _ + 1, [], _ :: _ => .lt
  | _ + 1, _ :: _, [] => .gt
  | n + 1, x :: xs, y :: ys => if x < y then .lt else if y < x then .gt else c_strncmp n xs ys

/-- The number a comparison gives: the standard fixes its sign only, so the size is a parameter. -/
def signed (size : Nat) : Ordering → Int
  | .lt => -(size + 1 : Int)
  | .eq => 0
  | .gt => size + 1

/-- `static_cast<size_t>( int )`. -/
def toSize (i : Int) : Nat := (i % 18446744073709551616).toNat

/-- `static_cast<char>( int )`, as a byte. -/
def toChar (i : Int) : Nat := (i % 256).toNat

/-- `std::string( const char* )`: of a null pointer it is undefined. -/
def fromPointer : Option Bytes → Out Bytes
  | none => .ub
  | some s => .ok s

/-! ## The functions of the extension -/

/-- `STRCHR::execute` (`Extensions/LIBC/cstring/strchr.h:39-51`).  The declared type of the result is `int`
(`strchr.h:30`), the value a text. -/
def strchr (s : Bytes) (ch : Int) : Out Bytes := fromPointer (c_strchr (cstr s) (toChar ch))

/-- `STRRCHR::execute` (`Extensions/LIBC/cstring/strrchr.h:39-51`). -/
def strrchr (s : Bytes) (ch : Int) : Out Bytes := fromPointer (c_strrchr (cstr s) (toChar ch))

/-- `STRPBRK::execute` (`Extensions/LIBC/cstring/strpbrk.h:38-50`). -/
def strpbrk (s set : Bytes) : Out Bytes := fromPointer (c_strpbrk (cstr s) (cstr set))

/-- `STRSTR::execute` (`Extensions/LIBC/cstring/strstr.h:39-51`). -/
def strstr (s t : Bytes) : Out Bytes := fromPointer (c_strstr (cstr s) (cstr t))

/-- `STRSPN::execute` (`Extensions/LIBC/cstring/strspn.h:39-51`); texts are shorter than 2^31, so that the conversion
to `int` changes nothing. -/
def strspn (s set : Bytes) : Int := c_strspn (cstr s) (cstr set)

/-- `STRCSPN::execute` (`Extensions/LIBC/cstring/strcspn.h:39-51`); as `strspn`. -/
def strcspn (s set : Bytes) : Int := c_strcspn (cstr s) (cstr set)

/-- `STRCMP::execute` (`Extensions/LIBC/cstring/strcmp.h:39-51`). -/
def strcmp (size : Bytes → Bytes → Nat) (s t : Bytes) : Int := signed (size s t) (c_strcmp (cstr s) (cstr t))

/-- `STRNCMP::execute` (`Extensions/LIBC/cstring/strncmp.h:39-52`): the number becomes a `size_t`. -/
def strncmp (size : Bytes → Bytes → Nat) (s t : Bytes) (num : Int) : Int :=
  signed (size s t) (c_strncmp (toSize num) (cstr s) (cstr t))

/-- `STRCAT::execute` (`Extensions/LIBC/cstring/strcat.h:38-50`). -/
def strcat (s t : Bytes) : Bytes := s ++ t

/-- `STRNCAT::execute` (`Extensions/LIBC/cstring/strncat.h:39-52`): `std::string::substr( pos )` throws
`std::out_of_range` behind the end. -/
def strncat (s t : Bytes) (num : Int) : Out Bytes :=
  if toSize num > t.length then .exception else .ok (s ++ t.drop (toSize num))

/-! ## Case -/

/-- `::tolower( char )` in the "C" locale; for a byte from 128 on the `char` is negative, which is undefined. -/
def lower (x : Nat) : Option Nat :=
  if 128 ≤ x then none else if 65 ≤ x ∧ x ≤ 90 then some (x + 32) else some x

/-- `::toupper( char )`, in the same way. -/
def upper (x : Nat) : Option Nat :=
  if 128 ≤ x then none else if 97 ≤ x ∧ x ≤ 122 then some (x - 32) else some x

/-- `std::transform` with a function that may be undefined. -/
def transform (f : Nat → Option Nat) : Bytes → Option Bytes
  | [] => some []
  | x :: xs => match f x, transform f xs with
    | some y, some ys => some (y :: ys)
    | _, _ => none

/-- `ToLower::execute` (`Extensions/System/Strings/ToLower.h:39-52`); `none`: undefined. -/
def tolower (s : Bytes) : Option Bytes := transform lower s

/-- `ToUpper::execute` (`Extensions/System/Strings/ToUpper.h:39-52`); `none`: undefined. -/
def toupper (s : Bytes) : Option Bytes := transform upper s

/-! ## The environment -/

/-- An entry of `environ`: a text, or a pointer to memory that was given back. -/
inductive Entry where
  | text (t : Bytes)
  | dangling
  deriving DecidableEq, Repr

/-- The name of a variable in an entry `name=value`: the bytes in front of the first `=` (61). -/
def nameOf : Bytes → Bytes
  | [] => []
  | x :: xs => if x = 61 then [] else x :: nameOf xs

/-- Is the entry one of the name?  As in glibc: it starts with the name and a `=`. -/
def hasName (t name : Bytes) : Bool := (name ++ [61]).isPrefixOf t

/-- The C library's `getenv`: goes through the entries; reading one that dangles is undefined (`none`); there is no
variable with an empty name. -/
def c_getenv : List Entry → Bytes → Option (Option Bytes)
  | _, [] => some none
  | [], _ :: _ => some none
  | .dangling :: _, _ :: _ => none
  | .text t :: rest, n :: name =>
    if hasName t (n :: name) then some (some (t.drop (name.length + 2))) else c_getenv rest (n :: name)

/-- Replace the first entry of a name, or add one at the end. -/
def setEntry : List Entry → Bytes → Entry → Option (List Entry)
  | [], _, e => some [e]
  | .dangling :: _, _, _ => none
  | .text t :: rest, name, e =>
    if hasName t name then some (e :: rest) else (setEntry rest name e).map (.text t :: ·)

/-- Remove the entries of a name. -/
def unsetEntry : List Entry → Bytes → Option (List Entry)
  | [], _ => some []
  | .dangling :: _, _ => none
  | .text t :: rest, name =>
    (unsetEntry rest name).map fun r => if hasName t name then r else .text t :: r

/-- The C library's `setenv`: -1 for an empty name or one with `=`, else the variable is set unless it is there and
must not be overwritten. -/
def c_setenv (env : List Entry) (name value : Bytes) (overwrite : Int) : Option (Int × List Entry) :=
  if name = [] ∨ 61 ∈ name then some (-1, env)
  else match c_getenv env name with
    | none => none
    | some (some _) =>
      if overwrite = 0 then some (0, env)
      else (setEntry env name (.text (name ++ [61] ++ value))).map fun e => (0, e)
    | some none => (setEntry env name (.text (name ++ [61] ++ value))).map fun e => (0, e)

/-- A call of a script. -/
inductive Call where
  | getenv (name : Bytes)
  | setenv (name value : Bytes) (overwrite : Int)
  | putenv (text : Bytes)
  deriving DecidableEq, Repr

/-- What a call gives. -/
inductive Answer where
  | text (t : Bytes)
  | int (i : Int)
  | ub
  deriving DecidableEq, Repr

/-- `GetEnv::execute` (`Extensions/System/GetEnv.h:36-54`), `SetEnv::execute` (`SetEnv.h:44-62`, not on Windows) and
`PutEnv::execute` (`PutEnv.h:36-47`): `putenv` keeps the pointer to the local text, which is gone when the method
returns; glibc removes the variable if the text has no `=`. -/
def call (env : List Entry) : Call → Answer × List Entry
  | .getenv name => match c_getenv env (cstr name) with
    | none => (.ub, env)
    | some none => (.text [], env)
    | some (some v) => (.text v, env)
  | .setenv name value overwrite => match c_setenv env (cstr name) (cstr value) overwrite with
    | none => (.ub, env)
    | some (r, env') => (.int r, env')
  | .putenv t =>
    if (cstr t).contains 61 then
      match setEntry env (nameOf (cstr t)) .dangling with
      | none => (.ub, env)
      | some env' => (.int 0, env')
    else match unsetEntry env (cstr t) with
      | none => (.ub, env)
      | some env' => (.int 0, env')

/-- Calls one after the other. -/
def calls : List Entry → List Call → List Answer
  | _, [] => []
  | env, c :: cs => (call env c).1 :: calls (call env c).2 cs

end Verif.Libc
