import Verif.AMap
import Verif.Files.CLib

/-!
# The file functions of scripts

Models `Extensions/LIBC/stdio/*.h` and `stdio.cpp` (the functions `fopen`, `fclose`,
`freads`, …) on top of the C library of `Files/CLib.lean`, and the class `System.IO.File`
of `Library/System/IO/File.os`.

Strings are lists of bytes.  The conversion of the arguments (`mergeParameters`,
`toInt`, …) is not modelled; integers are in the range of `int`.  `freadd`, `freadf`,
`fwrited`, `fwritef` differ from `freadi`, `fwritei` only in the number of bytes and are
left out, so are `ungetc`, `perror`, `rename`, `tmpnam` and the functions on the standard
streams (`getchar`, `putchar`, `puts`).
-/

namespace Verif.Files

/-- What a function call leads to: a value, a `RuntimeException`, or undefined behaviour. -/
inductive Out (α : Type) where
  | ok (v : α)
  | fail
  | ub
  deriving DecidableEq, Repr

/-- The value a function leaves in `*result`; `nothing` if it leaves none. -/
inductive Value where
  | int (i : Int)
  | str (b : List Byte)
  | bool (b : Bool)
  | nothing
  deriving DecidableEq, Repr

/-- The state: the system and the table `stdio_t::FileHandles`
(`Extensions/LIBC/stdio/stdio.hpp:30-32`). -/
structure World where
  sys : Sys
  handles : AMap Int Ptr

/-- The three standard streams, which belong to the files 0, 1 and 2. -/
def stdStreams : List (Option Stream) :=
  [some { file := 0, pos := 0, eof := false, err := false, canRead := true, canWrite := false, atEnd := false },
   some { file := 1, pos := 0, eof := false, err := false, canRead := false, canWrite := true, atEnd := true },
   some { file := 2, pos := 0, eof := false, err := false, canRead := false, canWrite := true, atEnd := true }]

/-- `stdio_t::initialize` (`Extensions/LIBC/stdio/stdio.cpp:47-74`): the handles 0 to 3.
The constants the function defines in the scope are not modelled. -/
def start (names : String → Option Nat) (data : Nat → List Byte) (files : Nat) : World :=
  { sys := { names := names, data := data, files := files, streams := stdStreams },
    handles := [(0, none), (1, some 0), (2, some 1), (3, some 2)] }

/-- `std::map::insert`: an existing entry stays. -/
def insertHandle (m : AMap Int Ptr) (k : Int) (p : Ptr) : AMap Int Ptr :=
  match m.find k with
  | none => m ++ [(k, p)]
  | some _ => m

/-- The common part of `fopen` and `tmpfile`
(`Extensions/LIBC/stdio/fopen.h:47-57`, `tmpfile.h:48-58`): the number of entries of the
table is the new handle. -/
def register (w : World) (r : Ptr × Sys) : Out Value × World :=
  match r.1 with
  | none => (.ok (.int 0), { w with sys := r.2 })
  | some p =>
    let h : Int := w.handles.length
    (.ok (.int h), { sys := r.2, handles := insertHandle w.handles h (some p) })

/-- `FOPEN::execute` (`Extensions/LIBC/stdio/fopen.h:39-60`). -/
def fopen (refused : String → Bool) (w : World) (name mode : String) : Out Value × World :=
  register w (c_fopen refused w.sys name mode)

/-- `TMPFILE::execute` (`Extensions/LIBC/stdio/tmpfile.h:44-60`). -/
def tmpfile (w : World) : Out Value × World := register w (c_tmpfile w.sys)

/-- The check all functions begin with, e.g. `Extensions/LIBC/stdio/fclose.h:45-47`: the
handle must be in the table.  `f` is the rest of the function; `none` is undefined. -/
def withHandle (w : World) (h : Int) (f : Ptr → Option (Out Value × Sys)) : Out Value × World :=
  match w.handles.find h with
  | none => (.fail, w)
  | some p => match f p with
    | none => (.ub, w)
    | some (r, S) => (r, { w with sys := S })

/-- `FCLOSE::execute` (`Extensions/LIBC/stdio/fclose.h:37-57`): the entry of the table
stays. -/
def fclose (w : World) (h : Int) : Out Value × World :=
  withHandle w h (fun p => (c_fclose w.sys p).map (fun (r, S) =>
    (if r = -1 then .fail else .ok (.int r), S)))

/-- `std::to_string` of a reply of `fgetc`, as bytes. -/
def toText (i : Int) : List Byte := (toString i).toList.map Char.toNat

/-- `FGETC::execute` (`Extensions/LIBC/stdio/fgetc.h:42-57`): the number of the byte, as a
string. -/
def fgetc (w : World) (h : Int) : Out Value × World :=
  withHandle w h (fun p => (c_fgetc w.sys p).map (fun (r, S) => (.ok (.str (toText r)), S)))

/-- `std::string( buffer )`: the bytes before the first zero byte. -/
def cString : List Byte → List Byte
  | [] => []
  | b :: bs => if b = 0 then [] else b :: cString bs

/-- `READ_SIZE` (`Extensions/LIBC/stdio/fgets.h:29`). -/
def readSize : Nat := 1024

/-- The loop of `FGETS::execute` (`Extensions/LIBC/stdio/fgets.h:56-69`): `left` is
`param_size - remainingSize`, `res` what is in `*result`.  Every round takes at least one,
so `fuel := left` rounds are enough. -/
def fgetsLoop : Nat → Sys → Ptr → Nat → Value → Option (Out Value × Sys)
  | 0, S, _, _, res => some (.ok res, S)
  | fuel + 1, S, p, left, res =>
    if left = 0 then some (.ok res, S)
    else
      let n := if left > readSize then readSize else left
      match c_fgets S p n with
      | none => none
      | some (got, S') =>
        let res' := match got with
          | some b => .str (cString b)
          | none => res
        fgetsLoop fuel S' p (left - n) res'

/-- `FGETS::execute` (`Extensions/LIBC/stdio/fgets.h:43-72`). -/
def fgets (w : World) (h : Int) (size : Int) : Out Value × World :=
  withHandle w h (fun p => fgetsLoop size.toNat w.sys p size.toNat .nothing)

/-- The loop of `FREADS::execute` (`Extensions/LIBC/stdio/fread.h:213-230`).  `fread`
never replies `-1`, so the `Throw` of lines 217-219 is never reached. -/
def freadsLoop : Nat → Sys → Ptr → Int → List Byte → Option (Out Value × Sys)
  | 0, S, _, _, value => some (.ok (.str value), S)
  | fuel + 1, S, p, len, value =>
    if len > 0 ∨ len = -1 then
      match c_fread S p 1 with
      | none => none
      | some ([], S') => some (.ok (.str value), S')
      | some (b :: _, S') => freadsLoop fuel S' p (if len > 0 then len - 1 else len) (value ++ [b])
    else some (.ok (.str value), S)

/-- The number of bytes behind the position of a stream: a bound for the rounds of the
loop of `freads`. -/
def bytesLeft (S : Sys) (p : Ptr) : Nat :=
  match S.stream p with
  | none => 0
  | some s => (S.data s.file).length - s.pos

/-- `FREADS::execute` (`Extensions/LIBC/stdio/fread.h:198-235`). -/
def freads (w : World) (h : Int) (len : Int) : Out Value × World :=
  withHandle w h (fun p => freadsLoop (bytesLeft w.sys p + 1) w.sys p len [])

/-- The number little-endian bytes stand for. -/
def number : List Byte → Nat
  | [] => 0
  | b :: bs => b + 256 * number bs

/-- The `n` little-endian bytes of a number. -/
def bytesOf : Nat → Nat → List Byte
  | 0, _ => []
  | n + 1, v => (v % 256) :: bytesOf n (v / 256)

/-- The `int` (32 bits) with a given bit pattern. -/
def asInt32 (v : Nat) : Int := if v % 4294967296 < 2147483648 then (v % 4294967296 : Nat) else (v % 4294967296 : Nat) - 4294967296

/-- The bit pattern of an `int`. -/
def bits32 (i : Int) : Nat := (i % 4294967296).toNat

/-- `FREADI::execute` (`Extensions/LIBC/stdio/fread.h:159-181`): the variable is zero
before; if fewer than four bytes are left, only the first of its bytes are overwritten. -/
def freadi (w : World) (h : Int) : Out Value × World :=
  withHandle w h (fun p => (c_fread w.sys p 4).map (fun (b, S) => (.ok (.int (asInt32 (number b))), S)))

/-- `FREADB::execute` (`Extensions/LIBC/stdio/fread.h:45-67`): a byte other than 0 and 1
in a `bool` is undefined. -/
def freadb (w : World) (h : Int) : Out Value × World :=
  withHandle w h (fun p => match c_fread w.sys p 1 with
    | none => none
    | some ([], S) => some (.ok (.bool false), S)
    | some (b :: _, S) => if b = 0 then some (.ok (.bool false), S)
        else if b = 1 then some (.ok (.bool true), S) else none)

/-- `FPUTS::execute` (`Extensions/LIBC/stdio/fputs.h:43-59`); the string ends at its first
zero byte (`c_str()`). -/
def fputs (w : World) (str : List Byte) (h : Int) : Out Value × World :=
  withHandle w h (fun p => (c_fputs w.sys p (cString str)).map (fun (r, S) => (.ok (.int r), S)))

/-- `FWRITES::execute` (`Extensions/LIBC/stdio/fwrite.h:198-221`). -/
def fwrites (w : World) (h : Int) (str : List Byte) : Out Value × World :=
  withHandle w h (fun p => (c_fputs w.sys p (cString str)).map (fun (r, S) =>
    (if r = -1 then .fail else .ok (.int r), S)))

/-- `FWRITEI::execute` (`Extensions/LIBC/stdio/fwrite.h:159-181`). -/
def fwritei (w : World) (h : Int) (v : Int) : Out Value × World :=
  withHandle w h (fun p => (c_fwrite w.sys p (bytesOf 4 (bits32 v))).map (fun (r, S) =>
    (if r = -1 then .fail else .ok (.int r), S)))

/-- `FWRITEB::execute` (`Extensions/LIBC/stdio/fwrite.h:42-64`). -/
def fwriteb (w : World) (h : Int) (v : Bool) : Out Value × World :=
  withHandle w h (fun p => (c_fwrite w.sys p [if v then 1 else 0]).map (fun (r, S) =>
    (if r = -1 then .fail else .ok (.int r), S)))

/-- `FPUTC::execute` (`Extensions/LIBC/stdio/fputc.h:42-58`). -/
def fputc (w : World) (c h : Int) : Out Value × World :=
  withHandle w h (fun p => (c_fputc w.sys p c).map (fun (r, S) => (.ok (.int r), S)))

/-- `FSEEK::execute` (`Extensions/LIBC/stdio/fseek.h:47-69`). -/
def fseek (w : World) (h offset origin : Int) : Out Value × World :=
  withHandle w h (fun p => (c_fseek w.sys p offset origin).map (fun (r, S) =>
    (if r = -1 then .fail else .ok (.int r), S)))

/-- `FTELL::execute` (`Extensions/LIBC/stdio/ftell.h:45-65`); positions are below `2^31`,
the conversion to `int` is left out. -/
def ftell (w : World) (h : Int) : Out Value × World :=
  withHandle w h (fun p => (c_ftell w.sys p).map (fun r => (if r = -1 then .fail else .ok (.int r), w.sys)))

/-- `FEOF::execute` (`Extensions/LIBC/stdio/feof.h:36-52`). -/
def feof (w : World) (h : Int) : Out Value × World :=
  withHandle w h (fun p => (c_feof w.sys p).map (fun r => (.ok (.int r), w.sys)))

/-- `FERROR::execute` (`Extensions/LIBC/stdio/ferror.h:46-61`). -/
def ferror (w : World) (h : Int) : Out Value × World :=
  withHandle w h (fun p => (c_ferror w.sys p).map (fun r => (.ok (.int r), w.sys)))

/-- `FFLUSH::execute` (`Extensions/LIBC/stdio/fflush.h:40-57`). -/
def fflush (w : World) (h : Int) : Out Value × World :=
  withHandle w h (fun p => (c_fflush w.sys p).map (fun r => (.ok (.int r), w.sys)))

/-- `REWIND::execute` (`Extensions/LIBC/stdio/rewind.h:45-60`). -/
def rewind (w : World) (h : Int) : Out Value × World :=
  withHandle w h (fun p => (c_rewind w.sys p).map (fun S => (.ok .nothing, S)))

/-- `CLEARERR::execute` (`Extensions/LIBC/stdio/clearerr.h:37-52`). -/
def clearerr (w : World) (h : Int) : Out Value × World :=
  withHandle w h (fun p => (c_clearerr w.sys p).map (fun S => (.ok .nothing, S)))

/-- `REMOVE::execute` (`Extensions/LIBC/stdio/remove.h:45-56`). -/
def remove (w : World) (name : String) : Out Value × World :=
  let (r, S) := c_remove w.sys name
  (.ok (.int r), { w with sys := S })

/-- A call of one of the functions. -/
inductive Op where
  | fopen (name mode : String)
  | tmpfile
  | fclose (h : Int)
  | fgetc (h : Int)
  | fgets (h size : Int)
  | freads (h len : Int)
  | freadi (h : Int)
  | freadb (h : Int)
  | fputs (str : List Byte) (h : Int)
  | fwrites (h : Int) (str : List Byte)
  | fwritei (h v : Int)
  | fwriteb (h : Int) (v : Bool)
  | fputc (c h : Int)
  | fseek (h offset origin : Int)
  | ftell (h : Int)
  | feof (h : Int)
  | ferror (h : Int)
  | fflush (h : Int)
  | rewind (h : Int)
  | clearerr (h : Int)
  | remove (name : String)
  deriving Repr

/-- One call (the functions provided in `Extensions/LIBC/stdio/stdio.cpp:76-110`). -/
def call (refused : String → Bool) (w : World) : Op → Out Value × World
  | .fopen name mode => fopen refused w name mode
  | .tmpfile => tmpfile w
  | .fclose h => fclose w h
  | .fgetc h => fgetc w h
  | .fgets h n => fgets w h n
  | .freads h n => freads w h n
  | .freadi h => freadi w h
  | .freadb h => freadb w h
  | .fputs s h => fputs w s h
  | .fwrites h s => fwrites w h s
  | .fwritei h v => fwritei w h v
  | .fwriteb h v => fwriteb w h v
  | .fputc c h => fputc w c h
  | .fseek h a b => fseek w h a b
  | .ftell h => ftell w h
  | .feof h => feof w h
  | .ferror h => ferror w h
  | .fflush h => fflush w h
  | .rewind h => rewind w h
  | .clearerr h => clearerr w h
  | .remove n => remove w n

/-- A sequence of calls and their outcomes; a `RuntimeException` does not end the process
(the script may be run by a service that goes on), undefined behaviour does. -/
def calls (refused : String → Bool) : World → List Op → List (Out Value) × World
  | w, [] => ([], w)
  | w, o :: os => match call refused w o with
    | (.ub, w') => ([.ub], w')
    | (r, w') => let (rs, w'') := calls refused w' os; (r :: rs, w'')

/-! ## `System.IO.File` -/

/-- An object of the class `File`: its handle and size
(`Library/System/IO/File.os:156-159`; the name and mode are only remembered). -/
structure FileObj where
  handle : Int := 0
  size : Int := 0
  deriving DecidableEq, Repr

/-- What a method leads to: a value, an exception of the script, a `RuntimeException` of
the machine, or undefined behaviour. -/
inductive MOut (α : Type) where
  | ok (v : α)
  | throws
  | fail
  | ub
  deriving DecidableEq, Repr

/-- Go on with the integer a function gave. -/
def andThen (r : Out Value × World) (obj : FileObj) (k : Int → World → MOut Bool × FileObj × World) :
    MOut Bool × FileObj × World :=
  match r with
  | (.ok (.int i), w) => k i w
  | (.ok _, w) => (.fail, obj, w)
  | (.fail, w) => (.fail, obj, w)
  | (.ub, w) => (.ub, obj, w)

/-- `File.open( string, string )` (`Library/System/IO/File.os:87-102`).  The integer `0`
is false. -/
def fileOpen (refused : String → Bool) (w : World) (obj : FileObj) (name mode : String) :
    MOut Bool × FileObj × World :=
  if obj.handle ≠ 0 then (.throws, obj, w)
  else andThen (fopen refused w name mode) obj (fun h w1 =>
    let obj1 := { obj with handle := h }
    andThen (fseek w1 h 0 2) obj1 (fun _ w2 =>
      andThen (ftell w2 h) obj1 (fun n w3 =>
        let obj2 := { obj1 with size := n }
        andThen (fseek w3 h 0 0) obj2 (fun _ w4 => (.ok (decide (h ≠ 0)), obj2, w4)))))

/-- `File.close` (`Library/System/IO/File.os:51-61`). -/
def fileClose (w : World) (obj : FileObj) : MOut Bool × FileObj × World :=
  if obj.handle = 0 then (.ok true, obj, w)
  else andThen (fclose w obj.handle) obj (fun r w' => (.ok (decide (r = 0)), { obj with handle := 0 }, w'))

/-- `File.isOpen` (`Library/System/IO/File.os:79-81`). -/
def fileIsOpen (obj : FileObj) : Bool := decide (obj.handle ≠ 0)

/-- `File.getSize` (`Library/System/IO/File.os:71-73`). -/
def fileSize (obj : FileObj) : Int := obj.size

/-- `File.isEOF` (`Library/System/IO/File.os:75-77`). -/
def fileIsEOF (w : World) (obj : FileObj) : MOut Bool × FileObj × World :=
  andThen (feof w obj.handle) obj (fun r w' => (.ok (decide (r ≠ 0)), obj, w'))

/-- `File.readString` (`Library/System/IO/File.os:124-126`). -/
def fileRead (w : World) (obj : FileObj) (n : Int) : Out Value × World := freads w obj.handle n

/-- `File.readInt` (`Library/System/IO/File.os:120-122`). -/
def fileReadInt (w : World) (obj : FileObj) : Out Value × World := freadi w obj.handle

/-- `File.write( string )` (`Library/System/IO/File.os:152-154`). -/
def fileWrite (w : World) (obj : FileObj) (s : List Byte) : MOut Bool × FileObj × World :=
  andThen (fwrites w obj.handle s) obj (fun r w' => (.ok (decide (r = 0)), obj, w'))

/-- `File.write( int )` (`Library/System/IO/File.os:148-150`). -/
def fileWriteInt (w : World) (obj : FileObj) (v : Int) : MOut Bool × FileObj × World :=
  andThen (fwritei w obj.handle v) obj (fun r w' => (.ok (decide (r = 0)), obj, w'))

/-- `File.seek` (`Library/System/IO/File.os:132-134`); `File.rewind` (128-130) is
`seek( 0 )`. -/
def fileSeek (w : World) (obj : FileObj) (a : Int) : MOut Bool × FileObj × World :=
  andThen (fseek w obj.handle a 0) obj (fun r w' => (.ok (decide (r = 0)), obj, w'))

/-- `File.AccessMode` (`Library/System/IO/File.os:7-15`). -/
inductive AccessMode where
  | append | appendUpdate | readOnly | readUpdate | readWrite | writeOnly | writeUpdate
  deriving DecidableEq, Repr

/-- `MapFileAccessModeToString` (`Library/System/IO/File.os:162-174`). -/
def AccessMode.text : AccessMode → String
  | .append => "a"
  | .appendUpdate => "a+"
  | .readOnly => "r"
  | .readUpdate => "r+"
  | .readWrite => "rw"
  | .writeOnly => "w"
  | .writeUpdate => "w+"

end Verif.Files
