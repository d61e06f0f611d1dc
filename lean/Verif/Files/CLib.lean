/-!
# The part of the C library that the file functions of scripts call

Scripts work with files through `Extensions/LIBC/stdio`.  Every function there is a
thin layer over a function of the C library.  This file is the environment of that
layer: what C and POSIX say about `fopen`, `fread`, …  It models no code of the
repository; it is part of the trusted base.

Simplifications: streams are not buffered, so what one stream writes is at once seen by
the others; writing never fails for lack of space; `ungetc` is left out; addresses of
streams are never used again after `fclose`; the reply of `fputs` is the one of glibc
(`1`).  Using a stream that was closed, or the null pointer, is undefined behaviour and
is modelled by `none`.
-/

namespace Verif.Files

/-- A byte of a file. -/
abbrev Byte := Nat

/-- An open stream (`FILE`): the file it belongs to, the position, the end-of-file and
error indicators, and what the mode allows. -/
structure Stream where
  file : Nat
  pos : Nat
  eof : Bool
  err : Bool
  canRead : Bool
  canWrite : Bool
  atEnd : Bool
  deriving DecidableEq, Repr

/-- The operating system: the names of files, the contents of files, the number of files
created so far, and the streams of this process.  A pointer to a stream is an index into
`streams`; `none` there is a stream that was closed. -/
structure Sys where
  names : String → Option Nat
  data : Nat → List Byte
  files : Nat
  streams : List (Option Stream)

/-- A `FILE*`; `none` is the null pointer. -/
abbrev Ptr := Option Nat

/-- The stream behind a pointer; `none` if using the pointer is undefined. -/
def Sys.stream (S : Sys) : Ptr → Option Stream
  | none => none
  | some p => (S.streams[p]?).join

/-- Update the stream behind a pointer. -/
def Sys.setStream (S : Sys) (p : Nat) (s : Stream) : Sys :=
  { S with streams := S.streams.set p (some s) }

/-- Update the contents of a file. -/
def Sys.setData (S : Sys) (f : Nat) (d : List Byte) : Sys :=
  { S with data := fun g => if g = f then d else S.data g }

/-- What a mode of `fopen` asks for. -/
structure Mode where
  read : Bool
  write : Bool
  append : Bool
  truncate : Bool
  create : Bool
  deriving DecidableEq, Repr

/-- The mode string of `fopen` as read by the C library: the first letter decides, a `+`
later on adds the other direction, other letters are ignored. -/
def parseMode : List Char → Option Mode
  | 'r' :: rest => some { read := true, write := rest.contains '+', append := false, truncate := false, create := false }
  | 'w' :: rest => some { read := rest.contains '+', write := true, append := false, truncate := true, create := true }
  | 'a' :: rest => some { read := rest.contains '+', write := true, append := true, truncate := false, create := true }
  | _ => none

/-- The stream a successful `fopen` gives. -/
def Mode.stream (m : Mode) (f : Nat) : Stream :=
  { file := f, pos := 0, eof := false, err := false, canRead := m.read, canWrite := m.write, atEnd := m.append }

/-- The file `fopen` opens, and the state of the system after it was created or
truncated; `none` if there is no such file and the mode does not create it. -/
def Sys.openFile (S : Sys) (name : String) (m : Mode) : Option (Nat × Sys) :=
  match S.names name with
  | some f => some (f, if m.truncate then S.setData f [] else S)
  | none =>
    if m.create then
      some (S.files,
        { (S.setData S.files []) with
          names := fun n => if n = name then some S.files else S.names n
          files := S.files + 1 })
    else none

/-- `fopen`.  `refused` are the names the system refuses to open for other reasons. -/
def c_fopen (refused : String → Bool) (S : Sys) (name mode : String) : Ptr × Sys :=
  match parseMode mode.toList with
  | none => (none, S)
  | some m =>
    if refused name then (none, S)
    else match S.openFile name m with
      | none => (none, S)
      | some (f, S') => (some S'.streams.length, { S' with streams := S'.streams ++ [some (m.stream f)] })

/-- `tmpfile`: a new file without a name, open for reading and writing. -/
def c_tmpfile (S : Sys) : Ptr × Sys :=
  (some S.streams.length,
    { S with
      data := fun g => if g = S.files then [] else S.data g
      files := S.files + 1
      streams := S.streams ++ [some { file := S.files, pos := 0, eof := false, err := false, canRead := true, canWrite := true, atEnd := false }] })

/-- `fclose`. -/
def c_fclose (S : Sys) (p : Ptr) : Option (Int × Sys) :=
  match p, S.stream p with
  | some q, some _ => some (0, { S with streams := S.streams.set q none })
  | _, _ => none

/-- `fread` of single bytes: at most `n` bytes from the position on. -/
def c_fread (S : Sys) (p : Ptr) (n : Nat) : Option (List Byte × Sys) :=
  match p, S.stream p with
  | some q, some s =>
    if s.canRead = false then some ([], S.setStream q { s with err := true })
    else
      let got := ((S.data s.file).drop s.pos).take n
      some (got, S.setStream q { s with pos := s.pos + got.length, eof := s.eof || decide (got.length < n) })
  | _, _ => none

/-- The bytes of the next line: at most `n`, up to and including a line break. -/
def lineBytes : Nat → List Byte → List Byte
  | 0, _ => []
  | _, [] => []
  | n + 1, b :: bs => if b = 10 then [b] else b :: lineBytes n bs

/-- `fgets( buffer, n, p )` with `n ≥ 1`: at most `n - 1` bytes of the next line; the null
pointer (`none`) if nothing could be read. -/
def c_fgets (S : Sys) (p : Ptr) (n : Nat) : Option (Option (List Byte) × Sys) :=
  match p, S.stream p with
  | some q, some s =>
    if n ≤ 1 then some (some [], S)
    else if s.canRead = false then some (none, S.setStream q { s with err := true })
    else
      let got := lineBytes (n - 1) ((S.data s.file).drop s.pos)
      let hit := decide (got.length < n - 1) && decide (got.getLast? ≠ some 10)
      some (if got = [] then none else some got,
        S.setStream q { s with pos := s.pos + got.length, eof := s.eof || hit })
  | _, _ => none

/-- The contents `d` after writing `b` at position `i`; a gap is filled with zeros. -/
def overwrite (d : List Byte) (i : Nat) (b : List Byte) : List Byte :=
  (d ++ List.replicate (i - d.length) 0).take i ++ b ++ d.drop (i + b.length)

/-- Writing bytes to a stream that may be written. -/
def Sys.put (S : Sys) (q : Nat) (s : Stream) (b : List Byte) : Sys :=
  let i := if s.atEnd then (S.data s.file).length else s.pos
  (S.setData s.file (overwrite (S.data s.file) i b)).setStream q { s with pos := i + b.length }

/-- `fputs` of the bytes `b` (which hold no zero byte). -/
def c_fputs (S : Sys) (p : Ptr) (b : List Byte) : Option (Int × Sys) :=
  match p, S.stream p with
  | some q, some s =>
    if b = [] then some (1, S)
    else if s.canWrite = false then some (-1, S.setStream q { s with err := true })
    else some (1, S.put q s b)
  | _, _ => none

/-- `fwrite` of one item that consists of the bytes `b`: the number of items written. -/
def c_fwrite (S : Sys) (p : Ptr) (b : List Byte) : Option (Int × Sys) :=
  match p, S.stream p with
  | some q, some s =>
    if s.canWrite = false then some (0, S.setStream q { s with err := true })
    else some (1, S.put q s b)
  | _, _ => none

/-- `fputc`: the byte written, or `EOF`. -/
def c_fputc (S : Sys) (p : Ptr) (c : Int) : Option (Int × Sys) :=
  match p, S.stream p with
  | some q, some s =>
    if s.canWrite = false then some (-1, S.setStream q { s with err := true })
    else some (c % 256, S.put q s [(c % 256).toNat])
  | _, _ => none

/-- `fgetc`: the next byte, or `EOF`. -/
def c_fgetc (S : Sys) (p : Ptr) : Option (Int × Sys) :=
  match c_fread S p 1 with
  | none => none
  | some (b :: _, S') => some ((b : Int), S')
  | some ([], S') => some (-1, S')

/-- The position an origin (`SEEK_SET`, `SEEK_CUR`, `SEEK_END`) stands for. -/
def originOf (S : Sys) (s : Stream) (origin : Int) : Option Int :=
  if origin = 0 then some 0
  else if origin = 1 then some s.pos
  else if origin = 2 then some (S.data s.file).length
  else none

/-- `fseek`. -/
def c_fseek (S : Sys) (p : Ptr) (offset origin : Int) : Option (Int × Sys) :=
  match p, S.stream p with
  | some q, some s =>
    match originOf S s origin with
    | none => some (-1, S)
    | some o =>
      if o + offset < 0 then some (-1, S)
      else some (0, S.setStream q { s with pos := (o + offset).toNat, eof := false })
  | _, _ => none

/-- `ftell`. -/
def c_ftell (S : Sys) (p : Ptr) : Option Int := (S.stream p).map (fun s => (s.pos : Int))

/-- `feof`. -/
def c_feof (S : Sys) (p : Ptr) : Option Int := (S.stream p).map (fun s => if s.eof then 1 else 0)

/-- `ferror`. -/
def c_ferror (S : Sys) (p : Ptr) : Option Int := (S.stream p).map (fun s => if s.err then 1 else 0)

/-- `rewind`. -/
def c_rewind (S : Sys) (p : Ptr) : Option Sys :=
  match p, S.stream p with
  | some q, some s => some (S.setStream q { s with pos := 0, eof := false, err := false })
  | _, _ => none

/-- `clearerr`. -/
def c_clearerr (S : Sys) (p : Ptr) : Option Sys :=
  match p, S.stream p with
  | some q, some s => some (S.setStream q { s with eof := false, err := false })
  | _, _ => none

/-- `fflush`: the null pointer means all streams. -/
def c_fflush (S : Sys) (p : Ptr) : Option Int :=
  match p with
  | none => some 0
  | some q => (S.stream (some q)).map (fun _ => 0)

/-- `remove`: the name disappears, open streams keep their file. -/
def c_remove (S : Sys) (name : String) : Int × Sys :=
  match S.names name with
  | none => (-1, S)
  | some _ => (0, { S with names := fun n => if n = name then none else S.names n })

end Verif.Files
