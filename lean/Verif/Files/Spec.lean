import Verif.Files.Model

/-!
# What a script may expect of files

Separate specification: a script has open files, each with its own handle.  There are no
pointers, no table that keeps old entries, no loops; a function called with a handle that
is not open is an error.
-/

namespace Verif.Files

/-- The files of a script: the file system, the open files by handle, and the next handle. -/
structure Files where
  names : String → Option Nat
  data : Nat → List Byte
  files : Nat
  opened : Int → Option Stream
  next : Int

/-- At the start the handles 1, 2 and 3 are the standard streams. -/
def Files.start (names : String → Option Nat) (data : Nat → List Byte) (files : Nat) : Files :=
  { names := names, data := data, files := files, next := 4,
    opened := fun h =>
      if h = 1 then some { file := 0, pos := 0, eof := false, err := false, canRead := true, canWrite := false, atEnd := false }
      else if h = 2 then some { file := 1, pos := 0, eof := false, err := false, canRead := false, canWrite := true, atEnd := true }
      else if h = 3 then some { file := 2, pos := 0, eof := false, err := false, canRead := false, canWrite := true, atEnd := true }
      else none }

/-- The bytes behind the position of an open file. -/
def Files.rest (F : Files) (s : Stream) : List Byte := (F.data s.file).drop s.pos

/-- Change an open file. -/
def Files.update (F : Files) (h : Int) (s : Option Stream) : Files :=
  { F with opened := fun k => if k = h then s else F.opened k }

/-- Open a file under the next handle. -/
def Files.add (F : Files) (s : Stream) : Files :=
  { F with opened := fun k => if k = F.next then some s else F.opened k, next := F.next + 1 }

/-- Change the contents of a file. -/
def Files.write (F : Files) (f : Nat) (d : List Byte) : Files :=
  { F with data := fun g => if g = f then d else F.data g }

/-- Give a name to a new empty file. -/
def Files.create (F : Files) (name : String) : Files :=
  { F with
    names := fun n => if n = name then some F.files else F.names n
    data := fun g => if g = F.files then [] else F.data g
    files := F.files + 1 }

/-- Opening a file: the handle, or 0 if the file cannot be opened. -/
def Files.openAs (refused : String → Bool) (F : Files) (name mode : String) : Value × Files :=
  match parseMode mode.toList with
  | none => (.int 0, F)
  | some m =>
    if refused name then (.int 0, F)
    else match F.names name with
      | some f =>
        (.int F.next, (if m.truncate then F.write f [] else F).add (m.stream f))
      | none =>
        if m.create then (.int F.next, (F.create name).add (m.stream F.files))
        else (.int 0, F)

/-- The open file after reading the bytes `got`, of `n` asked for. -/
def Stream.advance (s : Stream) (got n : Nat) : Stream :=
  { s with pos := s.pos + got, eof := s.eof || decide (got < n) }

/-- Writing bytes to an open file. -/
def Files.put (F : Files) (h : Int) (s : Stream) (b : List Byte) : Files :=
  let i := if s.atEnd then (F.data s.file).length else s.pos
  (F.write s.file (overwrite (F.data s.file) i b)).update h (some { s with pos := i + b.length })

/-- A function on an open file; a handle that is not open is an error. -/
def Files.on (F : Files) (h : Int) (f : Stream → Out Value × Files) : Out Value × Files :=
  match F.opened h with
  | none => (.fail, F)
  | some s => f s

/-- Reading from a file that may not be read is an error. -/
def Files.reading (F : Files) (h : Int) (f : Stream → Out Value × Files) : Out Value × Files :=
  F.on h (fun s => if s.canRead then f s else (.fail, F.update h (some { s with err := true })))

/-- What every call should do. -/
def expect (refused : String → Bool) (F : Files) : Op → Out Value × Files
  | .fopen name mode => let (v, F') := F.openAs refused name mode; (.ok v, F')
  | .tmpfile =>
    (.ok (.int F.next),
      { F.add { file := F.files, pos := 0, eof := false, err := false, canRead := true, canWrite := true, atEnd := false } with
        data := fun g => if g = F.files then [] else F.data g
        files := F.files + 1 })
  | .fclose h => F.on h (fun _ => (.ok (.int 0), F.update h none))
  | .fgetc h => F.reading h (fun s =>
      match F.rest s with
      | b :: _ => (.ok (.str (toText b)), F.update h (some (s.advance 1 1)))
      | [] => (.ok (.str (toText (-1))), F.update h (some (s.advance 0 1))))
  | .fgets h n => F.reading h (fun s =>
      -- the next line, at most `n - 1` bytes
      let got := lineBytes (n.toNat - 1) (F.rest s)
      if n ≤ 0 then (.ok .nothing, F)
      else if n = 1 then (.ok (.str []), F)
      else
        let ran := decide (got.length < n.toNat - 1) && decide (got.getLast? ≠ some 10)
        (.ok (if got = [] then .nothing else .str got),
          F.update h (some { s with pos := s.pos + got.length, eof := s.eof || ran })))
  | .freads h n => F.reading h (fun s =>
      -- the next `n` bytes, all of them for `-1`
      if n = -1 then
        (.ok (.str (F.rest s)), F.update h (some { s with pos := s.pos + (F.rest s).length, eof := true }))
      else
        let got := (F.rest s).take n.toNat
        (.ok (.str got), F.update h (some (s.advance got.length n.toNat))))
  | .freadi h => F.reading h (fun s =>
      if (F.rest s).length < 4 then (.fail, F)
      else (.ok (.int (asInt32 (number ((F.rest s).take 4)))), F.update h (some (s.advance 4 4))))
  | .freadb h => F.reading h (fun s =>
      match F.rest s with
      | b :: _ => (.ok (.bool (decide (b ≠ 0))), F.update h (some (s.advance 1 1)))
      | [] => (.fail, F))
  | .fputs b h => F.on h (fun s =>
      if b = [] then (.ok (.int 1), F)
      else if s.canWrite then (.ok (.int 1), F.put h s b)
      else (.ok (.int (-1)), F.update h (some { s with err := true })))
  | .fwrites h b => F.on h (fun s =>
      if b = [] then (.ok (.int 1), F)
      else if s.canWrite then (.ok (.int 1), F.put h s b)
      else (.fail, F.update h (some { s with err := true })))
  | .fwritei h v => F.on h (fun s =>
      if s.canWrite then (.ok (.int 1), F.put h s (bytesOf 4 (bits32 v)))
      else (.ok (.int 0), F.update h (some { s with err := true })))
  | .fwriteb h v => F.on h (fun s =>
      if s.canWrite then (.ok (.int 1), F.put h s [if v then 1 else 0])
      else (.ok (.int 0), F.update h (some { s with err := true })))
  | .fputc c h => F.on h (fun s =>
      if s.canWrite then (.ok (.int (c % 256)), F.put h s [(c % 256).toNat])
      else (.ok (.int (-1)), F.update h (some { s with err := true })))
  | .fseek h offset origin => F.on h (fun s =>
      let base : Option Int :=
        if origin = 0 then some 0 else if origin = 1 then some s.pos
        else if origin = 2 then some (F.data s.file).length else none
      match base with
      | none => (.fail, F)
      | some o =>
        if o + offset < 0 then (.fail, F)
        else (.ok (.int 0), F.update h (some { s with pos := (o + offset).toNat, eof := false })))
  | .ftell h => F.on h (fun s => (.ok (.int s.pos), F))
  | .feof h => F.on h (fun s => (.ok (.int (if s.eof then 1 else 0)), F))
  | .ferror h => F.on h (fun s => (.ok (.int (if s.err then 1 else 0)), F))
  | .fflush h => F.on h (fun _ => (.ok (.int 0), F))
  | .rewind h => F.on h (fun s => (.ok .nothing, F.update h (some { s with pos := 0, eof := false, err := false })))
  | .clearerr h => F.on h (fun s => (.ok .nothing, F.update h (some { s with eof := false, err := false })))
  | .remove name => match F.names name with
    | none => (.ok (.int (-1)), F)
    | some _ => (.ok (.int 0), { F with names := fun n => if n = name then none else F.names n })

/-- A sequence of calls. -/
def expects (refused : String → Bool) : Files → List Op → List (Out Value) × Files
  | F, [] => ([], F)
  | F, o :: os =>
    let (r, F') := expect refused F o
    let (rs, F'') := expects refused F' os
    (r :: rs, F'')

/-- The handle a call uses. -/
def Op.handle : Op → Option Int
  | .fopen _ _ | .tmpfile | .remove _ => none
  | .fclose h | .fgetc h | .fgets h _ | .freads h _ | .freadi h | .freadb h | .fputs _ h
  | .fwrites h _ | .fwritei h _ | .fwriteb h _ | .fputc _ h | .fseek h _ _ | .ftell h | .feof h
  | .ferror h | .fflush h | .rewind h | .clearerr h => some h

/-- A handle the machine never gave out. -/
def Files.unknown (F : Files) (h : Int) : Prop := h < 0 ∨ F.next ≤ h

/-- A handle that was given out and is not open any more (0 is the handle of a file that
could not be opened). -/
def Files.stale (F : Files) (h : Int) : Prop := 0 ≤ h ∧ h < F.next ∧ F.opened h = none

/-- The calls for which the functions do what is expected: not with a stale handle; no
reading from a file that may not be read; no zero byte in text; lines of at most 1023
bytes are asked for; enough bytes are left for an `int`; only 0 or 1 for a `bool`. -/
def Careful (F : Files) (o : Op) : Prop :=
  (∀ h, o.handle = some h → ¬ F.stale h) ∧
  (match o with
   | .fgetc h => ∀ s, F.opened h = some s → s.canRead = true
   | .fgets h n => n ≤ 1024 ∧ ∀ s, F.opened h = some s → s.canRead = true ∧
       0 ∉ lineBytes (n.toNat - 1) (F.rest s)
   | .freads h _ => ∀ s, F.opened h = some s → s.canRead = true
   | .freadi h => ∀ s, F.opened h = some s → s.canRead = true ∧ 4 ≤ (F.rest s).length
   | .freadb h => ∀ s, F.opened h = some s → s.canRead = true ∧ ∃ b, (F.rest s).head? = some b ∧ b ≤ 1
   | .fputs b _ => 0 ∉ b
   | .fwrites _ b => 0 ∉ b
   | _ => True)

/-- Every call of a sequence is careful. -/
def AllCareful (refused : String → Bool) : Files → List Op → Prop
  | _, [] => True
  | F, o :: os => Careful F o ∧ AllCareful refused (expect refused F o).2 os

end Verif.Files
