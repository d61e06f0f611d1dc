/-
Values sent over a connection: the functions `writeb`, `writei`, `writef`, `writed`, `writes`
and `readb`, `readi`, `readf`, `readd`, `reads` of the network extension, and the classes
`ClientSocket` and `ServerSocket` of the library that use them.

The operating system is a parameter.  A connection is a first-in first-out line of bytes; how
many bytes one call of `read` or `write` moves, and whether it fails, is not up to the program, so
every call consults an arbitrary oracle (`Answer`).
-/

namespace Verif.Net

/-- A byte of the connection. -/
abbrev Byte := Fin 256

/-- What the operating system decides about one call of `read(2)` or `write(2)`: it fails
(result −1), or it moves at most `more + 1` bytes.  A call on a blocking handle that asks for at
least one byte moves at least one, unless the other side has ended and nothing is left. -/
inductive Answer where
  | error
  | upTo (more : Nat)
  deriving DecidableEq, Repr

/-- One direction of a connection as one program sees it: the decisions of the operating system,
the number of calls made so far, and the bytes that are under way.  For a reader `wire` are all
bytes the other side will ever have sent; a byte that has not arrived yet shows in the answers (the
call moves fewer bytes), not in the wire. -/
structure Line where
  answers : Nat → Answer
  calls : Nat
  wire : List Byte

/-- `read(handle, &value, n)`.  Models the calls in
Projects/Extensions/System/Network/Read.h:44, 78, 112, 146, 185.  `none` is the result −1; an
empty list is the result 0 (the other side has ended). -/
def sysRead (n : Nat) (s : Line) : Option (List Byte) × Line :=
  match s.answers s.calls with
  | .error => (none, { s with calls := s.calls + 1 })
  | .upTo k =>
    (some (s.wire.take (min n (k + 1))),
      { s with calls := s.calls + 1, wire := s.wire.drop (min n (k + 1)) })

/-- `write(handle, &value, n)`.  Models the calls in
Projects/Extensions/System/Network/Write.h:45, 80, 115, 150, 188.  `none` is the result −1,
otherwise the number of bytes taken. -/
def sysWrite (bytes : List Byte) (s : Line) : Option Nat × Line :=
  match s.answers s.calls with
  | .error => (none, { s with calls := s.calls + 1 })
  | .upTo k =>
    (some (min bytes.length (k + 1)),
      { s with calls := s.calls + 1, wire := s.wire ++ bytes.take (k + 1) })

/-- The `n` bytes in which a number lies in memory, lowest first (the machines the program is
built for are little-endian). -/
def stored : Nat → Nat → List Byte
  | 0, _ => []
  | n + 1, v => ⟨v % 256, Nat.mod_lt _ (by decide)⟩ :: stored n (v / 256)

/-- The number that lies in memory in the given bytes. -/
def loaded : List Byte → Nat
  | [] => 0
  | b :: bs => b.val + 256 * loaded bs

/-- Values a script can send.  A `float` or `double` is given by its bit pattern: the functions
only move its bytes. -/
inductive Val where
  | bool (b : Bool)
  | int (i : Int)
  | float (bits : Nat)
  | double (bits : Nat)
  | text (t : List Byte)
  deriving DecidableEq, Repr

/-- What one call of a `write…` function results in: the number handed to the script, or a runtime
exception. -/
inductive Sent where
  | count (n : Nat)
  | raises
  deriving DecidableEq, Repr

/-- `WriteBool`, `WriteDouble`, `WriteFloat`, `WriteInt`: one call of `write` with the memory of
the value.  Models Projects/Extensions/System/Network/Write.h:35-53, 70-88, 105-123, 140-158. -/
def writeOnce (bytes : List Byte) (s : Line) : Sent × Line :=
  match sysWrite bytes s with
  | (none, s) => (.raises, s)
  | (some size, s) => (.count size, s)

/-- The loop of `WriteString`: one call per character; `size` is the result of the last call.
Models Projects/Extensions/System/Network/Write.h:187-196. -/
def writeLoop : List Byte → Nat → Line → Sent × Line
  | [], size, s => (.count size, s)
  | c :: cs, _, s =>
    match sysWrite [c] s with
    | (none, s) => (.raises, s)
    | (some size, s) => writeLoop cs size s

/-- The 4 bytes of an `int`: two's complement. -/
def intBytes (i : Int) : List Byte := stored 4 (i % 4294967296).toNat

/-- The `int` that lies in 4 bytes. -/
def intOf (bytes : List Byte) : Int :=
  let v := loaded bytes
  if v < 2147483648 then (v : Int) else (v : Int) - 4294967296

/-- The function a script calls to send a value.  Models
Projects/Extensions/System/Network/Write.h (all five classes). -/
def write (v : Val) (s : Line) : Sent × Line :=
  match v with
  | .bool b => writeOnce [if b then 1 else 0] s
  | .int i => writeOnce (intBytes i) s
  | .float bits => writeOnce (stored 4 bits) s
  | .double bits => writeOnce (stored 8 bits) s
  | .text t => writeLoop t 0 s

/-- Which function a script calls to receive a value; `text n` is `reads(handle, n)`. -/
inductive Kind where
  | bool
  | int
  | float
  | double
  | text (length : Int)
  deriving DecidableEq, Repr

/-- What one call of a `read…` function results in. -/
inductive Got where
  /-- a value for the script -/
  | value (v : Val)
  /-- a runtime exception -/
  | raises
  /-- the function ends with `ControlFlow::Throw`, but no exception object was stored -/
  | throwsNothing
  /-- a `bool` whose byte is neither 0 nor 1: undefined behaviour of C++ -/
  | undefined
  deriving DecidableEq, Repr

/-- The memory of a variable of `n` bytes that was zero, after `got` was read into it. -/
def overlay (n : Nat) (got : List Byte) : List Byte :=
  got ++ List.replicate (n - got.length) 0

/-- The loop of `ReadString`: one call per character until `length` characters are read or the
other side has ended; a length of −1 is never counted down.  Models
Projects/Extensions/System/Network/Read.h:182-202.  The first argument bounds the number of
rounds; `receive` gives one more than there are bytes, which is never used up
(`Verif.Net.readLoop_text`). -/
def readLoop : Nat → Int → List Byte → Line → Got × Line
  | 0, _, _, s => (.undefined, s)
  | fuel + 1, length, value, s =>
    if length > 0 ∨ length = -1 then
      match sysRead 1 s with
      | (none, s) => (.throwsNothing, s)
      | (some [], s) => (.value (.text value), s)
      | (some (c :: _), s) =>
        readLoop fuel (if length > 0 then length - 1 else length) (value ++ [c]) s
    else (.value (.text value), s)

/-- `ReadBool`, `ReadInt`, `ReadFloat`, `ReadDouble`: one call of `read` into a variable that is
zero; only the result −1 is looked at.  Models
Projects/Extensions/System/Network/Read.h:34-52, 68-86, 102-120, 136-154. -/
def readOnce (n : Nat) (make : List Byte → Got) (s : Line) : Got × Line :=
  match sysRead n s with
  | (none, s) => (.raises, s)
  | (some got, s) => (make (overlay n got), s)

/-- The `bool` that lies in one byte. -/
def boolOf : List Byte → Got
  | [b] => if b.val = 0 then .value (.bool false)
           else if b.val = 1 then .value (.bool true) else .undefined
  | _ => .undefined

/-- The function a script calls to receive a value.  Models
Projects/Extensions/System/Network/Read.h (all five classes). -/
def read (k : Kind) (s : Line) : Got × Line :=
  match k with
  | .bool => readOnce 1 boolOf s
  | .int => readOnce 4 (fun bs => .value (.int (intOf bs))) s
  | .float => readOnce 4 (fun bs => .value (.float (loaded bs))) s
  | .double => readOnce 8 (fun bs => .value (.double (loaded bs))) s
  | .text length => readLoop (s.wire.length + 1) length [] s

/-- A script sends values one after the other. -/
def sendAll : List Val → Line → List Sent × Line
  | [], s => ([], s)
  | v :: vs, s =>
    let r := write v s
    let r' := sendAll vs r.2
    (r.1 :: r'.1, r'.2)

/-- A script receives values one after the other. -/
def receiveAll : List Kind → Line → List Got × Line
  | [], s => ([], s)
  | k :: ks, s =>
    let r := read k s
    let r' := receiveAll ks r.2
    (r.1 :: r'.1, r'.2)

/-! ### The socket classes -/

/-- A `ClientSocket` that was constructed with an endpoint: the flag `mIsConnected`, and, as the
operating system sees it, whether the handle `mSocket` is still open.  Models
Projects/Library/System/Network/ClientSocket.os:106-108. -/
structure Client where
  connected : Bool
  isOpen : Bool
  deriving DecidableEq, Repr

/-- What a script does with a `ClientSocket`.  `connect ok`: the peer would take the connection
or not. -/
inductive Act where
  | connect (ok : Bool)
  | close
  | write (v : Val)
  deriving DecidableEq, Repr

/-- What a script sees of one call. -/
inductive Told where
  | yes
  | no
  /-- a call without a result ended normally -/
  | done
  /-- `throw new Exception("not connected")` -/
  | notConnected
  deriving DecidableEq, Repr

/-- What reaches the operating system in one call. -/
inductive Sys where
  | connects
  | closes
  | writes (v : Val)
  deriving DecidableEq, Repr

/-- After the constructor: `Init` has made the handle.  Models
Projects/Library/System/Network/ClientSocket.os:9-19, 54-60 (a handle was available). -/
def Client.new : Client := { connected := false, isOpen := true }

/-- One call of a method of `ClientSocket`.  `connect(2)` on a closed handle fails.  Models
Projects/Library/System/Network/ClientSocket.os:25-48, 66-104. -/
def Client.step (c : Client) : Act → Told × List Sys × Client
  | .connect ok =>
    let r := ok && c.isOpen
    (if r then .yes else .no, [.connects], { c with connected := r })
  | .close =>
    if c.connected then (.done, [.closes], { connected := false, isOpen := false })
    else (.done, [], c)
  | .write v =>
    if c.connected then (.done, [.writes v], c) else (.notConnected, [], c)

/-- A history of calls: what the script was told, and what reached the operating system. -/
def Client.run (c : Client) : List Act → List Told × List Sys × Client
  | [] => ([], [], c)
  | a :: as =>
    let r := c.step a
    let r' := r.2.2.run as
    (r.1 :: r'.1, r.2.1 ++ r'.2.1, r'.2.2)

/-- `ServerSocket::Bind()` with an endpoint: `bind(...) > 0`, where `bound` tells whether the
operating system has bound the handle: `bind(2)` gives 0 then and −1 otherwise.  Models
Projects/Library/System/Network/ServerSocket.os:72-78 and
Projects/Extensions/System/Network/Bind.h:45-58, 106. -/
def serverBind (bound : Bool) : Bool :=
  let result : Int := if bound then 0 else -1
  decide (result > 0)

end Verif.Net
