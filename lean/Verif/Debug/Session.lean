import Verif.Debug.Model
import Verif.Str.Lemmas

/-!
# A session with the debugger

Model of `Projects/slang-dbg/LocalClient/LocalClient.cpp`: what the commands do while a program is stopped, and when it is
stopped.  The program that is debugged is whatever it is at each stop: it is given anew with every event.

Left out: `execute` (runs methods of the program while it is stopped), `thread` (other threads), `load` (see `Verif.Debug.Model`)
and starting the program (`run` outside of a stop); for these the model has no answer.  What is printed is modelled for `print`
and for watches only.
-/

namespace Verif
namespace Debug

open Str (Text)

/-- `Runtime::AtomicValue`; `other` stands for floating point numbers and references. -/
inductive Value where
  | int (i : Int)
  | bool (b : Bool)
  | text (t : Text)
  | other (n : Nat)
  deriving DecidableEq, Repr

/-- What a name stands for: an object, or a symbol of another kind (a class, a namespace …). -/
inductive Sym where
  | object (id : Nat)
  | other
  deriving DecidableEq, Repr

/-- The stopped program.  `frames`: the scopes of the stack frames of the current thread, the oldest first
(`Threads.cpp:85-105`).  `resolve`: `IScope::resolve` with `Visibility::Private`; the scope of an object is its identifier
in `inside`. -/
structure Program where
  frames : List Nat
  resolve : Nat → Text → Option Sym
  inside : Nat → Nat
  value : Nat → Value
  atomic : Nat → Bool

/-- `LocalClient::getSymbol` (`LocalClient.cpp:519-543`) from a scope; the fuel is the number of characters. -/
def symbolFrom (p : Program) : Nat → Nat → Text → Option Sym
  | 0, scope, name => p.resolve scope (Str.split name).1
  | fuel + 1, scope, name =>
    let (parent, child) := Str.split name
    if !parent.isEmpty && !child.isEmpty then
      match p.resolve scope parent with
      | some (.object id) => symbolFrom p fuel (p.inside id) child
      | _ => none                                               -- the cast fails: no scope
    else p.resolve scope parent

/-- `LocalClient::getSymbol` (`LocalClient.cpp:519-543`). -/
def getSymbol (p : Program) (scope : Option Nat) (name : Text) : Option Sym :=
  match scope with
  | none => none
  | some s => symbolFrom p name.length s name

/-- The members of `LocalClient` (`LocalClient.cpp:51-61`, `LocalClient.h`). `watches` is a `std::set`, `cache` is
`mSymbolCollection`. -/
structure Client where
  debugger : Debugger := {}
  scope : Option Nat := none
  cont : Bool := false
  running : Bool := true
  frame : Nat := 0
  watches : List Text := []
  cache : List (Text × Value) := []
  autoWatch : Bool := false

/-- What is printed for a symbol. -/
inductive Shown where
  | unresolved
  | value (v : Value)
  | other
  deriving DecidableEq, Repr

/-- A line of output: the answer to `print`, or a watch. -/
inductive Out where
  | print (s : Shown)
  | watch (name : Text) (s : Shown)
  deriving DecidableEq, Repr

def shown (p : Program) : Option Sym → Shown
  | none => .unresolved
  | some (.object id) => .value (p.value id)
  | some .other => .other

/-- `LocalClient::refreshWatches` (`LocalClient.cpp:929-941`). -/
def refreshWatches (p : Program) (c : Client) : List Out :=
  c.watches.map fun w => .watch w (shown p (getSymbol p c.scope w))

/-- `std::set<Watch>::insert` with `Watch::operator<` (`Watch.cpp`). -/
def insertWatch (w : Text) : List Text → List Text
  | [] => [w]
  | x :: xs => if x < w then x :: insertWatch w xs else if w < x then w :: x :: xs else x :: xs

/-- `LocalClient::setCurrentFrame` (`LocalClient.cpp:1038-1060`). -/
def setCurrentFrame (p : Program) (c : Client) (id : Nat) : Client × List Out :=
  match p.frames[id]? with
  | none => (c, [])
  | some s =>
    let c' := { c with frame := id, scope := some s }
    (c', if c'.autoWatch then refreshWatches p c' else [])

/-- `LocalClient::frameDown` (`LocalClient.cpp:383-395`). -/
def frameDown (p : Program) (c : Client) : Client × List Out :=
  if c.frame ≥ p.frames.length then (c, [])
  else setCurrentFrame p { c with frame := c.frame + 1 } (c.frame + 1)

/-- `LocalClient::frameUp` (`LocalClient.cpp:397-409`). -/
def frameUp (p : Program) (c : Client) : Client × List Out :=
  if c.frame ≤ 0 then (c, [])
  else setCurrentFrame p { c with frame := c.frame - 1 } (c.frame - 1)

/-- `LocalClient::modifySymbol` (`LocalClient.cpp:649-683`) with the name and the new value: the value becomes this text. -/
def modifySymbol (p : Program) (c : Client) (name new : Text) : Program :=
  match getSymbol p c.scope name with
  | some (.object id) =>
    if p.atomic id then { p with value := fun i => if i = id then .text new else p.value i } else p
  | _ => p

/-- The commands. -/
inductive Verb where
  | autolist | autostart | autostop | autowatch | backtrace | brk | breakpoints | cont | delete | down | execute | frame | help
  | ignore | into | list | load | modify | next | out | print | quit | run | store | thread | threads | unwatch | up | watch | watches
  deriving DecidableEq, Repr

/-- The words of `LocalClient::executeCommand` (`LocalClient.cpp:213-320`), in the order they are compared. -/
def verbs : List (String × Verb) :=
  [("autolist", .autolist), ("autostart", .autostart), ("autostop", .autostop), ("autowatch", .autowatch),
   ("backtrace", .backtrace), ("bt", .backtrace), ("break", .brk), ("b", .brk), ("breakpoints", .breakpoints),
   ("continue", .cont), ("c", .cont), ("delete", .delete), ("d", .delete), ("down", .down), ("execute", .execute),
   ("e", .execute), ("frame", .frame), ("f", .frame), ("help", .help), ("ignore", .ignore), ("into", .into), ("i", .into),
   ("list", .list), ("l", .list), ("load", .load), ("modify", .modify), ("m", .modify), ("next", .next), ("n", .next),
   ("out", .out), ("o", .out), ("print", .print), ("p", .print), ("quit", .quit), ("q", .quit), ("run", .run), ("r", .run),
   ("store", .store), ("thread", .thread), ("t", .thread), ("threads", .threads), ("unwatch", .unwatch), ("up", .up),
   ("watch", .watch), ("w", .watch), ("watches", .watches)]

def verbOf (word : Text) : Option Verb := verbs.lookup (String.ofList word)

/-- What the session is after a command: the program, the client, and what was printed. -/
structure Result where
  program : Program
  client : Client
  out : List Out := []

/-- `mDebugger->…; continueExecution();` -/
def resume (p : Program) (c : Client) (a : Action) : Result :=
  { program := p, client := { c with debugger := { c.debugger with action := a }, cont := true } }

/-- `LocalClient::executeCommand` (`LocalClient.cpp:206-325`) while the program is stopped; `none`: left out of the model.
`quit` throws out of the loop that reads commands. -/
def exec (fullname : Text → String) (p : Program) (c : Client) (tokens : List Text) : Option Result :=
  match tokens with
  | [] => some ⟨p, c, []⟩
  | word :: args =>
    match verbOf word with
    | none => some ⟨p, c, []⟩
    | some .autowatch => some ⟨p, { c with autoWatch := !c.autoWatch }, []⟩
    | some .brk =>
      match commandBreakPoint fullname tokens with
      | some b => some ⟨p, { c with debugger := c.debugger.addBreakPoint b }, []⟩
      | none => some ⟨p, c, []⟩
    | some .cont => some (resume p c .waitForBreakPoint)
    | some .delete =>
      match args with
      | [n] => (c.debugger.deleteNumber (Str.stringToInt n)).map fun d => ⟨p, { c with debugger := d }, []⟩
      | _ => some ⟨p, c, []⟩
    | some .down => let (c', o) := frameDown p c; some ⟨p, c', o⟩
    | some .frame =>
      match args with
      | [n] => let (c', o) := setCurrentFrame p c ((Str.stringToInt n) % 2 ^ 32).toNat; some ⟨p, c', o⟩
      | _ => some ⟨p, c, []⟩
    | some .ignore => some (resume p c .none)
    | some .into => some (resume p c .stepInto)
    | some .modify =>
      match args with
      | [name, new] => some ⟨modifySymbol p c name new, c, []⟩
      | _ => some ⟨p, c, []⟩
    | some .next => some (resume p c .stepOver)
    | some .out => some (resume p c .stepOut)
    | some .print => some ⟨p, c, [.print (shown p (getSymbol p c.scope (args.headD [])))]⟩
    | some .quit => some ⟨p, { c with running := false }, []⟩
    | some .run => if c.scope.isSome then some (resume p c .waitForBreakPoint) else none
    | some .unwatch =>
      match args with
      | [n] => some ⟨p, { c with watches := c.watches.erase n }, []⟩
      | _ => some ⟨p, c, []⟩
    | some .up => let (c', o) := frameUp p c; some ⟨p, c', o⟩
    | some .watch =>
      match args with
      | [n] => some ⟨p, { c with watches := insertWatch n c.watches }, []⟩
      | _ => some ⟨p, c, []⟩
    | some .watches => some ⟨p, c, refreshWatches p c⟩
    | some .execute | some .thread | some .load => none
    -- these only print, change settings that are left out or write a file
    | some .autolist | some .autostart | some .autostop | some .backtrace | some .breakpoints | some .help | some .list
    | some .store | some .threads => some ⟨p, c, []⟩

/-- The commands entered at one stop, as long as they are read (`LocalClient.cpp:562-572`). -/
def enter (fullname : Text → String) (p : Program) (c : Client) : List Text → Option Result
  | [] => some ⟨p, c, []⟩
  | line :: lines =>
    if c.running && !c.cont then
      match exec fullname p c (parseCommands line) with
      | some r =>
        match enter fullname r.program r.client lines with
        | some r' => some ⟨r'.program, r'.client, r.out ++ r'.out⟩
        | none => none
      | none => none
    else none

/-- The beginning of `LocalClient::handleBreakpoint` (`LocalClient.cpp:545-560`). -/
def arrive (p : Program) (c : Client) (scope : Nat) : Client × List Out :=
  let c' := { c with cont := false, scope := some scope }
  (c', if c'.autoWatch then refreshWatches p c' else [])

/-- `LocalClient::handleBreakpoint` (`LocalClient.cpp:545-577`) with the lines that are entered; `none`: the program is still
stopped after them. -/
def handle (fullname : Text → String) (p : Program) (c : Client) (scope : Nat) (lines : List Text) : Option Result :=
  match enter fullname p (arrive p c scope).1 lines with
  | some r =>
    if r.client.running && !r.client.cont then none
    else some ⟨r.program, { r.client with scope := none }, (arrive p c scope).2 ++ r.out⟩
  | none => none

/-- One side of a condition: what the name stands for, or else the literal (`LocalClient.cpp:691-704`, `addLiteralSymbol`
98-143, `getCachedSymbol` 411-420).  `literal`: the value of a text that is a literal. -/
def side (literal : Text → Option Value) (p : Program) (c : Client) (t : Text) : Client × Option Sym × Option Value :=
  match getSymbol p c.scope t with
  | some s => (c, some s, none)
  | none =>
    if t.isEmpty then (c, none, none)
    else
      match c.cache.lookup t with
      | some v => (c, none, some v)
      | none =>
        match literal t with
        | some v => ({ c with cache := (t, v) :: c.cache }, none, some v)
        | none => (c, none, none)

/-- The value compared, if the side is an object; `some none` is a symbol that is none (`Condition.cpp:53-59`). -/
def sideValue (p : Program) : Option Sym × Option Value → Option (Option Value)
  | (some (.object id), _) => some (some (p.value id))
  | (some .other, _) => some none
  | (none, some v) => some (some v)
  | (none, none) => none

/-- `Condition::evaluate` (`Condition.cpp:51-79`); `none`: a null pointer is used. -/
def evaluate (compare : Op → Value → Value → Bool) (op : Op) (l r : Option (Option Value)) : Option Bool :=
  match l, r with
  | none, _ => some true
  | _, none => some true
  | some (some a), some (some b) => some (compare op a b)
  | _, _ => none

/-- What `LocalClient::notify` does before it reads commands (`LocalClient.cpp:685-710`): the client, and whether it stops. -/
def asks (literal : Text → Option Value) (compare : Op → Value → Value → Bool) (p : Program) (c : Client) (b : BreakPoint) :
    Option (Client × Bool) :=
  match b.condition with
  | none => some (c, true)
  | some k =>
    let (c1, l) := side literal p c k.lhs
    let (c2, r) := side literal p c1 k.rhs
    match evaluate compare k.op (sideValue p l) (sideValue p r) with
    | some true => some (c2, true)
    | some false => some ({ c2 with cont := true }, false)
    | none => none

/-- Something the debugger tells the client (`IReceiver`): a line with a breakpoint, or entering or leaving a method or an exception, which
have no condition. -/
inductive Event where
  | line (b : BreakPoint) (scope : Nat)
  | other (scope : Nat)

/-- `LocalClient::notify`, `notifyEnter`, `notifyExit`, `notifyExceptionThrow`, `notifyExceptionCatch` (`LocalClient.cpp:685-741`). -/
def event (fullname : Text → String) (literal : Text → Option Value) (compare : Op → Value → Value → Bool)
    (p : Program) (c : Client) (lines : List Text) : Event → Option Result
  | .line b scope =>
    match asks literal compare p c b with
    | some (c', true) => handle fullname p c' scope lines
    | some (c', false) => some ⟨p, c', []⟩
    | none => none
  | .other scope => handle fullname p c scope lines

/-- The client while the program runs, after any events: the program is a different one at every event. -/
inductive Runs (fullname : Text → String) (literal : Text → Option Value) (compare : Op → Value → Value → Bool) : Client → Prop
  | start {d : Debugger} {a : Bool} : Runs fullname literal compare { debugger := d, autoWatch := a }
  | event {c : Client} {p : Program} {lines : List Text} {e : Event} {r : Result} :
      Runs fullname literal compare c → event fullname literal compare p c lines e = some r → r.client.running = true →
      Runs fullname literal compare r.client

end Debug
end Verif
