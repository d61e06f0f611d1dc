import Verif.Str.Tools

/-!
# The debugger: breakpoints, stepping, stored configurations

Model of `Projects/Core/Debugger/Debugger.cpp`, `Projects/Core/Debugger/BreakPoint.cpp`,
`Projects/Core/Debugger/Condition.cpp` and of the commands of `Projects/slang-dbg/LocalClient/LocalClient.cpp`
that read or change breakpoints.
-/

namespace Verif
namespace Debug

/-- `Condition::Type` without `Invalid` (`Condition.h`); a condition of type `Invalid` is no condition. -/
inductive Op where
  | equals | greater | greaterEqual | less | lessEqual | unequal
  deriving DecidableEq, Repr

/-- `Core::Condition`: the texts of both sides. -/
structure Condition where
  lhs : Str.Text
  op : Op
  rhs : Str.Text
  deriving DecidableEq, Repr

/-- `Core::BreakPoint`; `none` stands for an invalid condition. -/
structure BreakPoint where
  file : String
  line : Nat
  condition : Option Condition := none
  deriving DecidableEq, Repr

/-- `BreakPoint::operator<` (`BreakPoint.cpp:67-74`). -/
def BreakPoint.less (a b : BreakPoint) : Bool :=
  if a.file = b.file then decide (a.line < b.line) else decide (a.file < b.file)

/-! ## `std::set<BreakPoint>`

The elements in ascending order; an element is looked up as `std::set` does it, by the order alone. -/

/-- `std::set::find`. -/
def find (b : BreakPoint) : List BreakPoint → Option BreakPoint
  | [] => none
  | x :: xs => if x.less b then find b xs else if b.less x then none else some x

/-- `std::set::insert`: an equivalent element is kept. -/
def insert (b : BreakPoint) : List BreakPoint → List BreakPoint
  | [] => [b]
  | x :: xs => if x.less b then x :: insert b xs else if b.less x then b :: x :: xs else x :: xs

/-- `std::set::erase` of the element that `find` returns. -/
def erase (b : BreakPoint) : List BreakPoint → List BreakPoint
  | [] => []
  | x :: xs => if x.less b then x :: erase b xs else if b.less x then x :: xs else xs

/-- `IDebugger::NextAction` (`IDebugger.h:30-38`). -/
inductive Action where
  | none | stepInto | stepOut | stepOver | waitForBreakPoint
  deriving DecidableEq, Repr

/-- `Debugger`: breakpoints, next action, the flags for exceptions, and whether a receiver is registered. -/
structure Debugger where
  points : List BreakPoint := []
  action : Action := .waitForBreakPoint
  onCatch : Bool := false
  onThrow : Bool := false
  receiver : Bool := false
  deriving DecidableEq, Repr

/-- `Debugger::addBreakPoint` (`Debugger.cpp:30-41`). -/
def Debugger.addBreakPoint (d : Debugger) (b : BreakPoint) : Debugger :=
  match find b d.points with
  | some _ => { d with points := insert b (erase b d.points) }
  | .none => { d with points := insert b d.points }

/-- `Debugger::removeBreakPoint` (`Debugger.cpp:167-174`): `none` if the end of the set is erased, which is
undefined. -/
def Debugger.removeBreakPoint (d : Debugger) (b : BreakPoint) : Option Debugger :=
  match find b d.points with
  | some _ => some { d with points := erase b d.points }
  | .none => .none

/-- The commands of the interface `IDebugger`. -/
inductive Cmd where
  | add (b : BreakPoint)
  | remove (b : BreakPoint)
  | clear
  | go (a : Action)
  | register
  | unregister
  deriving DecidableEq, Repr

/-- One command (`Debugger.cpp:30-57, 153-213`); `go` stands for `resume`, `resumeWithoutBreaks`, `stepInto`,
`stepOut` and `stepOver` (176-199). -/
def Debugger.exec (d : Debugger) : Cmd → Option Debugger
  | .add b => some (d.addBreakPoint b)
  | .remove b => d.removeBreakPoint b
  | .clear => some { d with points := [] }
  | .go a => some { d with action := a }
  | .register => some { d with receiver := true }
  | .unregister => some { d with receiver := false }

def Debugger.run (d : Debugger) : List Cmd → Option Debugger
  | [] => some d
  | c :: cs =>
    match d.exec c with
    | some d' => d'.run cs
    | .none => .none

/-- `Debugger::notify` (`Debugger.cpp:97-125`): the breakpoint the receiver is told, if any. -/
def Debugger.notify (d : Debugger) (file : String) (line : Nat) : Option BreakPoint :=
  if !d.receiver || d.action = .none then .none
  else
    match d.action with
    | .stepOver => some ⟨file, line, .none⟩
    | .waitForBreakPoint => find ⟨file, line, .none⟩ d.points
    | _ => .none

/-- `notifyEnter` (`Debugger.cpp:127-132`). -/
def Debugger.notifyEnter (d : Debugger) : Bool := d.receiver && d.action = .stepInto

/-- `notifyExit` (`Debugger.cpp:148-153`). -/
def Debugger.notifyExit (d : Debugger) : Bool := d.receiver && d.action = .stepOut

/-- The condition of a breakpoint decides whether `LocalClient::notify` (`LocalClient.cpp:685-713`) stops; `holds`
is the value of the comparison (`Condition::evaluate`, `Condition.cpp:51-79`). -/
def stops (holds : Condition → Bool) (b : BreakPoint) : Bool :=
  match b.condition with
  | .none => true
  | some c => holds c

/-! ## Commands of `slang-dbg` -/

/-- `LocalClient::removeBreakPoint` (`LocalClient.cpp:943-966`): the breakpoint with the given number, counted from
one in the order of the list. -/
def Debugger.deleteNumber (d : Debugger) (idx : Int) : Option Debugger :=
  if 1 ≤ idx then
    match d.points[(idx - 1).toNat]? with
    | some b => d.removeBreakPoint b
    | .none => some d
  else some d

/-- `ConditionFromString` (`Condition.cpp:39-49`). -/
def opOf : Str.Text → Option Op
  | ['=', '='] => some .equals
  | ['>'] => some .greater
  | ['>', '='] => some .greaterEqual
  | ['<'] => some .less
  | ['<', '='] => some .lessEqual
  | ['!', '='] => some .unequal
  | _ => .none

/-- `Condition::toString` (`Condition.cpp:96-112`) without the blanks around. -/
def Op.text : Op → Str.Text
  | .equals => ['=', '=']
  | .greater => ['>']
  | .greaterEqual => ['>', '=']
  | .less => ['<']
  | .lessEqual => ['<', '=']
  | .unequal => ['!', '=']

/-- `BreakPoint::toConfigString` (`BreakPoint.cpp:47-55`). -/
def BreakPoint.toConfigString (b : BreakPoint) : Str.Text :=
  b.file.toList ++ ' ' :: Str.natDigits b.line ++
    (match b.condition with
    | .none => []
    | some c => ' ' :: (c.lhs ++ ' ' :: c.op.text ++ ' ' :: c.rhs))

/-- The loop of `LocalClient::parseCommands` (`LocalClient.cpp:744-773`). -/
def splitBlanks (token : Str.Text) : Str.Text → List Str.Text
  | [] => if token.isEmpty then [] else [token]
  | c :: cs =>
    if c = ' ' then
      if token.isEmpty then splitBlanks [] cs else token :: splitBlanks [] cs
    else splitBlanks (token ++ [c]) cs

/-- `LocalClient::parseCommands` (`LocalClient.cpp:744-773`). -/
def parseCommands (s : Str.Text) : List Str.Text := splitBlanks [] s

/-- `LocalClient::addBreakPoint` (`LocalClient.cpp:70-96`): the breakpoint of a command line.  `fullname` is
`Files::GetFullname`; the line is converted to an unsigned number of 32 bits. -/
def commandBreakPoint (fullname : Str.Text → String) : List Str.Text → Option BreakPoint
  | [_, file, line] => some ⟨fullname file, ((Str.stringToInt line) % 2 ^ 32).toNat, .none⟩
  | [_, file, line, l, o, r] => some ⟨fullname file, ((Str.stringToInt line) % 2 ^ 32).toNat, (opOf o).map fun o => ⟨l, o, r⟩⟩
  | _ => .none

/-- `LocalClient::saveConfig` (`LocalClient.cpp:1009-1015`): the texts of the breakpoints.
Simplification: the JSON file itself is left out. -/
def Debugger.saveConfig (d : Debugger) : List Str.Text := d.points.map BreakPoint.toConfigString

/-- One stored breakpoint (`LocalClient.cpp:627-632`). -/
def Debugger.loadOne (fullname : Str.Text → String) (d : Debugger) (t : Str.Text) : Debugger :=
  match commandBreakPoint fullname (parseCommands ("breakpoint ".toList ++ t)) with
  | some b => d.addBreakPoint b
  | .none => d

/-- `LocalClient::loadConfig` (`LocalClient.cpp:591, 625-634`). -/
def Debugger.loadConfig (d : Debugger) (fullname : Str.Text → String) (texts : List Str.Text) : Debugger :=
  texts.foldl (Debugger.loadOne fullname) { d with points := [] }

end Debug
end Verif
