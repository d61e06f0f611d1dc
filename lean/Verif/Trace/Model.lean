import Verif.Str.Tools

/-!
# The report of an uncaught exception (`Core/Runtime/Script.cpp`, `Core/VirtualMachine/Threads.cpp`, `StackFrame.cpp`)

The frames of a thread, what a thread remembers of an exception, and the text a script ends with if nothing catches the exception.  Methods are
reduced to what matters for these: calls, exceptions and their handlers.  Paths are relative to `/repo/Projects/Core/Core`.
-/

namespace Verif.Trace

open Verif.Str

/-- `Common::Position` (Common/Position.h): file, line and column. -/
structure Pos where
  file : Text
  line : Nat
  column : Nat
  deriving DecidableEq, Repr

/-- The position of an empty token. -/
def noPos : Pos := ⟨[], 0, 0⟩

/-- Numbers as `Utils::Tools::toString` and `operator<<` write them. -/
def numText (n : Nat) : Text := (toString n).toList

/-- `Position::toString` (Common/Position.cpp:41-57). -/
def Pos.text (p : Pos) : Text :=
  (if p.file ≠ [] then "file ".toList ++ p.file else []) ++
  (if p.line ≠ 0 then ", line ".toList ++ numText p.line ++ (if p.column ≠ 0 then ", column ".toList ++ numText p.column else []) else [])

/-- `Mutability::E` as it can occur for a parameter, with the text of `Mutability::convert` (Common/Attributes/Types.cpp:157-166). -/
inductive Mut where
  | const | modify | unknown
  deriving DecidableEq, Repr

/-- `Mutability::convert` (Common/Attributes/Types.cpp:157-166). -/
def Mut.text : Mut → Text
  | .const => "const".toList
  | .modify => "modify".toList
  | .unknown => "unknown".toList

/-- A parameter as `mergeParameters` gives it: `byReference` is its access mode, `default` its default value as a text. -/
structure Param where
  type : Text
  name : Text
  mut_ : Mut
  byReference : Bool
  default : Option Text
  deriving DecidableEq, Repr

/-- `AccessMode::convert` (Common/Attributes/Types.cpp:24-33). -/
def accessText (byReference : Bool) : Text := if byReference then "ref".toList else "default".toList

/-- `toString(const Parameter&)` (Common/Types.cpp:154-180). -/
def Param.text (p : Param) : Text :=
  (if p.type ≠ [] then p.type ++ " ".toList ++ p.name else " ".toList ++ "<anonymous>".toList) ++
  " ".toList ++ p.mut_.text ++ " ".toList ++ accessText p.byReference ++
  match p.default with
  | none => []
  | some v => " = ".toList ++ (if p.type = "string".toList then "\"".toList ++ v ++ "\"".toList else v)

/-- `toString(const ParameterList&)` (Common/Types.cpp:182-196). -/
def paramsText : List Param → Text
  | [] => []
  | [p] => p.text
  | p :: ps => p.text ++ ", ".toList ++ paramsText ps

/-- `StackFrame` (VirtualMachine/StackFrame.h): the level, the full name of the method and the parameters.  Scopes and tokens are left out. -/
structure Frame where
  level : Nat
  name : Text
  params : List Param
  deriving DecidableEq, Repr

/-- `StackFrame::toString` (VirtualMachine/StackFrame.cpp:87-104) of the frame of a method, whose scope is a named scope. -/
def Frame.text (f : Frame) : Text :=
  "Frame ".toList ++ numText f.level ++ ": ".toList ++ (f.name ++ "(".toList ++ paramsText f.params ++ ")".toList)

/-- A round of the loop of `Thread::stackTrace` (VirtualMachine/Threads.cpp:151-153). -/
def traceLine (thread : Nat) (f : Frame) : Text := "Thread ".toList ++ numText thread ++ ": ".toList ++ f.text ++ "\n".toList

/-- `Thread::stackTrace` (VirtualMachine/Threads.cpp:147-156): from the bottom of the stack to its top. -/
def stackTrace (thread : Nat) : List Frame → Text
  | [] => []
  | f :: fs => traceLine thread f ++ stackTrace thread fs

/-- `Runtime::ExceptionData` (Runtime/ExceptionData.h:18-40) with the value that is thrown. -/
structure Data (V : Type) where
  value : V
  pos : Pos
  trace : Text
  deriving DecidableEq, Repr

/-- A thread: its id, its frames, the bottom of the stack first, and the exception it remembers. -/
structure Thread (V : Type) where
  id : Nat
  frames : List Frame
  exc : Option (Data V)

/-- `Thread::pushFrame` (VirtualMachine/Threads.cpp:133-145). -/
def Thread.push {V : Type} (t : Thread V) (name : Text) (params : List Param) : Thread V :=
  { t with frames := t.frames ++ [⟨t.frames.length, name, params⟩] }

/-- `Thread::popFrame` (VirtualMachine/Threads.cpp:115-124). -/
def Thread.pop {V : Type} (t : Thread V) : Thread V := { t with frames := t.frames.dropLast }

/-- `Thread::exception( data, position )` (VirtualMachine/Threads.cpp:80-83). -/
def Thread.raise {V : Type} (t : Thread V) (v : V) (p : Pos) : Thread V := { t with exc := some ⟨v, p, stackTrace t.id t.frames⟩ }

mutual
/-- What a method does, as far as exceptions are concerned.  `fault`: an access that fails in the interpreter or an extension method that raises an
error (AST/TreeInterpreter.cpp:289-298, 309-317, 434-443).  A try statement without a final block has `skip`. -/
inductive Cmd (V T : Type) where
  | skip
  | throw (v : V) (p : Pos)
  | rethrow
  | fault (v : V)
  | call (name : Text) (params : List Param)
  | seq (a b : Cmd V T)
  | try_ (body : Cmd V T) (handlers : Handlers V T) (final : Cmd V T)
/-- `TryStatement::mCatchStatements`: the type of a handler is what `isInstanceOf` tests, `none` if there is no type. -/
inductive Handlers (V T : Type) where
  | nil
  | cons (type : Option T) (handler : Cmd V T) (rest : Handlers V T)
end

/-- `ControlFlow`, as far as it matters here. -/
inductive Flow where
  | normal | throw
  deriving DecidableEq, Repr

/-- The end of `visitTry` (AST/TreeInterpreter.cpp:1366-1381): the final block, then the flow in front of it unless the block ends otherwise. -/
def afterFinal {V : Type} (before : Flow) : Option (Flow × Thread V) → Option (Flow × Thread V)
  | none => none
  | some (.normal, t) => some (before, t)
  | some (.throw, t) => some (.throw, t)

/-- Whether a handler is for the exception (AST/TreeInterpreter.cpp:1334). -/
def handles {V T : Type} (is : V → T → Bool) : Option T → Option (Data V) → Bool
  | none, _ => true
  | some _, none => false
  | some ty, some d => is d.value ty

/-- The loop over the handlers (AST/TreeInterpreter.cpp:1332-1363): the first one for the exception. -/
def pick {V T : Type} (is : V → T → Bool) (exc : Option (Data V)) : Handlers V T → Option (Cmd V T)
  | .nil => none
  | .cons type handler rest => if handles is type exc then some handler else pick is exc rest

/-- Whether there are no handlers (AST/TreeInterpreter.cpp:1322-1325). -/
def Handlers.isNil {V T : Type} : Handlers V T → Bool
  | .nil => true
  | .cons _ _ _ => false

/-- Running it, with a bound on the depth: `visitThrow` (AST/TreeInterpreter.cpp:1298-1313), `visitTry` (1315-1382), `visitStatements` (`seq`), and `execute`, `initialize` and `finalize` (571-623, 686-715) for a
call.  `is` is `isInstanceOf` (`false` for null). -/
def run {V T : Type} (is : V → T → Bool) (methods : Text → Option (Cmd V T)) : Nat → Thread V → Cmd V T → Option (Flow × Thread V)
  | 0, _, _ => none
  | _ + 1, t, .skip => some (.normal, t)
  | _ + 1, t, .throw v p => some (.throw, t.raise v p)
  | _ + 1, t, .rethrow => some (.throw, t)
  | _ + 1, t, .fault v => some (.throw, { t with exc := some ⟨v, noPos, []⟩ })
  | fuel + 1, t, .call name params =>
    match methods name with
    | none => none
    | some body =>
      match run is methods fuel (t.push name params) body with
      | none => none
      | some (flow, t') => some (flow, t'.pop)
  | fuel + 1, t, .seq a b =>
    match run is methods fuel t a with
    | none => none
    | some (.throw, t') => some (.throw, t')
    | some (.normal, t') => run is methods fuel t' b
  | fuel + 1, t, .try_ body handlers final =>
    match run is methods fuel t body with
    | none => none
    | some (.normal, t') => afterFinal .normal (run is methods fuel t' final)
    | some (.throw, t') =>
      match pick is t'.exc handlers with
      | some handler =>
        match run is methods fuel t' handler with
        | none => none
        | some (flow, t'') => afterFinal flow (run is methods fuel t'' final)
      | none => afterFinal (if handlers.isNil then .normal else .throw) (run is methods fuel t' final)

/-- The text of the exception a script ends with (Runtime/Script.cpp:55-66): `Script::execute` of a method in a new thread; `none` if the method
ends without one. -/
def report {V T : Type} (show_ : V → Text) (is : V → T → Bool) (methods : Text → Option (Cmd V T)) (fuel : Nat) (id : Nat) (name : Text)
    (params : List Param) : Option (Option Text) :=
  match run is methods fuel ⟨id, [], none⟩ (.call name params) with
  | none => none
  | some (.normal, _) => some none
  | some (.throw, t) =>
    match t.exc with
    | none => none
    | some d => some (some ("Exception raised in ".toList ++ d.pos.text ++ ":\n".toList ++ (show_ d.value ++ "\n".toList) ++ d.trace))

end Verif.Trace
