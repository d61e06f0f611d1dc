import Verif.Text.Props

/-!
# The command line of `slang` and the arguments of a script

Models `processParameters` and the decisions of `main` in `Projects/slang/main.cpp`, and the
class `ParameterHandler` of `Projects/Library/libParam/ParameterHandler.os`, with which scripts
read their arguments.
-/

namespace Verif.Args

open Verif.Str

/-! ## `slang` -/

/-- The options `processParameters` compares with (`main.cpp:96-141`). -/
inductive Word where
  | debug | file | help | library | quiet | skipSanity | spec | «syntax» | tokens | verbose | version | other
  deriving DecidableEq, Repr

/-- The comparisons (`main.cpp:96, 99, 113, 116, 125, 130, 133, 140, 143, 146, 152`). -/
def optionWords : List (Text × Word) :=
  [("--debug".toList, .debug), ("-f".toList, .file), ("--file".toList, .file), ("-h".toList, .help),
   ("--help".toList, .help), ("-l".toList, .library), ("--library".toList, .library), ("-q".toList, .quiet),
   ("--quiet".toList, .quiet), ("--skip-sanitycheck".toList, .skipSanity), ("--spec".toList, .spec),
   ("--syntax".toList, .«syntax»), ("--tokens".toList, .tokens), ("-v".toList, .verbose),
   ("--verbose".toList, .verbose), ("--version".toList, .version)]

/-- The branch taken for an argument. -/
def word (a : Text) : Word := (optionWords.lookup a).getD .other

/-- The variables `processParameters` sets (`main.cpp:46-57, 89-92`).  The set of library folders
is a list here, in the order in which they are inserted; its order is the subject of C51.
`loudness` is that of the logger: 0 mute, 1 as it was, 2 informative. -/
structure State where
  filename : Text := []
  libraries : List Text := []
  debug : Bool := false
  printSpec : Bool := false
  printTokens : Bool := false
  printUsage : Bool := false
  printVersion : Bool := false
  requestedSpec : Text := []
  sanityCheck : Bool := true
  syntaxCheck : Bool := false
  loudness : Nat := 1
  params : List Text := []
  paramStr : Text := []
  scriptParams : Bool := false
  deriving DecidableEq, Repr

/-- The file name is found (`main.cpp:106-111, 156-161`). -/
def setFile (s : State) (f : Text) : State :=
  { s with
    filename := f
    params := s.params ++ [f]
    paramStr := s.paramStr ++ f
    scriptParams := true }

/-- The loop of `processParameters` (`main.cpp:94-168`); `none`: `exit( -1 )`. -/
def loop (s : State) : List Text → Option State
  | [] => some s
  | a :: rest =>
    if s.scriptParams then
      loop { s with params := s.params ++ [a], paramStr := s.paramStr ++ '\n' :: a } rest
    else match word a with
      | .debug => loop { s with debug := true } rest
      | .file => match rest with
        | [] => none
        | f :: rest' => loop (setFile s f) rest'
      | .help => loop { s with printUsage := true } rest
      | .library => match rest with
        | [] => none
        | d :: rest' => loop { s with libraries := s.libraries ++ [d] } rest'
      | .quiet => loop { s with loudness := 0 } rest
      | .skipSanity => loop { s with sanityCheck := false } rest
      | .spec => match rest with
        | [] => loop { s with printSpec := true } []
        | q :: rest' => loop { s with printSpec := true, requestedSpec := q } rest'
      | .«syntax» => loop { s with syntaxCheck := true } rest
      | .tokens => loop { s with printTokens := true } rest
      | .verbose => loop { s with loudness := 2 } rest
      | .version => loop { s with printVersion := true } rest
      | .other => if s.filename.isEmpty then loop (setFile s a) rest else loop s rest

/-- `processParameters` (`main.cpp:87-172`); the arguments without the name of the program.  The
script gets the number of the parameters and their text. -/
def processParameters (args : List Text) : Option State := loop {} args

/-- The first parameter of `Main` (`main.cpp:170`). -/
def State.argc (s : State) : Int := toInt32 s.params.length

/-- What `main` does (`main.cpp:204-247`). -/
inductive Action where
  | debugInfo | specification (query : Text) | version | usage | tokens | syntaxCheck | run (file : Text) (argc : Int) (args : Text)
  deriving DecidableEq, Repr

/-- The decisions of `main` (`main.cpp:204-247`). -/
def action (s : State) : Action :=
  if s.debug then .debugInfo
  else if s.printSpec then .specification s.requestedSpec
  else if s.printVersion then .version
  else if s.printUsage || s.filename.isEmpty then .usage
  else if s.printTokens then .tokens
  else if s.syntaxCheck then .syntaxCheck
  else .run s.filename s.argc s.paramStr

/-- The loop of `VirtualMachine::init` over `SLANG_LIBRARY`
(`Projects/Core/Core/VirtualMachine/VirtualMachine.cpp:249-262`), with the test of
`addLibraryFolder` (130-134): the folders that are added; `none`: the rounds do not suffice. -/
def envFolders : Nat → Text → Option (List Text)
  | 0, _ => none
  | fuel + 1, path =>
    if path.isEmpty then some []
    else
      let (left, right) := splitBy path ':'
      match envFolders fuel right with
      | some fs => some (if left.isEmpty then fs else left :: fs)
      | none => none

/-! ## `ParameterHandler` -/

/-- `Parameter` (`ParameterHandler.os:8-16`). -/
structure Param where
  key : Text
  value : Text
  deriving DecidableEq, Repr

/-- `insertParameter` (`ParameterHandler.os:172-183`): the parameter that is inserted.  `substr` with
start 0 gives the first characters (C63). -/
def newParam (key value : Text) : Param :=
  let startPos := if key.take 1 = ['-'] then (if key.take 2 = ['-', '-'] then 2 else 1) else 0
  { key := key.drop startPos, value := value }

/-- The local variables of `process` (`ParameterHandler.os:189-193`) and `mParameters`; the `List`
is a list here (C65). -/
structure PS where
  isEscape : Bool := false
  isString : Bool := false
  isValue : Bool := false
  key : Text := []
  param : Text := []
  out : List Param := []
  deriving DecidableEq, Repr

/-- `insertParameter( isValue ? key : param, isValue ? param : "" )` (`ParameterHandler.os:212, 237`). -/
def insert (s : PS) : List Param :=
  s.out ++ [newParam (if s.isValue then s.key else s.param) (if s.isValue then s.param else [])]

/-- A round of the loop of `process` (`ParameterHandler.os:198-235`).  In `param || isValue` the text
is converted to `bool` (`Strings.cpp:99-110`). -/
def step (s : PS) (c : Text) : PS :=
  if !s.isEscape && c = ['"'] then { s with isString := !s.isString }
  else if !s.isEscape && c = ['\\'] then { s with isEscape := !s.isEscape }
  else if !s.isString && (c = [' '] || c = ['\n']) then
    { out := if stringToBool s.param || s.isValue then insert s else s.out }
  else if !s.isString && c = ['='] then { s with isValue := true, key := s.param, param := [] }
  else { s with isEscape := false, param := s.param ++ c }

/-- `process` (`ParameterHandler.os:188-238`): the parameters, over the iterator of C127. -/
def process (args : Text) : Option (List Param) :=
  match (Text.CharIter.new args).collect (args.length + 2) with
  | some (.ok cs) => some (insert (cs.foldl step {}))
  | _ => none

/-- The members of a `ParameterHandler` (`ParameterHandler.os:240-242`). -/
structure Handler where
  programName : Text := []
  directoryName : Text := []
  params : List Param := []
  deriving DecidableEq, Repr

/-- The loop that looks for the last slash (`ParameterHandler.os:52-55`). -/
def dirLength (name : Text) : Nat → Nat
  | 0 => 0
  | n + 1 => if (name.drop n).take 1 ≠ ['/'] then dirLength name n else n + 1

/-- The constructor (`ParameterHandler.os:40-63`); `none`: the assertion fails. -/
def construct (argc : Int) (args : Text) (skipDirectoryName : Bool) : Option Handler :=
  match process args with
  | none => none
  | some [] => if argc = 0 then some {} else none
  | some (p :: ps) =>
    if argc - 1 = ps.length then
      some { programName := p.key
             directoryName := if skipDirectoryName then [] else p.key.take (dirLength p.key p.key.length)
             params := ps }
    else none

/-- `contains` (`ParameterHandler.os:88-96`). -/
def Handler.contains (h : Handler) (key : Text) : Bool := h.params.any fun p => p.key = key

/-- `operator[]( string )` (`ParameterHandler.os:75-83`); `none`: an exception. -/
def Handler.get (h : Handler) (key : Text) : Option Param := h.params.find? fun p => p.key = key

end Verif.Args
