# A formal model of slang-lang/slang in Lean 4

`properties.jsonl` lists the properties (C01 ...).  `lean/Verif/*` holds the model
and the proofs.  `MANIFEST.json` maps each property to its theorems.
`seeded/LOG.jsonl` records the mutation tests of the theorems.

## Layout

Each area of the code has up to four kinds of files.

* `Verif/<Area>/Model.lean` (or `Verif/<Area>.lean`): the model.  Every definition cites the file and
  lines it models, and says what it simplifies.
* `Verif/<Area>/Spec.lean`: the independent specification, written without the
  model's helpers (small specifications stand at the top of `Props.lean`).
* `Verif/<Area>/Lemmas.lean` and others: auxiliary lemmas.
* `Verif/<Area>/Props.lean`: the property theorems, each followed by an `example`
  that shows a concrete, non-trivial instance of its hypotheses.

A theorem named `..._partial` proves a weaker statement than its property; the
comment above says what is missing.  A theorem named `..._refuted` proves that
the code as written violates the property, with a concrete witness.  A property
that the code violates has the status "partial" in the manifest even if
everything that is true of it is proved.

## Plan per property

| id | what is modelled | how it is proved |
|----|------------------|------------------|
| C01-C03 | `Memory` as an address counter plus an association from address to (count, present) | invariants by induction over operation lists |
| C04 | reference variables (`Object::assignReference`, `~Object`) on top of `Memory` | invariant: count = number of variables bound to the address |
| C05, C70 | heap objects with member references, recursive release, destructors | invariant with a worklist formulation; no reachable object is destroyed; acyclic garbage disappears; cycle leak and destructor self reference as witnesses |
| C06-C08, C74 | chains of scopes with visibility | induction over the chain; refinement to "first match" |
| C09, C75 | method scopes and `isSignatureValid` | induction over chain and overload list |
| C10-C16, C73, C79 | the character state machine of `Tokenizer::process`, token classification, the operator-merging passes | induction over the text; `pop_back` on an empty list is a distinct undefined outcome |
| C17-C19, C77, C80 | the precedence-climbing parser functions of `TreeGenerator` with fuel (shown sufficient) | induction over expression trees; left-assoc chains by induction; refutation by witness |
| C20-C21, C76 | the bracket finders and `SanityChecker` | induction over Dyck words; counting |
| C22-C25, C78, C81 | the type table as registered by the code and the runtime operator dispatch | induction over registrations; whole-table `decide` lifted to all types |
| C26-C29, C72, C82 | integer operations with undefined behaviour as an outcome; decimal printing and stream parsing | arithmetic; induction over digits |
| C30-C37, C39-C41, C83-C87, C98 | a fuelled big-step interpreter for the visitor functions of `TreeInterpreter`, with the real frame stack, control-flow flag and exception slot | simulation: a run of the interpreter that meets none of the named deviations is a run of a relational reference semantics (`Interp/Spec`), by induction over fuel; each deviation has a refutation by witness |
| C38, C42-C43 | the flow checks of `TreeGenerator` on the same statement syntax | soundness by induction over executions of the reference semantics; refutation by witness |
| C44-C45 | signature matching, parameter merging, overload order | induction over parameter lists |
| C46-C47 | instantiated type names, constraint lookup, token substitution | injectivity by induction; map/idempotence |
| C48-C49, C88 | method definition in blueprints; recursive parent preparation with fuel; method tables of created objects | case analysis; rank induction for acyclic graphs; divergence for 3-cycles |
| C50, C89 | enum builder with reading past the end as an undefined outcome | induction over the token list |
| C51-C52, C91 | recursive library loading over an abstract file system | termination measure (unloaded files); closure invariant of the depth-first search |
| C53-C55 | version parse, print, compare | induction over digits and separators; lexicographic order |
| C56-C58, C92 | install, upgrade and the dependency walk of `slang-pkg` | case analysis, induction over fuel/rank |
| C59, C90 | debugger as a state machine; the stored configuration as text | refinement to a finite map; round trip |
| C60-C63, C71 | string tools, word splitter, string extension functions, path functions | induction over texts |
| C64 | thread table | invariant over operation lists |
| C65-C69, C93-C97 | the collections of the standard library, on a heap of nodes | refinement of operation histories to lists and finite maps by a linked-list representation invariant; refutation by witness |
| C99 | the statement functions of `TreeGenerator` with scopes, flow and thrown exceptions as state | the parser inverts a separate grammar of statements, by induction over derivations with fuel bounded by the number of tokens; a printer shows that the grammar covers every statement |
| C100–C102 | `TreeGenerator::resolve`, `resolveWithThis`, `resolveWithExceptions` on tokens, over the scopes of `Verif.Scope` | induction on the names; the outcome says where the iterator stands after a failed lookup; witnesses in a small program |
| C103, C107 | `evaluateSymbolExpression`, `resolveRValue`, `resolveMethod` of the interpreter; objects and null references as `Repository::createUserType` builds them | lookup lemmas of `Scope`; induction on the line of inheritance |
| C104–C106 | the const and static checks of assignments, increments and calls on resolved paths | the flags of a path are those of the declarations it was resolved to; case analysis |
| C108 | `Analyser::generate` and the `create…` functions with the static functions of `Parser`, on tokens | the reader inverts a separate grammar of declarations, by mutual induction over derivations with fuel bounded by three times the number of tokens; a printer shows that the grammar covers every declaration; the fuel is enough for every token list |
| C109–C116 | run-time cells as in `Object` (outer type, type, reference flag, address, value, ancestors), `assign`, `operator_binary_assign`, `typecast`, parameter binding, declarations, calls, `if`, `while`, and the compiler's checks for the same fragment | an invariant tying every cell to its static type, by induction on fuel over expressions, statements and blocks; the ancestors an object answers to characterised by induction over the class list; counterexamples run in the model |
| C117–C122 | the file functions of the stdio extension and the class `File`, over an explicit model of the C library (streams, positions, contents; undefined behaviour is an outcome) | the functions refine a small specification of files, by induction over careful histories; table and frame invariants for all histories; the counterexamples are stated for every file and history |
| C123–C127 | the methods of `System.String` and its two iterators over the model of the string functions of the language | each method characterised by where a text occurs (`OccursAt`), what the pieces of a text are (`Pieces`) and what replacing all occurrences means (`Replaced`); loops by induction over the rest of the text; the length as an invariant of all calls |
| C128, C129 | `processParameters` and the decisions of `main` in slang, the parsing of `SLANG_LIBRARY`, the class `ParameterHandler` over the iterator of C127 | a command line is data (`Opt`, `Arg`) that is written out and read back, by induction over the options and arguments, the loops over characters by lemmas about what a plain text leaves |
| C130 | the object memory of C01-C05 with inherited members: the base object lives outside the memory, its members are slots that no destruction visits | the slots of a base object are variables that nobody ends, so histories with inheritance are histories of C05, and the count of references carries over; for the refutation: a slot of a destroyed object is never written again, by induction over the history |
| C131, C132 | the members and methods an object gets from its class and ancestors; the lookup of constructors and destructors by `Scope.resolveMethod` in the chain of base objects | the lookup in a chain is computed level by level by induction over the chain and compared with `Nearest`, a list of classes split at the first that fits; members by induction over declarations |
| C133 | the whole of `Iterator` and lists filled by `push_back` and `push_front`, with the links in both directions | the history of calls on the iterator is a simulation of `cursor`, an index into the sequence; `Linked` is an invariant of filling |
| C134 | the way of a formula from its characters to its value: the tokenizer (`Lex`), the parser with its type checks (`Expr`) and the evaluation of literals, symbols, unary, binary, boolean and ternary expressions (`Calc`) | the tokens of a layout are computed up to their positions (`formula_tokens`), a spelling is a derivation of the grammar of C17 (`num_der`, `cond_der`), and the tree evaluates to the value by induction on the formula |
| C135 | the whole way of a script: `createScript` and `run` of the virtual machine, connecting the models of the tokenizer, the declarations, the parser with its checks and the interpreter (`Whole/Model.lean`) | a textbook language with its own semantics (`Does`), rules (`Fits`), spelling (`Writes`) and layout (`Laid`) in `Whole/Spec.lean`; tokens of a layout (`Lexing`), declarations (`Reading`, `File`), syntax trees by the completeness theorems of `Expr` and `Stmt` (`Trees`), execution by induction on `Does` into the reference semantics of `Interp` (`Exec`), and from there to the interpreter by C83 |
| C136 | `JsonReader.parse` with the tokenizer and the iterators it uses (`Json/Model.lean`) | a grammar of JSON with blanks and escapes (`Json/Spec.lean`); tokens of a text by induction on the grammar, then the reader by induction on the value |
| C137 | `toString` of the values and the two writers | the written text satisfies the grammar, by induction on the value, with the truth of texts from C28; then C136 |
| C138 | the same reader with fuel | a bound of three steps per token by induction on the fuel; for the refutations all fuel gives no result |
| C139 | the same model of the whole way of a script as for C135 | the commands that go wrong as a second inductive relation (`Wrong`), and those that neither end nor go wrong (`Forever`); failing by induction on `Wrong`, going on by induction on the number of steps, from general lemmas on executions without an end (`Interp/Hangs.lean`) |
| C140 | the same model of the whole way of a script as for C135 | the rules as a boolean function on programs (`Verif/Whole/Rules.lean`); for every formula, command and function, by mutual induction, the parser either builds a tree and the rules hold, or it rejects and one does not; the single rules as corollaries about commands at any depth |
| C141 | the calls of the JSON builders as steps on the text, the indentation and the comma flag (`Verif/Json/Builder.lean`) | JSON values as lists of calls (`Verif/Json/Built.lean`); by mutual induction on the value every builder writes a text the grammar of C136 derives for it, then the reader theorems of C136 apply |
| C142 | the class `SemVer` of libSemVer on top of the models of `strfind`, `substr` and `stringToInt` (`Verif/SemVer/Script.lean`) | three parts of a text and the order of versions as propositions of their own; reading by the theorems about `strfind`; the order by cases |
| C143 | `tick` of the nodes of libBehaviourTree as a function on trees, with what the actions do as a parameter (`Verif/Trees/Model.lean`) | episodes (ticks until a node is finished, any change of the world in between) of a node related to episodes of its children; by induction on the ticks and the children; formulas by mutual induction on the tree |
| C144 | `CSVReader` on top of the models of the two iterators (`Verif/Csv/Model.lean`) | tables, lines and fields as functions of their own; the loop over the characters by induction, the fields by the theorem about the pieces (C126) |
| C145–C148 | what the analyser does with the declarations it has read (C108): symbols of all scopes, types looked up, table of classes (`Verif/Global/Model.lean`) | a program as the list of its declarations in their scopes (`Verif/Global/Spec.lean`), the meaning of a name as a function on it; an invariant between the tables and the declarations so far, by mutual induction on the nesting |
| C149–C151 | the class `Board` of SudokuSolver, with the board as a function from places to cells and the search by recursion on the empty cells (`Verif/Sudoku/Model.lean`) | the rules of Sudoku as propositions about grids (`Verif/Sudoku/Spec.lean`); invariants of a visit, carried through passes and rounds; the number of empty places as measure |
| C152–C155 | the commands of slang-dbg at a stop and what the client does when the debugger reports an event; the program is its frames, the meaning of names in scopes and the values of objects (`Verif/Debug/Session.lean`) | invariant of all sessions (no scope while the program runs); frames as a number below the depth of the stack; dotted names by recursion on the path; watches as a set changed by each command |
| C156 | `collectRuntimePrototypeConstraints` on tokens, the choice of the class in `createInstance` (`Verif/Generic/Uses.lean`) | induction over the arguments; the created class depends on positions and names of the arguments only |
| C157, C158 | the functions of `Network/Read.h` and `Network/Write.h` over a line of bytes, every call of the operating system answered by an oracle (`Verif/Net/*`) | induction over the values and over the bytes of a text, for every oracle |
| C159 | `ClientSocket` as a state machine, the result of `ServerSocket.Bind` | induction over histories with the log as only state of the specification |
| C160 | `printExpression` on the trees of `Verif/Expr`, `visitAssert` over `eval` (`Verif/Calc/Shown.lean`) | the told text is the fully parenthesised spelling of the condition, laid out with single blanks; the theorems on reading formulas give the same tree |
| C161 | `addExtension` on the methods of the global scope (`defineMethod` of `Verif/Scope`), the specification as lines (`Verif/Embed/*`) | invariant over all sequences of extensions; the loop stops in front of the first method with another one in its way |
| C162 | `Script::execute` on trees of namespaces (`Verif/Embed/*`) | induction on the path; `split` is the inverse of joining with dots |
| C163 | `Configurator` on a disk of named texts, `LineParser::parse` on the word splitter of C62 (`Verif/Str/Config.lean`) | lines and words as inductive specifications; induction on the lines from the end |
| C164 | `Tools::extract` (`Verif/Str/Tools.lean`) | case distinction on the ends of the text |
| C165 | the constructors of `Logger`, `StdOutLogger`, `FileLogger` and `System.IO.Logger` over the string functions of C63 (`Verif/Log/*`) | the shown key as a small relation with exactly one solution; induction on the chain of loggers |
| C166 | `FileContext` and the methods of `Logger` over the class `File` and the C library of C117–C122 (`Verif/Log/*`) | invariant: the position is the end of the file; induction on the messages |
| C167 | `power` and `sqr` over the integer objects of C26 (`Verif/Ints/Power.lean`) | invariant of the loop; a power that fits has smaller powers that fit |
| C168 | the search functions of `LIBC/cstring` over C-library functions by recursion (`Verif/Libc/*`) | induction on the text; `strstr` against all places where the text stands |
| C169 | `strcmp`, `strncmp`, `strcat`, `strncat` (`Verif/Libc/*`) | induction; the order of lists of bytes is Lean's |
| C170 | `ToLower`, `ToUpper` (`Verif/Libc/*`) | the table of all 128 ASCII bytes against Lean's `Char.toLower`, lifted to texts by induction |
| C171 | `GetEnv`, `SetEnv`, `PutEnv` over glibc's environment as a list of entries, some of them dangling (`Verif/Libc/*`) | refinement to a map, induction on the calls |
| C172 | `Application::exec` with `fork` as a copy of the environment, the search for the service, `handleRequest` over the environment of C171 (`Verif/Web/*`) | induction on the settings; the parent's state does not change; the script is a parameter |
| C173 | `prepareEnvironment` and `setenv_s` (`Verif/Web/*`) | refinement to the map of C171 |
| C174 | `Indexer.buildIndex` over `String` (C123), `SemVer` (C142) and sets as ascending sequences (C68) (`Verif/Repo/*`) | invariant of the loop over the files: the index is the newest of the files read so far |
| C175 | the loops of DependencyChecker's `Main` (`Verif/Repo/*`) | induction on the modules |
| C176 | `Ancestor::operator<`, insertion into the search tree of `std::set` with any rebalancing, `Analyser::createObject`'s inheritance (`Verif/Anc/*`) | invariant of the insertions: the elements in order are the ancestors kept; induction on the tree for one insertion |
| C177 | `Tokenizer` of csvDB on the model of `CharacterIterator` (`Verif/Query/Model.lean`) | refinement: the loops over a text split at the position of the iterator, against an inductive description of queries; it is total, so that both acceptance and rejection are exact |
| C178 | `QueryExecutor::exec`, `explainTable` and the first part of `parseQuery` (`Verif/Query/Model.lean`), what is behind FROM as a parameter | invariant of the loop over the columns: after each round the next token is not FROM; `EXPLAIN` by the theorems on tokens and tables |
| C179 | `Thread` with its frames and its one `ExceptionData`, `visitThrow`, `visitTry`, the frames of calls, the text of `Script::execute` (`Verif/Trace/Model.lean`) | refinement: induction over a big-step description in which every exception carries its own place and calls, with the invariants that the frames are the active calls and that the thread remembers the exception being handled |
| C180 | `Scanner` on the model of `File` and of the file functions (`Verif/Files/Scanner.lean`) | invariant over all histories: the scanner's stream stays open for reading on the same file; calls with other handles do not touch it |
| C181 | `Object::ToString` on an arbitrary graph of objects and variables, with the depth of calls as fuel (`Verif/Dump/Model.lean`) | equivalence with a tree of what is shown and its lines; termination by accessibility of the relation "needs the text of", in both directions |
| C182 | `Memory::deinit` with the destructions nested in it, on the memory left by any history (`Verif/Heap/Shutdown.lean`, `Verif/Heap/ShutdownExact.lean`) | counting invariant with objects whose deletion has begun; induction over the loop: as long as a record is there, its count is positive although nothing can release it |

No property was found that cannot be expressed in a model.

## Trusted base

* Lean 4.33.0's kernel.
* Axioms: `propext`, `Classical.choice`, `Quot.sound` at most; the list per theorem is at the end
  of this file.  No own axioms, no `sorry`, no `native_decide`, no `bv_decide`.
* The fidelity of the model to the C++ source.  Each definition cites the lines
  it models, which is how to audit this.
* The C++ standard library is modelled by its documented contract (ordered maps and sets,
  lists, strings, stream extraction of integers in the "C" locale).
* As a check of the models of the tokenizer, the sanity check and the declarations, they were run (outside of
  `/verif`, not as proofs) on all 622 scripts below `/repo/Projects`: 616 are read, and the six that are not are the ones that the
  test suite expects to be rejected (`SanityCheckerTest.os`, `ConstCorrectnessTest5.os`, `Fail_MethodImplemented.os`) or
  that no test runs and that use what the code does not accept (a decimal number without suffix in
  `Math/LibraryFunctions.os` and `AST/IsOperatorTest.os`, a method without body in a namespace in `AbstractMethodInNamespace.os`).

## What is modelled

| modules | code |
|---------|------|
| `Memory`, `Heap` | all of `Core/VirtualMachine/Memory.cpp`; the reference counting of `Core/Object.cpp` (assign, destructor, copy) and the release of locals in `Core/Scope.cpp` |
| `Str` | `Utils/Tools/Strings.cpp`, `Utils/Tools/Files.cpp` (path functions), `Utils/Parsers/Tokenizer.cpp`, the string extension functions `StrPos.h`, `StrFind.h`, `SubStr.h`, `StrLPad.h`, `StrRPad.h` |
| `SemVer` | `Utils/SemVer/Version.{h,cpp}` |
| `Ints` | the integer operations of `Core/Runtime/BuildInTypes/Int{16,32,64}Type.cpp`, conversions between numbers and text of `Core/Runtime/AtomicValue.cpp` |
| `Lex` | all of `Core/Designtime/Parser/Tokenizer.cpp`, token classification |
| `Scope` | `Core/Scope.cpp`, `Core/Object.cpp` (resolve, resolveMethod), `Core/Common/Method.cpp` (isSignatureValid): lookup, declaration, visibility |
| `Brackets` | the `findNextBalanced…` functions of `Core/Common/Utils.cpp`, `collectScopeTokens` of `Core/Designtime/Parser/Parser.cpp`, `Core/Designtime/SanityChecker.cpp` |
| `Types` | `Core/VirtualMachine/TypeSystem.cpp`, `Core/Runtime/OperatorOverloading.cpp`, which operators the `BuildInTypes` implement, `Core/Runtime/TypeCast.cpp` |
| `Expr` | the expression functions of `Core/AST/TreeGenerator.cpp` |
| `Interp` | the statement and expression visitors of `Core/AST/TreeInterpreter.cpp`, `Core/VirtualMachine/StackFrame.cpp`, the entry points of `Threads.cpp` |
| `Check` | return, throw, break and continue checks of `Core/AST/TreeGenerator.cpp` |
| `Methods` | signatures and `mergeParameters` of `Core/Common/Method.cpp`, parameter binding of `Core/AST/TreeInterpreter.cpp` |
| `Generic` | instantiation of generic blueprints: `Core/VirtualMachine/Repository.cpp`, `Core/Designtime/BluePrintObject.cpp`, `Core/Common/PrototypeConstraint.cpp`, `Core/Common/Method.cpp` |
| `Classes` | `MethodScope::defineMethod` of `Core/Scope.cpp`, blueprint preparation in `Core/VirtualMachine/Repository.cpp` and `BluePrintObject.cpp`, method tables of created objects in `Core/Object.cpp` |
| `Enums` | enum declarations in `Core/Designtime/Analyser.cpp` |
| `Debug` | `Core/Debugger/{Debugger,BreakPoint,Condition}.cpp`, the stored configuration of `slang-dbg/LocalClient/LocalClient.cpp` |
| `Threads` | `Core/VirtualMachine/Threads.cpp` |
| `Imports` | library loading in `Core/VirtualMachine/VirtualMachine.cpp`, import statements of `Core/Designtime/Analyser.cpp` |
| `Pkg` | `slang-pkg/Application/Application.cpp`, `slang-pkg/Common/{Repository,Module,Restriction}`: restrictions, dependencies, install, upgrade |
| `Coll` | `Projects/Library/System/Collections/*.os` |
| `Stmt` | the statement functions of `Core/AST/TreeGenerator.cpp` for methods outside of classes |
| `Names` | name resolution of `Core/AST/TreeGenerator.cpp` (no generic classes), the const and static checks, path evaluation of `Core/AST/TreeInterpreter.cpp` |
| `Decl` | `Core/Designtime/Analyser.cpp` (generate … createNamespace) and the declaration functions of `Core/Designtime/Parser/Parser.cpp`; names of types are not resolved |
| `Vars` | `Object.cpp` (assign, getValue, setValue, isInstanceOf, isValid), `OperatorOverloading.cpp` (assign, equal), `TypeCast.cpp`, the evaluation of the corresponding nodes in `TreeInterpreter.cpp`, `createInstance`/`createReference`/`createUserType` of `Repository.cpp`, the type checks of `TreeGenerator.cpp`; no methods of classes, no destruction, conversions between atomic types are parameters |
| `Files` | `Extensions/LIBC/stdio/*.h` (all but getchar, putchar, puts, perror, rename, tmpnam, ungetc), `Library/System/IO/File.os`; the C library is modelled from the C standard and glibc where the standard leaves a choice (`fputs` returns 1, mode `rw` is `r`); no buffering, no full disk, one process |
| `Text` | `Library/System/String.os`, `StringIterator.os`, `CharacterIterator.os` (conversions of numbers, `ToLower`/`ToUpper`, comparison operators not again: C60–C63 cover the functions they call); Slang code read as mathematical functions over the external functions of `Str` |
| `Args` | `slang/main.cpp` (`processParameters`, decisions of `main`; not the printing), `VirtualMachine::init` (the environment variable), `Library/libParam/ParameterHandler.os` (not `remove`); `List` is a Lean list (C65) |
| `Heap/Inherit` | `Repository::createReference`, `createInstance`, `createUserType` (what enters the memory), `Object::Destructor`, `MethodScope::deinit` (which members are visited); `Object::garbageCollector` and `Object::free` have no caller |
| `Objs` | `Object::Constructor`, `Object::Destructor`, the lookup in `process_new`, the default constructor of `Analyser::createBluePrint`; `createMemberStub`, `fromPrototype`, `replicate` and `createUserType` as far as members and their values go |
| `Coll/Cursor` | `Iterator::current`, `hasPrevious`, `previous`, `peek`, `reset` |
| `Calc` | `TreeInterpreter::evaluate` for literals, symbols, unary, binary, boolean and ternary expressions |
| `Whole` | `VirtualMachine::createScript`, `run` and `runScriptFromString` for scripts of functions on `bool` and integer values: connects `Lex`, `Decl`, `Stmt`, `Expr`, `Interp` and `Calc` |
| `Json` | libJson: `Tokenizer`, `JsonReader`, `JsonWriter`, `JsonStyledWriter`, `toString` of `JsonValue`, `JsonArray` and `JsonObject`; libJsonBuilder: `Builder`, `StyledBuilder`, the functions of StructuredBuilder.os |
| `SemVer/Script` | libSemVer: `SemVer` |
| `Trees` | libBehaviourTree: `tick` of `Fallback`, `ReactiveFallback`, `Sequence`, `ReactiveSequence`, `SequenceStar`, `ForceFailureDecorator`, `ForceSuccessDecorator`, `InverterDecorator` |
| `Csv` | libCSVReader: `CSVReader`, `Row.getIdx` |
| `Global` | Analyser: the names it defines and looks up (`createBluePrint`, `createEnum`, `createInterface`, `createNamespace`, `createMemberStub`, `createMethodStub`, `collectInheritance`, `parseParameters`, `resolveType`, `getQualifiedTypename`); `MethodScope::define`, `resolve`, `getFullScopeName`; `Repository::addBluePrint`, the lookups of `initializeBlueprints` |
| `Sudoku` | SudokuSolver: `Board` (constructor, `calculatePossibleValues`, `findEmptyCell`, `isSafe`, `isSane`, `isUsedInBox`, `isUsedInLine`, `isUsedInRow`, `set`, `solve`), `Cell` |
| `Debug/Session` | slang-dbg: `LocalClient` (`executeCommand`, `handleBreakpoint`, `notify`, `notifyEnter`, `notifyExit`, `notifyExceptionThrow`, `notifyExceptionCatch`, `frameUp`, `frameDown`, `setCurrentFrame`, `getSymbol`, `getCachedSymbol`, `addLiteralSymbol`, `modifySymbol`, `printSymbol`, `addWatch`, `removeWatch`, `refreshWatches`), `Condition::evaluate`; not: `execute`, `thread`, `load`, starting and stopping the program |
| `Generic/Uses` | `Parser::collectRuntimePrototypeConstraints`, `PrototypeConstraints::buildRawConstraints`, the choice of the class in `Repository::createInstance` |
| `Net` | the read and write functions of the network extension, the classes `ClientSocket` (connect, close, write) and `ServerSocket` (result of bind). Not modelled: addresses, listen, accept, select, unlink |
| `Calc` (`Shown`) | the text of an expression in `AssertionFailed` for the trees of `Expr`, assertions without a message. Not modelled: `copy`, `new`, chains of members, how C++ prints floating-point numbers (a parameter) |
| `Embed` | `VirtualMachine::addExtension`, `printSpecification`, `Script::execute` up to the method that is called. Not modelled: loading of shared libraries, classes as scopes of `execute`, `Method::ToString` (a parameter) |
| `Log` | `libLog` (keys, entries, the file context) and the constructor of `System.IO.Logger`. Not modelled: `StdOutContext` (it prints), missing parents, destructors |
| `Libc` | `LIBC/cstring` (but `strcoll`, which depends on the locale), `tolower`/`toupper`, the environment. Trusted: the C library's functions as the C standard and glibc describe them. Not modelled: Windows |
| `Web` | `slang-app`: `exec`, the search for the service, `handleRequest`, `prepareEnvironment`. Parameters: the script, what `FCGX_GetParam` gives. Not modelled: reading the configuration, a failing `fork`, the redirection of the output |
| `Repo` | `RepoIndexer` (building the index) and `DependencyChecker` (the check). Not modelled: running `find` and `ls`, reading and writing JSON files (C136), the database |
| `Anc` | the set of ancestors of a class. Trusted: how libstdc++ inserts into a set (by the standard, a comparison that is no strict order is undefined behaviour) |
| `Query` | the tokenizer and the start of the queries of csvDB. Not modelled: positions of tokens, the expressions and nodes of a WHERE clause (never used by the executor) |
| `Trace` | the report of an uncaught exception. Methods are reduced to calls, exceptions and handlers. Not modelled: values of parameters, the scopes of frames, the text of the value (a parameter) |
| `Files/Scanner` | `Scanner` of the library. Not modelled: its iterators (C126, C127 model the classes they give), and that a history ends where one of its acts fails |
| `Dump` | `Object::ToString`. Not modelled: how the graph comes about (the graph is arbitrary; the names of base objects and of new objects are cited), the text of values (a parameter) |
| `Heap/Shutdown` | `Memory::deinit`, `Memory::remove` and `deleteObject` during it. Not modelled: script destructors (empty), threads that still run, the rest of `Controller::deinit` |

## What is not modelled

Floating point arithmetic, the file system beyond what the stdio functions see, networking,
native extensions other than the string and stdio functions named above, the old token interpreter (`Runtime/Interpreter.cpp`, not used by threads),
logging, and the user interface of the debugger client.

## Where the code and a property disagree

Each line is a theorem of the model (`_refuted`) or a consequence of one.

* C05: cyclic garbage is never released.  C70: a destructor that hands out a reference to its own object destroys it again.
* C06, C07, C08, C74: lookup in an object prefers the surroundings of the base object; a member may be declared under the name of an existing method or imported symbol; an inherited public member is not found at design-time level; private members of the base are found.
* C11-C16: `#` behind a word joins words; slash or star after a block comment loses a token or pops from an empty list; an escaped newline in a literal is not counted; a number followed by a name and `operator` followed by a word are merged; the last word without a final newline is lost; operators merge across blanks, and `%=` gets the content `*=`.
* C19, C77, C80: `||` and `&&` have the same precedence, `==` binds weaker than `?:` operands suggest; several malformed expressions are accepted; class operators are used only if the left operand is a plain name.
* C24, C25, C81: unary plus, binary `~`, `&` and `|` on int16 and int64 are accepted and fail at run time; static and dynamic result types differ; arithmetic class operators are typed as the class whatever they declare.
* C26, C29, C72, C82: mixed widths truncate; `++` on int16 leaves the range; constants of 2^63 and more are other numbers.
* C28: the text of false converts to true.
* C30, C33, C37, C39-C41, C83-C87: NAND and NOR; `for` left by `break` keeps a scope; `f().g()` that throws keeps a scope, `f().g(x)` looks `x` up in the object; `return` in a constructor ends the caller; exceptions of constructors, assignments, iterators, comparison operators are lost or bypass the handlers; `throw;` rethrows the latest exception; a throwing `finally` replaces the pending exception; `exit` in a called method leaves frames and skips `finally`.
* C98: `delete` has no effect.
* C38, C42, C43: `break` in a block as third part of `for`; a method that returns in one branch only is accepted; rethrow, throwing handlers, throwing finally blocks and calls of `throws` methods are not checked.
* C44: a default parameter after an object argument becomes that object.
* C47: `List<int>` as member of a generic class becomes `List<Object>`; `List<V>` in `Foo<K,V>` is rejected; arguments of ancestors are not replaced.
* C48, C49, C88: rejected redefinitions delete methods or members; redefining a taken-over method reads freed memory; overriding rules are not checked against inherited methods; inheritance cycles of three or more classes recurse for ever; inherited abstract methods do not prevent instantiation.
* C51, C52, C91: a script that is imported is analysed twice; `import a.b` loads `a.slang` in some cases; what an import means depends on earlier imports.
* C54: comparison of versions with different labels is neither asymmetric nor transitive.
* C56-C58, C92: restrictions are not checked for dependencies; cyclic dependencies never end; dependencies without version or of installed modules are not installed; an explicit version forces all modules; upgrade reinstalls equal versions; version ranges of dependencies are ignored.
* C59, C90: removing an absent breakpoint is undefined; file names with blanks are not restored.
* C63, C71: `strpos` accepts the index one past the end, and `strfind` answers -1 for a position outside the text instead of raising an exception; path functions mix up names without separator and extensions across separators.
* C64: thread ids are reused after deinit; `delete` of a thread has no effect; ids overflow.
* C66-C69, C93-C97: `pop_back` of List, Vector and DoubleLinkedList and `Stack.pop` remove nothing from the chain; `erase(size)` is accepted; `Stack.clear` never ends unless the stack is empty; `pop_front` of the only element leaves the reference to it (`Object::assign` with a source that was never assigned), so that `foreach` visits it and `Vector.insert` chains to it; `DoubleLinkedList.push_front` on an empty list leaves no last element; `Set` takes duplicates; `Map.insert` of an existing key is invisible and `Map.indexOf` is 0; `Queue.peek` returns the newest element; ranges with negative step or no element; reverse iterators access null; copies share their items.
* C75, C76, C89: ambiguous overloads depend on addresses; `} { ;` reads past the end; an enum without final semicolon reads past the end.
* C99: `if (c) a = 1; else a = 2;` and `while (c) break;` are rejected.
* C100: `other.y` with a member `other` whose class has no `y` is compiled as the local variable `y`: the failed search leaves the token iterator behind the dot.
* C101: `other.secret` through a member of the own class, and `twin.other.secret` through an object of the own class, name private members of other classes.
* C102: members hide locals and parameters; `this.x = x;` with a parameter `x` assigns the member to itself.
* C103: with `n.next` null, `n.next.value` is `n.value`; `m.reset()` with `m` null calls a function `reset` of the namespace; a failed assignment through null ends the interpreter.
* C104: members declared const can be assigned by every method that is not const.
* C105: const methods can assign to `this.x`, increment it, and call modifying methods on `this.other`.
* C106: static methods can use non-static members; there is no `this` when they run.
* C107: static members named without their class are compiled to `this.count`, which no object has; private members of base classes are accepted by the compiler and not found at run time.
* C108: `public stable enum E { }` is rejected (only one optional token is skipped by `isEnumDeclaration`); `object A extends B replicates C;` is accepted; the body of `object A replicates B { … }` is read as declarations behind it; behind an interface in an interface, methods are no longer abstract; parameters may be separated by anything (`(int a; int b)`), a trailing comma is accepted, commas between type arguments and ancestors may be missing, `V<A.B>` has the three arguments `A`, `.` and `B`, `Vector<Vector<int>>` is rejected; `val` on a parameter or member has no effect; the token behind a method without a body is skipped unseen; a missing last semicolon in a class reads behind the end of its tokens.
* C109: `Base b = new Derived(); b = new Base();` compiles and ends the script with an internal error: an assignment is checked against the class of the object the variable last held.
* C110: C-style casts between classes are never checked, `b = Base new Foo()` succeeds if `b` was assigned null before.
* C113: interfaces extended or implemented by an implemented interface are unknown to `is`; null is an instance of the class last held.
* C114: a member hidden by a member of another type in a derived class is found at run time through a variable of the base class.
* C115: `new int(1)` creates an atomic reference; plain variables assigned from it alias it, and a cast of it overwrites it with the converted value.
* C116: `Object::assign` takes the reference over only if the other side is marked as a reference; members never assigned and parameters that received null are not, so `a = a.next` at the end of a list leaves `a` where it was.
* C78: assignment rules are registered for the ancestors a class names itself only: with `C extends B`, `B extends A`, `A a = new C();` is refused.
* C118: `fclose` leaves the entry in the table of handles, and a failed `fopen` returns the entry of the null pointer: using such a handle is undefined instead of rejected.
* C119: `freads`, `freadi` and `freadb` ignore the number of bytes read; `freadb` copies any byte into a `bool`.
* C120: `fwrites` writes a C string: text behind a zero byte is lost without an error.
* C121: `fgets` with a size above 1024 calls `fgets` several times and keeps only the result of the last call.
* C122: `File.open` seeks before it looks whether the file was opened; `File.write` returns the reply of `fputs`, compared with 0; `AccessMode.ReadWrite` is "rw", which the C library reads as "r".
* C123: `EndsWith` with a text longer than the string calls `substr` with a negative start: an exception instead of `false`.  `s[first, last]` treats `last` as a length.
* C124: `<<` does not update the size: `Length` and `CharAt` then deny the appended text.  `Trim` removes blanks only, although documented for whitespaces.  `TrimRight( n )` has no bounds check like `TrimLeft( n )`.
* C125: `ReplaceAll` calls `Replace` from the start of the text until nothing is found: it does not end if the new text contains the old one, and replaces occurrences that come up by replacing.
* C126: `SplitBy( "" )` never ends; `StringIterator.next( separator )` skips the piece in front of the new separator.
* C127: `CharacterIterator.hasNext` compares the index before the increment with the length: an empty text is given at the end.
* C129: slang joins the arguments with line breaks without quoting, and `ParameterHandler` splits at blanks as well: an argument with a blank becomes two and the assertion in the constructor ends the script.  `if ( param || isValue )` converts the argument to `bool`, so that an argument `false` (in any case) is dropped like an empty one, unless it is the last.  `k=a=b` gives the key `a`.
* C130: the base part of an object is an object of its own that never enters the memory; `MethodScope::deinit` skips `base`, and `Object::garbageCollector`, which would visit it, is reached only from `Object::free`, which nothing calls.  What an inherited member refers to is therefore never released, and its destructor never runs.
* C131: `createMemberStub` chooses the default value by the declared type, and instantiating a generic class replaces the type but not the value: a member `T x;` of a class instantiated with `string` starts as `0`.  `replicate` copies only blueprints, so that instances of generic classes have no static members.
* C132: the compiler looks up constructors privately from everywhere, the run time from `protected` on and along the base objects up to `Object`, which has a public constructor without parameters.  So a private constructor is skipped instead of being refused (the test `RealWorldUsage/testing/PrivateConstructor.os` expects an error), and a class with only `Constructor(int)` can be created by `new C()` without running any of its code, although the comment in `Object::Constructor` says otherwise.
* C133: the loops of `Iterator::peek` test `offset-- >= 0`, one round too many (`ReverseIterator::peek` tests `> 0`).  `hasPrevious` is true for an iterator that has not moved, and `previous` then accesses a member of `null`.  Only `List` sets `previous` in its items (the lines are commented out in `Vector.os`), so that iterators of the other collections never go back.
* C134: two minus signs that meet, with any blanks or comments between them, are merged to `--`: `a - -b` is read as `a--` followed by a stray `b` (`minus_minus_refuted`).  The same merging makes blanks inside `<=`, `&&` or `!=` legal.
* C135: `int i = i + 1;` in a block with an outer `i` reads the new variable, which is 0, so the outer value is lost without a message (`own_initial_value_refuted`).
* C135: the parser accepts `int f(int n) { int n = 2; … }`; the interpreter then fails to define the second `n` when `f` is called (`parameter_twice_refuted`).
* C136: the JSON reader makes strings of all numbers (`numbers_refuted`), rejects every document that is a single value because it moves the iterator past the only token (`scalar_refuted`), reads `\n` as `n` (`letter_escape_refuted`) and rejects `1E5` (`capital_exponent_refuted`).
* C137: the JSON writers escape nothing (`unescaped_refuted`), and because the text `false` counts as false they omit the comma after a leading `false` (`false_first_refuted`): `[false, true]` is written `[ falsetrue ]` and read back as one string.
* C138: `[`, `[[` and so on make the JSON reader recurse for ever (`brackets_diverge_refuted`); `[[1]` is accepted (`missing_bracket_refuted`), and so is `[1]] anything` (`garbage_refuted`).
* C135: `for` has a scope of its own, which `break`, `return` and exceptions do not leave (`visitFor`, TreeInterpreter.cpp 1018-1056): after `int i = 5; for ( int i = 0; … ) { break; }` the name `i` is the loop's variable (`break_in_for_refuted`).
* C140: the name of a function is accepted as a variable: `print(f);` is not found by the parser and throws when it is executed (`function_as_value_refuted`).
* C140: whether a function returns a result is decided by its last jump or block: `int f(int x) { if ( x > 0 ) { return 1; } }` is accepted and fails for `f(0)` (`lost_result_refuted`), `int f(int x) { while ( true ) { if ( x > 5 ) { return x; } else { x = x + 1; } } }` is rejected (`good_result_refuted`).
* C141: a truth value is written as the number 1 or 0 (`truth_refuted`, for every object that has one), texts are not escaped (`injection_refuted`), the state of StructuredBuilder.os is global and never reset (`second_document_refuted`).
* C142: the build of a version is not read back (`build_refuted`), behind a label it becomes a part of it (`build_in_label_refuted`); texts that count as false are no labels (`label_refuted`, `label_order_refuted`).
* C143: `ForceFailureDecorator` and `ForceSuccessDecorator` test their own status instead of ticking the child (`force_refuted`), `SequenceStar` returns failure for a child that is running or waiting (`star_refuted`), `RepeaterDecorator` repeats nothing (not modelled).
* C144: the last row of a table is lost without a line break (`last_row_refuted`); the flag for titles is passed on as the one for reading the first row only (`titles_refuted`); rows are kept when another file is opened (`second_file_refuted`); there is no quoting (`quoted_refuted`).
* C09: at the laxest level the base class is not asked (`MethodScope::resolveMethod`, Scope.cpp 377-378). The parser looks for operators at that level (TreeGenerator.cpp 298), so an inherited `operator==` is not found and a function of the surrounding scopes is taken instead (`overload_lax_refuted`); a final method of the base object is taken before the object's own (`overload_final_refuted`).
* C145: types are looked up while declarations are read, so their order decides what a type means (`type_used_early_refuted`), against the comment in Repository.cpp 474-476; the name of a member is taken for a type (`member_is_type_refuted`, `member_hides_type_refuted`); the ancestors of interfaces are not looked up (`interface_parents_refuted`).
* C146, C147: the name of a class is looked up before the class is declared (Analyser.cpp 134): a second class of a name in a namespace is accepted and becomes `A.A.F` (`second_class_in_namespace_refuted`), a class in an inner namespace gets the name of the outer one (`inner_class_refuted`), a class cannot have the name of a namespace around it (`class_named_like_its_namespace_refuted`).
* C148: the visibility of the first part of a namespace counts, later ones are ignored (`namespace_visibility_refuted`).
* C140: `b++` is accepted for a truth value, and throws when it is executed: `process_incdecrement` asks only whether the variable is const and atomic (TreeGenerator.cpp 1478-1510; `counted_truth_refuted`).
* C150: `solve( cells, index )` returns true only if the call it makes itself does, so it never does (Board.os 195-229; `solve_reports_refuted`); cells after the current one keep the values of the last attempt while the next value is checked, which loses solutions (`solve_finds_refuted`).
* C151: `isSane` is false for every board (Board.os 99-113; `isSane_refuted`).
* C152: `notify` evaluates the condition before `handleBreakpoint` sets `mScope`, so that names are unknown and `Condition::evaluate` answers true (LocalClient.cpp 685-710, Condition.cpp 51-59; `variable_condition_refuted`).
* C153: `frameDown` counts up to the number of frames instead of the last one, and keeps that number although `setCurrentFrame` refuses it (LocalClient.cpp 383-395; `down_past_end_refuted`); `handleBreakpoint` does not set `mCurrentFrameId` (545-577; `first_stop_frame_refuted`).
* C154: `modifySymbol` assigns the text of the new value without regard to the type (LocalClient.cpp 649-683; `modify_type_refuted`).
* Not modelled: `execute` that meets another breakpoint leaves `mContinue` true, so that the outer stop ends as well.
* C156: the loop of `collectRuntimePrototypeConstraints` takes any token but `>` as a type and skips a comma if there is one (Parser.cpp 251-272; `separators_refuted`, `nested_arguments_refuted`).
* C157: `readi`, `readf`, `readd` call `read` once and look at -1 only: a number that arrives in pieces, or not at all, is received as the number its first bytes make up (Read.h 78, 112, 146; `int_in_pieces`, `values_arrive_refuted`, `end_not_told_refuted`).
* C158: `reads` returns `ControlFlow::Throw` without an exception (Read.h 187; `failure_told_refuted`); `writes` returns the size of its last one-byte write (Write.h 196; `count_of_bytes_refuted`).
* C159: `ClientSocket.Close` closes the only handle the object will ever have (ClientSocket.os 25-31, 55; `reconnect_refuted`); `ServerSocket.Bind` tests `> 0`, but success is 0 (ServerSocket.os 77; `bind_told_refuted`).
* C160: `a != b` is built as a negation whose token has no content (TreeGenerator.cpp:324), so that `printExpression` shows `(a == b)` for it (`assertion_unequal_refuted`); truth values are printed with `toString`, as 1 and 0 (`assertion_truth_refuted`); unary operators are printed in front without a blank or parentheses (`assertion_signs_refuted`); of a chain of names only the last is printed (`assertion_object_refuted`).
* C161: `addExtension` catches the exception of `defineMethod` outside of its loop and returns true (VirtualMachine.cpp:97-127; `extension_cut_refuted`); whether two methods are in each other's way is not symmetric (`extension_order_refuted`).
* C162: `Script::execute` resolves the names of namespaces without `onlyCurrentScope` (Script.cpp:34; `called_by_name_refuted`).
* C140: `print(h());` is accepted for a function `h` without a result and prints an empty line, and `return h();` is accepted in a function without a result: the parser compares only types (`process_print`, `process_return`, TreeGenerator.cpp 1729-1774; `nothing_printed_refuted`).
* C163: the loop over the characters of a configuration file adds a line only at its line end, so that a last line without one is lost (Configurator.cpp:103-112; `config_last_line_refuted`).
* C29: `operator_unary_not` of `int16` tests the stored 64-bit value: `!x` is 0 although `x == 0` (Int16Type.cpp:350-353; `int16_not_refuted`).
* C135: `continue` inside a `switch` inside a loop does not start the next round of the loop: `visitSwitch` (TreeInterpreter.cpp) keeps its own loop, so the `switch` is executed again (`continue_in_switch_refuted`).
* C165: a blank at the end of an ancestor's key is not part of the keys below (Logger.os:19; `logger_key_blank_refuted`); `System.IO.Logger` raises an exception for a key that is shorter than the wanted length (System/IO/Logger.os:10; `io_logger_short_key_refuted`).
* C166: `AppendingFileLogger` opens its file with `w+`, which empties it (Context.os:11; `appending_log_refuted`); `FileContext.write` writes no line breaks (Context.os:20-22; `file_log_lines_refuted`).
* C167: `power( value, exp )` returns `value` for every exponent below 1 (Functions.os:44; `power_small_exponent_refuted`).
* C168: `strchr`, `strrchr`, `strpbrk` and `strstr` make a `std::string` of a null pointer if nothing is found (strchr.h:49; `strchr_absent_refuted`, `strpbrk_absent_refuted`, `strstr_absent_refuted`).
* C169: `strncat` drops the first `num` characters of the source instead of taking them (strncat.h:49; `strncat_refuted`), and throws `std::out_of_range` for other numbers (`strncat_exception_refuted`).
* C170: `::tolower` of a negative `char` is undefined (ToLower.h; `case_other_refuted`).
* C171: `putenv` is given a pointer into a local text (PutEnv.h:44; `putenv_refuted`).
* C172: a request without `PATH_INFO`, or without `QUERY_STRING`, `REQUEST_METHOD` or `REQUEST_URI`, makes a text of a null pointer (Application.cpp:81, Service.cpp:93-102; `incomplete_request_refuted`).
* C173: `setenv_s` does not overwrite when the parameter is missing, so that the server's own variable shows through (Service.cpp:144; `missing_parameter_refuted`).
* C174: `SemVer.FromString` throws and nothing catches it, so that one file with a bad name leaves the repository without an index (Indexer.os:51; `index_bad_file_refuted`); a module called "false" is not valid (Module.os:28; `index_false_refuted`).
* C175: only modules read earlier are compared, missing ones are not noticed (Main.slang:22-40; `check_missing_refuted`, `check_later_refuted`).
* C176: `Ancestor::operator<` says that an ancestor is less than itself, and that ancestors with the same name and different numbers of type arguments are equal (Ancestor.cpp:34; PrototypeConstraint.cpp:32 compares a member with itself): the second of `implements L<A>, L<A, B>` is lost, the second of `implements L, L` is held twice (`ancestor_lost_refuted`, `ancestor_twice_refuted`).
* C177: `CHARS` of the tokenizer of csvDB has no q (Tokenizer.os:12), so that `SELECT qty` is an invalid token; `isDigit("")` is true, so that the loop of a number runs over the end of a query that ends with a number, such as `... LIMIT 5` (`letter_q_refuted`, `number_at_end_refuted`).
* C178: `Iterator.peek( 1 )` looks two elements ahead (see C133), so that `parseQuery` never finds FROM where it requires it: every `SELECT` raises an exception (`select_refuted`). A first title that is empty or `false` is not separated from the second (`false_title_refuted`).
* C179: a thread has one `ExceptionData` (Threads.h), which every throw overwrites: `catch ( A a ) { try { throw new B(); } catch { } throw; }` ends with the report of the B that was handled (`rethrow_refuted`), and so does a `finally` block in which an exception is raised and handled while another one goes on (`final_refuted`). Accesses to null and errors of extension methods are reported as `Exception raised in :`, without any call (`fault_refuted`).
* C180: `File.getSize` is the size at the time of `open`, and `Scanner.reset` reads that many bytes: of a file that has grown only the first part is read (`scanner_grown_refuted`). A `Scanner` for a missing file uses the null stream (`scanner_missing_refuted`, as C122).
* C181: `Object::ToString` (Object.cpp:573) follows references without remembering where it was: an uncaught exception whose value is part of itself ends in endless recursion (`cyclic_refuted`). The base object of an instance is defined as `base` but created with the name `this` (Repository.cpp:292) and is therefore left out: the report of `throw new MyException( "text" )` does not show the text that `Exception` stores (`inherited_refuted`). Members that refer to objects are shown with the name of the object, `<anonymous>` (`member_name_refuted`).
* C182: `Memory::deinit` (Memory.cpp:48) deletes every object that is left while its record, with its pointer, stays in the table. The members of the deleted objects then release their references, and the last of them lets `deleteObject` call and delete the same object again: every program that leaves a reference cycle behind ends in undefined behaviour (`shutdown_refuted`), and so may one that leaves only a variable behind (`shutdown_leaked_refuted`; C130 shows such variables). The loop does not call the script destructors of what is left either: that call is commented out (Memory.cpp:57).

## Axioms per theorem

P = `propext`, C = `Classical.choice`, Q = `Quot.sound`, - = none.

| property | theorem | axioms |
|---|---|---|
| C01 | `Verif.Memory.addresses_distinct` | C Q P |
| C01 | `Verif.Memory.new_address_fresh` | C Q P |
| C01 | `Verif.Memory.new_fails_iff_exhausted` | C Q P |
| C02 | `Verif.Memory.object_lives_iff_referenced` | C Q P |
| C02 | `Verif.Memory.destroyed_only_by_last_release` | C Q P |
| C03 | `Verif.Memory.null_is_noop` | P |
| C03 | `Verif.Memory.unknown_address_throws` | P |
| C03 | `Verif.Memory.reference_ops_isolated` | Q P |
| C03 | `Verif.Memory.release_not_last_isolated` | Q P |
| C03 | `Verif.Memory.add_increments` | Q P |
| C04 | `Verif.Heap.programs_never_undefined` | C Q P |
| C04 | `Verif.Heap.no_dangling_references` | C Q P |
| C04 | `Verif.Heap.count_eq_references` | C Q P |
| C05 | `Verif.Heap.memory_management_invisible` | C Q P |
| C05 | `Verif.Heap.acyclic_garbage_destroyed` | C Q P |
| C05 | `Verif.Heap.cyclic_garbage_leaks_refuted` | P |
| C06 | `Verif.Scope.lookup_innermost_partial` | C Q P |
| C06 | `Verif.Scope.inherited_lookup` | C Q P |
| C06 | `Verif.Scope.class_lookup_continues` | C Q P |
| C06 | `Verif.Scope.enclosing_scope_refuted` | C Q P |
| C07 | `Verif.Scope.declare_iff_absent` | C Q P |
| C07 | `Verif.Scope.declare_iff_absent_partial` | P |
| C07 | `Verif.Scope.declared_resolves` | Q P |
| C07 | `Verif.Scope.declaration_isolated` | Q P |
| C07 | `Verif.Scope.declarations_history` | Q P |
| C07 | `Verif.Scope.declare_unique_refuted` | P |
| C07 | `Verif.Scope.takeover_iff_absent` | P |
| C07 | `Verif.Scope.takeover_resolves` | Q P |
| C07 | `Verif.Scope.takeover_isolated` | Q P |
| C08 | `Verif.Scope.access_enforced` | P |
| C08 | `Verif.Scope.access_monotone_partial` | C Q P |
| C08 | `Verif.Scope.access_monotone_refuted` | P |
| C09 | `Verif.Scope.resolved_method_applicable` | Q P |
| C09 | `Verif.Scope.overload_innermost_partial` | C Q P |
| C09 | `Verif.Scope.overload_inherited` | C Q P |
| C09 | `Verif.Scope.overload_nearest` | C Q P |
| C09 | `Verif.Scope.overload_object` | C Q P |
| C09 | `Verif.Scope.final_method_wins` | P |
| C09 | `Verif.Scope.signatures_unique` | C Q P |
| C09 | `Verif.Scope.define_method_effect` | C Q P |
| C09 | `Verif.Scope.overload_lax_refuted` | P |
| C09 | `Verif.Scope.overload_final_refuted` | Q P |
| C10 | `Verif.Lex.literal_round_trip` | C Q P |
| C10 | `Verif.Lex.literal_in_text` | C Q P |
| C10 | `Verif.Lex.literal_alone` | C Q P |
| C10 | `Verif.Lex.tokens_as_written` | C Q P |
| C11 | `Verif.Lex.slash_comment_invisible` | C Q P |
| C11 | `Verif.Lex.hash_comment_invisible_partial` | C Q P |
| C11 | `Verif.Lex.hash_comment_refuted` | C Q P |
| C11 | `Verif.Lex.tokens_as_written` | C Q P |
| C12 | `Verif.Lex.block_comment_invisible_partial` | C Q P |
| C12 | `Verif.Lex.block_comment_is_blank_partial` | C Q P |
| C12 | `Verif.Lex.block_comment_refuted` | C Q P |
| C12 | `Verif.Lex.tokens_as_written` | C Q P |
| C13 | `Verif.Lex.token_lines_partial` | C Q P |
| C13 | `Verif.Lex.lines_never_decrease` | C Q P |
| C13 | `Verif.Lex.token_lines_refuted` | C Q P |
| C14 | `Verif.Lex.words_one_to_one_raw` | C Q P |
| C14 | `Verif.Lex.words_one_to_one_partial` | C Q P |
| C14 | `Verif.Lex.words_one_to_one_refuted` | C Q P |
| C15 | `Verif.Lex.end_of_file_refuted` | C Q P |
| C15 | `Verif.Lex.end_of_file_partial` | C Q P |
| C15 | `Verif.Lex.end_of_file_word_lost` | C Q P |
| C16 | `Verif.Lex.operators_refuted` | C Q P |
| C16 | `Verif.Lex.blank_between_symbols_irrelevant` | C Q P |
| C16 | `Verif.Lex.compound_between_names` | C Q P |
| C16 | `Verif.Lex.merging_preserves_text_partial` | C Q P |
| C17 | `Verif.Expr.spelling_read` | C Q P |
| C17 | `Verif.Expr.parse_print` | C Q P |
| C17 | `Verif.Expr.parse_print_error` | C Q P |
| C17 | `Verif.Expr.print_unambiguous` | C Q P |
| C17 | `Verif.Expr.parentheses_redundant` | C Q P |
| C18 | `Verif.Expr.chain_left_to_right` | C Q P |
| C18 | `Verif.Expr.chain_last_operand` | C Q P |
| C19 | `Verif.Expr.and_binds_tighter_refuted` | C Q P |
| C19 | `Verif.Expr.conditional_binds_weaker_refuted` | C Q P |
| C19 | `Verif.Expr.boolean_precedence_partial` | C Q P |
| C19 | `Verif.Expr.conditional_precedence_partial` | C Q P |
| C20 | `Verif.Brackets.balanced_found` | C Q P |
| C20 | `Verif.Brackets.statement_block_extracted` | Q P |
| C20 | `Verif.Brackets.declaration_block_extracted` | Q P |
| C20 | `Verif.Brackets.extractors_agree` | Q P |
| C20 | `Verif.Brackets.extracted_block_sound` | P |
| C21 | `Verif.Brackets.sane_iff_balanced` | C Q P |
| C21 | `Verif.Brackets.proper_sane` | C Q P |
| C22 | `Verif.Types.typing_is_first_registration` | Q P |
| C22 | `Verif.Types.typing_never_changes` | Q P |
| C22 | `Verif.Types.registration_is_local` | Q P |
| C23 | `Verif.Types.type_errors_classified` | Q P |
| C24 | `Verif.Types.accepted_operation_fails_refuted` | Q P |
| C24 | `Verif.Types.accepted_operation_runs_partial` | Q P |
| C25 | `Verif.Types.static_type_wrong_refuted` | Q P |
| C25 | `Verif.Types.static_type_honoured_partial` | Q P |
| C25 | `Verif.Types.static_type_honoured_others` | Q P |
| C25 | `Verif.Types.cast_has_target_type` | Q P |
| C26 | `Verif.Ints.arith_exact_or_undefined` | Q P |
| C26 | `Verif.Ints.arith_undefined_iff` | C Q P |
| C26 | `Verif.Ints.eval_exact_or_undefined` | C Q P |
| C26 | `Verif.Ints.mixed_width_arith_refuted` | C Q P |
| C27 | `Verif.Str.int_text_roundtrip` | C Q P |
| C27 | `Verif.Str.int_text_injective` | C Q P |
| C27 | `Verif.Str.int_text_form` | Q P |
| C28 | `Verif.Str.text_false_iff` | C Q P |
| C28 | `Verif.Str.bool_text_roundtrip_partial` | C Q P |
| C28 | `Verif.Str.bool_text_roundtrip_refuted` | C Q P |
| C29 | `Verif.Ints.int16_sequence_mod_partial` | C Q P |
| C29 | `Verif.Ints.int16_eval_mod` | C Q P |
| C29 | `Verif.Ints.assign_inRange` | C Q P |
| C29 | `Verif.Ints.assign_exact` | Q P |
| C29 | `Verif.Ints.int16_range_refuted` | P |
| C29 | `Verif.Ints.not_exact` | C Q P |
| C29 | `Verif.Ints.int16_not_refuted` | P |
| C30 | `Verif.Interp.finally_runs_partial` | Q P |
| C30 | `Verif.Interp.exit_skips_finally_refuted` | P |
| C30 | `Verif.Interp.pendingReplaced_refuted` | P |
| C31 | `Verif.Interp.unmatched_exception` | Q P |
| C31 | `Verif.Interp.first_matching_handler` | Q P |
| C31 | `Verif.Interp.first_matching_handler_object` | Q P |
| C31 | `Verif.Interp.untyped_handler` | Q P |
| C31 | `Verif.Interp.try_without_exception` | P |
| C31 | `Verif.Interp.try_without_clauses` | Q P |
| C32 | `Verif.Interp.while_unrolls` | Q P |
| C32 | `Verif.Interp.while_ends` | Q P |
| C33 | `Verif.Interp.scopes_released_partial` | Q P |
| C33 | `Verif.Interp.forLeft_refuted` | P |
| C33 | `Verif.Interp.dotThrow_refuted` | P |
| C34 | `Verif.Interp.and_short_circuit` | Q P |
| C34 | `Verif.Interp.or_short_circuit` | Q P |
| C34 | `Verif.Interp.logical_left_throws` | P |
| C35 | `Verif.Interp.switch_unrolls` | Q P |
| C35 | `Verif.Interp.switch_without_cases_unrolls` | Q P |
| C35 | `Verif.Interp.switch_runs_chosen` | Q P |
| C35 | `Verif.Interp.switch_without_cases` | Q P |
| C36 | `Verif.Interp.nothing_after_jump` | P |
| C36 | `Verif.Interp.nothing_after_raise` | P |
| C37 | `Verif.Interp.call_restores_partial` | Q P |
| C37 | `Verif.Interp.exit_in_call_refuted` | P |
| C38 | `Verif.Check.jumps_stay_inside_partial` | Q P |
| C38 | `Verif.Check.jumps_stay_inside_refuted` | P |
| C39 | `Verif.Interp.statement_meaning_partial` | Q P |
| C39 | `Verif.Interp.forLeft_refuted` | P |
| C40 | `Verif.Interp.statement_meaning_partial` | Q P |
| C40 | `Verif.Interp.foreachThrow_refuted` | P |
| C41 | `Verif.Interp.negated_operators_partial` | Q P |
| C41 | `Verif.Interp.nand_refuted` | P |
| C41 | `Verif.Interp.nor_refuted` | P |
| C42 | `Verif.Check.checked_exceptions_partial` | Q P |
| C42 | `Verif.Check.no_exception_leaves_partial` | Q P |
| C42 | `Verif.Check.interpreter_exceptions_partial` | C Q P |
| C42 | `Verif.Check.rethrow_refuted` | P |
| C42 | `Verif.Check.handler_refuted` | P |
| C42 | `Verif.Check.finally_refuted` | P |
| C42 | `Verif.Check.callee_refuted` | P |
| C43 | `Verif.Check.non_void_returns_partial` | Q P |
| C43 | `Verif.Check.non_void_returns_refuted` | P |
| C43 | `Verif.Check.every_return_fits` | P |
| C44 | `Verif.Methods.misfit_rejected` | Q P |
| C44 | `Verif.Methods.parameter_binding_partial` | Q P |
| C44 | `Verif.Methods.object_before_default` | Q P |
| C44 | `Verif.Methods.parameter_binding_refuted` | Q P |
| C45 | `Verif.Methods.order_irreflexive` | C Q P |
| C45 | `Verif.Methods.order_transitive` | C Q P |
| C45 | `Verif.Methods.order_total` | C Q P |
| C46 | `Verif.Generic.instance_names_distinct` | C Q P |
| C46 | `Verif.Generic.instance_arguments_distinct` | C Q P |
| C47 | `Verif.Generic.class_instantiated_partial` | C Q P |
| C47 | `Verif.Generic.method_instantiated` | C Q P |
| C47 | `Verif.Generic.method_instantiated_once` | P |
| C47 | `Verif.Generic.instantiated_once` | P |
| C47 | `Verif.Generic.member_argument_lost` | Q P |
| C47 | `Verif.Generic.member_argument_refuted` | C Q P |
| C47 | `Verif.Generic.ancestor_argument_refuted` | C Q P |
| C47 | `Verif.Generic.member_parameter_refuted` | Q P |
| C47 | `Verif.Generic.parameter_passing` | P |
| C48 | `Verif.Classes.override_rules` | Q P |
| C48 | `Verif.Classes.override_replaces` | Q P |
| C48 | `Verif.Classes.rejected_unchanged_partial` | Q P |
| C48 | `Verif.Classes.override_accepted_partial` | Q P |
| C48 | `Verif.Classes.rejected_unchanged_refuted` | - |
| C48 | `Verif.Classes.member_lost_refuted` | - |
| C48 | `Verif.Classes.inherited_redefinition_refuted` | Q P |
| C48 | `Verif.Classes.final_inherited_refuted` | Q P |
| C48 | `Verif.Classes.inherited_methods` | Q P |
| C49 | `Verif.Classes.prepared_after_ancestors` | Q P |
| C49 | `Verif.Classes.cycle_never_accepted` | Q P |
| C49 | `Verif.Classes.acyclic_processed` | C Q P |
| C49 | `Verif.Classes.cycle_rejected_partial` | C Q P |
| C49 | `Verif.Classes.long_cycle_refuted` | C Q P |
| C50 | `Verif.Enums.enum_members` | C Q P |
| C50 | `Verif.Enums.enum_ascending` | C Q P |
| C50 | `Verif.Enums.enum_unique` | C Q P |
| C50 | `Verif.Enums.explicit_value` | Q P |
| C51 | `Verif.Imports.loading_terminates` | C Q P |
| C51 | `Verif.Imports.libraries_analysed_once` | C Q P |
| C51 | `Verif.Imports.script_analysed_twice_refuted` | C Q P |
| C52 | `Verif.Imports.imports_complete_partial` | C Q P |
| C52 | `Verif.Imports.unresolvable_import_fails_partial` | C Q P |
| C52 | `Verif.Imports.unresolved_is_missing` | C Q P |
| C52 | `Verif.Imports.only_imports_loaded` | C Q P |
| C52 | `Verif.Imports.import_loads_other_file_refuted` | C Q P |
| C53 | `Verif.SemVer.version_roundtrip` | C Q P |
| C53 | `Verif.SemVer.version_printed_valid` | C Q P |
| C53 | `Verif.SemVer.no_text_not_valid` | P |
| C54 | `Verif.SemVer.version_lt_irrefl` | P |
| C54 | `Verif.SemVer.version_lt_asymm_partial` | Q P |
| C54 | `Verif.SemVer.version_lt_trans_partial` | Q P |
| C54 | `Verif.SemVer.version_lt_total_partial` | C Q P |
| C54 | `Verif.SemVer.version_lt_lexicographic` | P |
| C54 | `Verif.SemVer.prerelease_before_release` | P |
| C54 | `Verif.SemVer.version_eq_ne` | Q P |
| C54 | `Verif.SemVer.version_lt_asymm_refuted` | - |
| C54 | `Verif.SemVer.version_lt_trans_refuted` | - |
| C55 | `Verif.SemVer.nextBugfix_least` | C Q P |
| C55 | `Verif.SemVer.nextMinor_least` | C Q P |
| C55 | `Verif.SemVer.nextMajor_least` | C Q P |
| C56 | `Verif.Pkg.violating_request_installs_nothing` | C Q P |
| C56 | `Verif.Pkg.installed_respects_restrictions_partial` | C Q P |
| C56 | `Verif.Pkg.restrictions_loaded` | Q P |
| C56 | `Verif.Pkg.restriction_of_dependency_refuted` | C Q P |
| C56 | `Verif.Pkg.restriction_of_interpreter_refuted` | C Q P |
| C57 | `Verif.Pkg.resolution_terminates_partial` | C Q P |
| C57 | `Verif.Pkg.dependencies_installed_partial` | C Q P |
| C57 | `Verif.Pkg.cyclic_dependencies_refuted` | C Q P |
| C57 | `Verif.Pkg.dependency_without_version_refuted` | C Q P |
| C57 | `Verif.Pkg.dependency_of_installed_refuted` | C Q P |
| C58 | `Verif.Pkg.install_never_downgrades_partial` | C Q P |
| C58 | `Verif.Pkg.upgrade_never_downgrades` | C Q P |
| C58 | `Verif.Pkg.upgrade_offers` | C Q P |
| C58 | `Verif.Pkg.explicit_version_forces_all_refuted` | C Q P |
| C58 | `Verif.Pkg.upgrade_reinstalls_refuted` | C Q P |
| C58 | `Verif.Pkg.upgrade_between_prereleases_refuted` | C Q P |
| C58 | `Verif.Pkg.upgrade_only_asked` | C Q P |
| C59 | `Verif.Debug.breakpoints_partial` | C Q P |
| C59 | `Verif.Debug.stops_at_partial` | C Q P |
| C59 | `Verif.Debug.delete_number` | C Q P |
| C59 | `Verif.Debug.remove_absent_refuted` | C Q P |
| C59 | `Verif.Debug.steps_partial` | C Q P |
| C60 | `Verif.Str.split_at_first` | C Q P |
| C60 | `Verif.Str.split_absent` | C Q P |
| C60 | `Verif.Str.split_is_splitBy` | C Q P |
| C61 | `Verif.Str.trim_removes_maximal_runs` | C Q P |
| C61 | `Verif.Str.trim_left_removes_maximal_run` | C Q P |
| C61 | `Verif.Str.trim_right_removes_maximal_run` | C Q P |
| C61 | `Verif.Str.trim_idempotent` | C Q P |
| C62 | `Verif.Str.words_exact` | C Q P |
| C62 | `Verif.Str.words_default` | C Q P |
| C62 | `Verif.Str.words_unique` | Q P |
| C63 | `Verif.Str.substr_slice` | C Q P |
| C63 | `Verif.Str.substr_rest` | C Q P |
| C63 | `Verif.Str.substr_out_of_range` | C Q P |
| C63 | `Verif.Str.strpos_char` | C Q P |
| C63 | `Verif.Str.strpos_out_of_range_partial` | C Q P |
| C63 | `Verif.Str.strpos_out_of_range_refuted` | - |
| C63 | `Verif.Str.strfind_first` | C Q P |
| C63 | `Verif.Str.strfind_out_of_range_refuted` | C Q P |
| C63 | `Verif.Str.strlpad_pads` | C Q P |
| C63 | `Verif.Str.strrpad_pads` | C Q P |
| C63 | `Verif.Str.pad_invalid` | C Q P |
| C64 | `Verif.Threads.thread_created_partial` | Q P |
| C64 | `Verif.Threads.thread_found_partial` | Q P |
| C64 | `Verif.Threads.thread_reuse_refuted` | - |
| C64 | `Verif.Threads.thread_delete_refuted` | - |
| C64 | `Verif.Threads.thread_overflow_refuted` | Q P |
| C65 | `Verif.Coll.list_is_sequence` | C Q P |
| C65 | `Verif.Coll.list_is_sequence_with_erase_partial` | C Q P |
| C65 | `Verif.Coll.list_pop_back_refuted` | Q P |
| C65 | `Verif.Coll.list_erase_size_refuted` | Q P |
| C65 | `Verif.Coll.list_pop_front_refuted` | Q P |
| C66 | `Verif.Coll.vector_is_sequence_partial` | C Q P |
| C66 | `Verif.Coll.vector_pop_back_refuted` | Q P |
| C66 | `Verif.Coll.vector_pop_only_refuted` | Q P |
| C66 | `Verif.Coll.vector_pop_front_refuted` | Q P |
| C66 | `Verif.Coll.vector_erase_size_refuted` | Q P |
| C67 | `Verif.Coll.stack_is_lifo_partial` | C Q P |
| C67 | `Verif.Coll.stack_size_and_exceptions` | C Q P |
| C67 | `Verif.Coll.stack_peek_is_pop` | C Q P |
| C67 | `Verif.Coll.stack_pop_refuted` | P |
| C67 | `Verif.Coll.stack_clear_refuted` | C Q P |
| C68 | `Verif.Coll.set_insertions_ascending` | C Q P |
| C68 | `Verif.Coll.set_is_ascending_sequence_partial` | C Q P |
| C68 | `Verif.Coll.set_duplicates_refuted` | P |
| C68 | `Verif.Coll.set_last_refuted` | Q P |
| C69 | `Verif.Coll.map_is_finite_map_partial` | C Q P |
| C69 | `Verif.Coll.map_insert_refuted` | P |
| C69 | `Verif.Coll.map_indexOf_refuted` | C Q P |
| C70 | `Verif.Memory.destructor_self_reference_refuted` | Q P |
| C71 | `Verif.Str.path_decomposes` | C Q P |
| C71 | `Verif.Str.filename_of_plain` | Q P |
| C71 | `Verif.Str.extension_decomposes` | C Q P |
| C71 | `Verif.Str.pathname_of_plain_refuted` | P |
| C71 | `Verif.Str.extension_within_filename_refuted` | C Q P |
| C72 | `Verif.Ints.compare_same_width` | Q P |
| C72 | `Verif.Ints.compare_wider_left` | C Q P |
| C72 | `Verif.Ints.compare_wider_right_refuted` | - |
| C73 | `Verif.Lex.integer_literals` | C Q P |
| C73 | `Verif.Lex.fraction_literals` | C Q P |
| C73 | `Verif.Expr.marked_types` | C Q P |
| C73 | `Verif.Expr.unmarked_types` | C Q P |
| C74 | `Verif.Scope.base_private_hidden_partial` | P |
| C74 | `Verif.Scope.base_private_refuted` | C Q P |
| C74 | `Verif.Scope.base_private_method_refuted` | C Q P |
| C74 | `Verif.Classes.object_private_hidden_partial` | Q P |
| C75 | `Verif.Scope.overload_layout_partial` | C Q P |
| C75 | `Verif.Scope.overload_layout_refuted` | C Q P |
| C76 | `Verif.Brackets.sane_source_no_overrun_partial` | C Q P |
| C76 | `Verif.Brackets.sane_source_overrun_refuted` | - |
| C77 | `Verif.Expr.parser_terminates` | C Q P |
| C77 | `Verif.Expr.accepted_is_spelled_partial` | C Q P |
| C77 | `Verif.Expr.no_expression_rejected` | C Q P |
| C77 | `Verif.Expr.missing_operand_rejected` | C Q P |
| C77 | `Verif.Expr.unclosed_parenthesis_rejected` | C Q P |
| C77 | `Verif.Expr.malformed_rejected_refuted` | C Q P |
| C77 | `Verif.Expr.superfluous_argument_accepted_refuted` | C Q P |
| C77 | `Verif.Expr.superfluous_last_argument_refuted` | C Q P |
| C77 | `Verif.Expr.type_as_operand_refuted` | C Q P |
| C78 | `Verif.Types.assignable_to_ancestors_partial` | C Q P |
| C78 | `Verif.Types.assignable_only_to_named_ancestors` | C Q P |
| C78 | `Verif.Types.assignable_to_distant_ancestors_refuted` | C Q P |
| C78 | `Verif.Types.assignment_has_target_type` | C Q P |
| C78 | `Verif.Types.user_types_keep_builtins` | C Q P |
| C79 | `Verif.Lex.words_classified` | C Q P |
| C80 | `Verif.Expr.class_operator_chain_refuted` | C Q P |
| C80 | `Verif.Expr.class_operator_called_partial` | C Q P |
| C80 | `Verif.Expr.class_operator_not_called` | C Q P |
| C81 | `Verif.Types.user_comparison_typed` | C Q P |
| C81 | `Verif.Types.user_arithmetic_typed_partial` | C Q P |
| C81 | `Verif.Types.user_arithmetic_result_refuted` | C Q P |
| C82 | `Verif.Expr.integer_constant_read` | C Q P |
| C82 | `Verif.Expr.integer_constant_partial` | C Q P |
| C82 | `Verif.Expr.large_constant_refuted` | C Q P |
| C83 | `Verif.Interp.script_meaning_partial` | Q P |
| C83 | `Verif.Interp.run_unique` | Q P |
| C83 | `Verif.Interp.meaning_unique` | Q P |
| C83 | `Verif.Interp.every_event_matters` | P |
| C84 | `Verif.Interp.statement_meaning_partial` | Q P |
| C84 | `Verif.Interp.rethrowOther_refuted` | P |
| C84 | `Verif.Interp.pendingReplaced_refuted` | P |
| C85 | `Verif.Interp.statement_meaning_partial` | Q P |
| C85 | `Verif.Interp.ctorReturn_refuted` | P |
| C85 | `Verif.Interp.ctorThrow_refuted` | P |
| C85 | `Verif.Interp.assignThrow_refuted` | P |
| C85 | `Verif.Interp.foreachThrow_refuted` | P |
| C85 | `Verif.Interp.operatorThrow_refuted` | P |
| C85 | `Verif.Interp.validateNull_refuted` | P |
| C86 | `Verif.Interp.statement_meaning_partial` | Q P |
| C86 | `Verif.Interp.dotArgs_refuted` | P |
| C86 | `Verif.Interp.dotThrow_refuted` | P |
| C87 | `Verif.Interp.exit_ends_script_partial` | Q P |
| C87 | `Verif.Interp.nothing_after_raise` | P |
| C87 | `Verif.Interp.exit_in_call_refuted` | P |
| C87 | `Verif.Interp.exit_skips_finally_refuted` | P |
| C88 | `Verif.Classes.instantiable_partial` | Q P |
| C88 | `Verif.Classes.inherited_abstract_refuted` | P |
| C88 | `Verif.Classes.interface_refuted` | P |
| C88 | `Verif.Classes.abstract_class_refuted` | P |
| C88 | `Verif.Classes.distant_abstract_refuted` | Q P |
| C88 | `Verif.Classes.overload_order_refuted` | P |
| C89 | `Verif.Enums.enum_decided_partial` | Q P |
| C89 | `Verif.Enums.enum_without_semicolon_refuted` | C Q P |
| C89 | `Verif.Enums.enum_overflow_refuted` | C Q P |
| C89 | `Verif.Enums.enum_rest_ignored` | C Q P |
| C90 | `Verif.Debug.config_roundtrip_partial` | C Q P |
| C90 | `Verif.Debug.words_split` | P |
| C90 | `Verif.Debug.config_blank_refuted` | C Q P |
| C91 | `Verif.Imports.import_meaning_depends_on_history_refuted` | C Q P |
| C91 | `Verif.Imports.imports_complete_partial` | C Q P |
| C92 | `Verif.Pkg.unpacked_versions_asked_for_partial` | C Q P |
| C92 | `Verif.Pkg.dependency_too_old_refuted` | C Q P |
| C92 | `Verif.Pkg.dependency_too_new_refuted` | C Q P |
| C93 | `Verif.Coll.queue_is_fifo_partial` | C Q P |
| C93 | `Verif.Coll.queue_peek_refuted` | Q P |
| C93 | `Verif.Coll.queue_foreach_refuted` | Q P |
| C94 | `Verif.Coll.double_linked_list_is_sequence_partial` | C Q P |
| C94 | `Verif.Coll.double_linked_push_front_refuted` | Q P |
| C94 | `Verif.Coll.double_linked_pop_back_refuted` | Q P |
| C94 | `Verif.Coll.double_linked_pop_front_refuted` | Q P |
| C95 | `Verif.Coll.range_visits_partial` | Q P |
| C95 | `Verif.Coll.range_negative_step_refuted` | C Q P |
| C95 | `Verif.Coll.range_empty_refuted` | - |
| C96 | `Verif.Coll.iterator_visits_partial` | C Q P |
| C96 | `Verif.Coll.iterator_visits_taken_refuted` | P |
| C96 | `Verif.Coll.reverse_iterator_refuted` | P |
| C97 | `Verif.Coll.copy_is_independent_partial` | C Q P |
| C97 | `Verif.Coll.copy_shares_items_refuted` | P |
| C98 | `Verif.Interp.delete_refuted` | P |
| C99 | `Verif.Stmt.method_read_partial` | C Q P |
| C99 | `Verif.Stmt.method_print_read_partial` | C Q P |
| C99 | `Verif.Stmt.spelling_unambiguous` | C Q P |
| C99 | `Verif.Stmt.declared_once` | C Q P |
| C99 | `Verif.Stmt.control_statements` | C Q P |
| C99 | `Verif.Stmt.throws_declared` | C Q P |
| C99 | `Verif.Stmt.thrown_kept` | C Q P |
| C99 | `Verif.Stmt.names_in_scope` | C Q P |
| C99 | `Verif.Stmt.names_may_hide` | C Q P |
| C99 | `Verif.Stmt.else_after_semicolon_refuted` | C Q P |
| C99 | `Verif.Stmt.jump_in_bare_loop_refuted` | C Q P |
| C100 | `Verif.Names.qualified_name_exact` | C Q P |
| C100 | `Verif.Names.qualified_name_partial` | C Q P |
| C100 | `Verif.Names.qualified_name_refuted` | C Q P |
| C101 | `Verif.Names.member_access_partial` | C Q P |
| C101 | `Verif.Names.variable_access` | C Q P |
| C101 | `Verif.Names.member_access_refuted` | P |
| C101 | `Verif.Names.deep_access_refuted` | P |
| C101 | `Verif.Names.base_access` | C Q P |
| C101 | `Verif.Names.this_access` | C Q P |
| C102 | `Verif.Names.local_name_partial` | Q P |
| C102 | `Verif.Names.member_hides_local` | Q P |
| C102 | `Verif.Names.local_name_refuted` | P |
| C103 | `Verif.Names.null_member_partial` | C Q P |
| C103 | `Verif.Names.null_call_partial` | C Q P |
| C103 | `Verif.Names.null_member_refuted` | P |
| C103 | `Verif.Names.null_assign_refuted` | P |
| C103 | `Verif.Names.null_call_refuted` | Q P |
| C104 | `Verif.Names.const_variable_partial` | C Q P |
| C104 | `Verif.Names.const_call_partial` | C Q P |
| C104 | `Verif.Names.const_member_refuted` | P |
| C105 | `Verif.Names.const_method_partial` | P |
| C105 | `Verif.Names.const_method_simple` | Q P |
| C105 | `Verif.Names.const_method_refuted` | C Q P |
| C105 | `Verif.Names.const_method_calls` | P |
| C106 | `Verif.Names.static_call_partial` | P |
| C106 | `Verif.Names.static_member_refuted` | P |
| C107 | `Verif.Names.run_time_member_partial` | C Q P |
| C107 | `Verif.Names.run_time_static_refuted` | P |
| C107 | `Verif.Names.run_time_private_refuted` | P |
| C107 | `Verif.Names.object_symbols` | P |
| C108 | `Verif.Decl.declarations_read_partial` | C Q P |
| C108 | `Verif.Decl.declarations_print_read_partial` | C Q P |
| C108 | `Verif.Decl.declarations_unambiguous` | C Q P |
| C108 | `Verif.Decl.analysis_ends` | C Q P |
| C108 | `Verif.Decl.stable_enum_refuted` | C Q P |
| C108 | `Verif.Decl.late_replication_refuted` | C Q P |
| C108 | `Verif.Decl.nested_interface_refuted` | C Q P |
| C108 | `Verif.Decl.replication_body_refuted` | C Q P |
| C108 | `Verif.Decl.parameter_separators_refuted` | C Q P |
| C109 | `Verif.Vars.class_variable_accepts_partial` | C Q P |
| C109 | `Verif.Vars.class_variable_accepts_refuted` | P |
| C110 | `Verif.Vars.variables_hold_their_type_partial` | C Q P |
| C110 | `Verif.Vars.variables_hold_their_type_refuted` | C Q P |
| C111 | `Verif.Vars.assigned_objects_are_shared` | C Q P |
| C111 | `Verif.Vars.assignment_changes_only_its_target` | C Q P |
| C112 | `Verif.Vars.equality_is_identity` | C Q P |
| C113 | `Verif.Vars.is_follows_the_object_partial` | C Q P |
| C113 | `Verif.Vars.is_follows_the_object_refuted` | P |
| C113 | `Verif.Vars.null_is_instance_refuted` | P |
| C114 | `Verif.Vars.called_function_is_the_compiled_one_partial` | C Q P |
| C114 | `Verif.Vars.called_function_is_the_compiled_one_refuted` | P |
| C115 | `Verif.Vars.atomic_variables_are_independent_partial` | C Q P |
| C115 | `Verif.Vars.atomic_variables_are_independent_refuted` | P |
| C115 | `Verif.Vars.casts_leave_their_argument_refuted` | P |
| C116 | `Verif.Vars.assigning_null_partial` | C Q P |
| C116 | `Verif.Vars.assigning_null_refuted` | P |
| C116 | `Verif.Vars.assigned_reference_exactly` | C Q P |
| C117 | `Verif.Files.handles_are_new` | C Q P |
| C117 | `Verif.Files.other_handles_are_untouched` | C Q P |
| C118 | `Verif.Files.unknown_handles_are_rejected_partial` | C Q P |
| C118 | `Verif.Files.stale_handles_refuted` | C Q P |
| C118 | `Verif.Files.files_work_as_expected_partial` | C Q P |
| C119 | `Verif.Files.freads_reads_the_next_bytes_partial` | Q P |
| C119 | `Verif.Files.failed_reads_are_reported_refuted` | Q P |
| C119 | `Verif.Files.short_reads_are_reported_refuted` | Q P |
| C120 | `Verif.Files.text_is_read_back_partial` | C Q P |
| C120 | `Verif.Files.text_with_zero_byte_refuted` | C Q P |
| C120 | `Verif.Files.numbers_are_read_back` | C Q P |
| C121 | `Verif.Files.fgets_gives_the_next_line_partial` | Q P |
| C121 | `Verif.Files.fgets_gives_a_part_partial` | Q P |
| C121 | `Verif.Files.fgets_loses_a_line_refuted` | Q P |
| C122 | `Verif.Files.file_open_partial` | C Q P |
| C122 | `Verif.Files.file_open_reports_failure_refuted` | C Q P |
| C122 | `Verif.Files.file_write_reports_success_refuted` | P |
| C122 | `Verif.Files.file_write_int_reports_success_refuted` | P |
| C122 | `Verif.Files.closed_file_refuted` | C Q P |
| C122 | `Verif.Files.file_methods` | Q P |
| C122 | `Verif.Files.file_close_once` | P |
| C122 | `Verif.Files.access_modes_partial` | C Q P |
| C122 | `Verif.Files.access_mode_readWrite_refuted` | C Q P |
| C123 | `Verif.Text.charAt_is_the_character` | C Q P |
| C123 | `Verif.Text.contains_iff` | C Q P |
| C123 | `Verif.Text.startsWith_iff` | C Q P |
| C123 | `Verif.Text.endsWith_iff_partial` | C Q P |
| C123 | `Verif.Text.endsWith_longer_refuted` | C Q P |
| C123 | `Verif.Text.indexOf_is_the_first` | C Q P |
| C123 | `Verif.Text.lastIndexOf_is_the_last` | C Q P |
| C123 | `Verif.Text.between_refuted` | Q P |
| C124 | `Verif.Text.replace_replaces_the_first` | C Q P |
| C124 | `Verif.Text.removeCharAt_removes` | C Q P |
| C124 | `Verif.Text.trimLeftBy_cuts` | C Q P |
| C124 | `Verif.Text.trimRightBy_cuts_partial` | C Q P |
| C124 | `Verif.Text.trimRightBy_more_refuted` | C Q P |
| C124 | `Verif.Text.trim_removes_blanks_partial` | C Q P |
| C124 | `Verif.Text.one_side_and_assignment` | C Q P |
| C124 | `Verif.Text.trim_whitespace_refuted` | C Q P |
| C124 | `Verif.Text.length_is_right_partial` | C Q P |
| C124 | `Verif.Text.append_length_refuted` | Q P |
| C125 | `Verif.Text.replaceAll_leaves_none` | C Q P |
| C125 | `Verif.Text.replaceAll_replaces_each_partial` | C Q P |
| C125 | `Verif.Text.replaceAll_ends_partial` | C Q P |
| C125 | `Verif.Text.replaceAll_ends_refuted` | C Q P |
| C125 | `Verif.Text.replaceAll_once_refuted` | C Q P |
| C126 | `Verif.Text.split_gives_the_pieces_partial` | C Q P |
| C126 | `Verif.Text.split_join_partial` | C Q P |
| C126 | `Verif.Text.split_empty_separator_refuted` | C Q P |
| C126 | `Verif.Text.current_is_the_last_piece` | C Q P |
| C126 | `Verif.Text.nextWith_skips_refuted` | C Q P |
| C127 | `Verif.Text.characters_partial` | C Q P |
| C127 | `Verif.Text.characters_refuted` | C Q P |
| C127 | `Verif.Text.peek_is_next` | Q P |
| C128 | `Verif.Args.options_then_script` | C Q P |
| C128 | `Verif.Args.script_runs_iff` | C Q P |
| C128 | `Verif.Args.environment_folders` | C Q P |
| C129 | `Verif.Args.handler_gives_the_arguments_partial` | C Q P |
| C129 | `Verif.Args.script_gets_its_arguments_partial` | C Q P |
| C129 | `Verif.Args.handler_lookup` | Q P |
| C129 | `Verif.Args.directory_name` | C Q P |
| C129 | `Verif.Args.blank_in_argument_refuted` | C Q P |
| C129 | `Verif.Args.false_argument_refuted` | C Q P |
| C129 | `Verif.Args.second_equals_refuted` | C Q P |
| C129 | `Verif.Args.quotes_refuted` | C Q P |
| C130 | `Verif.Heap.inherited_never_undefined` | C Q P |
| C130 | `Verif.Heap.inherited_no_dangling` | C Q P |
| C130 | `Verif.Heap.inherited_count_eq_references` | C Q P |
| C130 | `Verif.Heap.inherited_members_leak_refuted` | C Q P |
| C130 | `Verif.Heap.inherited_leak_exists` | P |
| C130 | `Verif.Heap.inherited_garbage_destroyed_partial` | C Q P |
| C131 | `Verif.Objs.new_members_partial` | Q P |
| C131 | `Verif.Objs.generic_string_member_refuted` | Q P |
| C131 | `Verif.Objs.static_member_of_class` | Q P |
| C131 | `Verif.Objs.generic_static_member_refuted` | Q P |
| C131 | `Verif.Objs.object_created` | Q P |
| C132 | `Verif.Objs.own_constructor_runs_partial` | C Q P |
| C132 | `Verif.Objs.nearest_constructor_runs` | C Q P |
| C132 | `Verif.Objs.new_rejected_iff` | C Q P |
| C132 | `Verif.Objs.default_constructor_runs` | C Q P |
| C132 | `Verif.Objs.private_constructor_never_runs` | C Q P |
| C132 | `Verif.Objs.private_constructor_refuted` | C Q P |
| C132 | `Verif.Objs.specialized_constructor_refuted` | C Q P |
| C132 | `Verif.Objs.private_constructor_fails_late_refuted` | C Q P |
| C132 | `Verif.Objs.final_constructor_refuted` | C Q P |
| C132 | `Verif.Objs.nearest_destructor_runs_partial` | C Q P |
| C132 | `Verif.Objs.final_destructor_refuted` | C Q P |
| C133 | `Verif.Coll.iterator_is_cursor_partial` | Q P |
| C133 | `Verif.Coll.peek_refuted` | C Q P |
| C133 | `Verif.Coll.previous_at_start_refuted` | Q P |
| C133 | `Verif.Coll.vector_previous_refuted` | Q P |
| C134 | `Verif.Calc.number_text_partial` | C Q P |
| C134 | `Verif.Calc.condition_text_partial` | C Q P |
| C134 | `Verif.Calc.minus_minus_refuted` | C Q P |
| C135 | `Verif.Whole.script_accepted_partial` | C Q P |
| C135 | `Verif.Whole.script_prints_partial` | C Q P |
| C135 | `Verif.Whole.layout_irrelevant_partial` | C Q P |
| C135 | `Verif.Whole.output_unique_partial` | C Q P |
| C135 | `Verif.Whole.script_unique` | C Q P |
| C135 | `Verif.Whole.Demo.own_initial_value_refuted` | C Q P |
| C135 | `Verif.Whole.Demo.parameter_twice_refuted` | C Q P |
| C135 | `Verif.Whole.Demo.break_in_for_refuted` | C Q P |
| C135 | `Verif.Whole.Demo.continue_in_switch_refuted` | C Q P |
| C136 | `Verif.Json.document_read_partial` | C Q P |
| C136 | `Verif.Json.numbers_refuted` | C Q P |
| C136 | `Verif.Json.scalar_refuted` | C Q P |
| C136 | `Verif.Json.letter_escape_refuted` | C Q P |
| C136 | `Verif.Json.capital_exponent_refuted` | C Q P |
| C137 | `Verif.Json.written_document_partial` | C Q P |
| C137 | `Verif.Json.written_read_partial` | C Q P |
| C137 | `Verif.Json.write_plain` | C Q P |
| C137 | `Verif.Json.false_first_refuted` | C Q P |
| C137 | `Verif.Json.false_first_read_refuted` | C Q P |
| C137 | `Verif.Json.unescaped_refuted` | C Q P |
| C138 | `Verif.Json.reading_ends_partial` | C Q P |
| C138 | `Verif.Json.brackets_diverge_refuted` | C Q P |
| C138 | `Verif.Json.missing_bracket_refuted` | C Q P |
| C138 | `Verif.Json.garbage_refuted` | C Q P |
| C139 | `Verif.Whole.script_outcomes_partial` | C Q P |
| C139 | `Verif.Whole.script_ends_iff_partial` | C Q P |
| C139 | `Verif.Whole.script_fails_iff_partial` | C Q P |
| C139 | `Verif.Whole.script_forever_iff_partial` | C Q P |
| C139 | `Verif.Whole.wrong_not_ended_partial` | C Q P |
| C140 | `Verif.Whole.script_checked_partial` | C Q P |
| C140 | `Verif.Whole.script_rejected_partial` | C Q P |
| C140 | `Verif.Whole.unknown_function_rejected_partial` | C Q P |
| C140 | `Verif.Whole.stray_jump_rejected_partial` | C Q P |
| C140 | `Verif.Whole.result_of_void_rejected_partial` | C Q P |
| C140 | `Verif.Whole.return_without_result_rejected_partial` | C Q P |
| C140 | `Verif.Whole.call_result_of_void_rejected_partial` | C Q P |
| C140 | `Verif.Whole.void_result_rejected_partial` | C Q P |
| C140 | `Verif.Whole.missing_result_rejected_partial` | C Q P |
| C140 | `Verif.Whole.undeclared_rejected_partial` | C Q P |
| C140 | `Verif.Whole.second_default_rejected_partial` | C Q P |
| C140 | `Verif.Whole.block_without_jump_rejected_partial` | C Q P |
| C140 | `Verif.Whole.Demo.function_as_value_refuted` | C Q P |
| C140 | `Verif.Whole.Demo.lost_result_refuted` | C Q P |
| C140 | `Verif.Whole.Demo.good_result_refuted` | C Q P |
| C140 | `Verif.Whole.Demo.counted_truth_refuted` | C Q P |
| C140 | `Verif.Whole.Demo.nothing_printed_refuted` | C Q P |
| C141 | `Verif.Json.Build.built_document_partial` | C Q P |
| C141 | `Verif.Json.Build.built_read_partial` | C Q P |
| C141 | `Verif.Json.Build.truth_refuted` | C Q P |
| C141 | `Verif.Json.Build.injection_refuted` | C Q P |
| C141 | `Verif.Json.Build.second_document_refuted` | C Q P |
| C142 | `Verif.SemVer.Script.version_read` | C Q P |
| C142 | `Verif.SemVer.Script.version_roundtrip_partial` | C Q P |
| C142 | `Verif.SemVer.Script.compare_partial` | C Q P |
| C142 | `Verif.SemVer.Script.before_total` | C Q P |
| C142 | `Verif.SemVer.Script.greater_is_less` | C Q P |
| C142 | `Verif.SemVer.Script.next_after` | Q P |
| C142 | `Verif.SemVer.Script.next_least` | Q P |
| C142 | `Verif.SemVer.Script.build_refuted` | C Q P |
| C142 | `Verif.SemVer.Script.build_in_label_refuted` | C Q P |
| C142 | `Verif.SemVer.Script.label_refuted` | C Q P |
| C142 | `Verif.SemVer.Script.label_order_refuted` | C Q P |
| C143 | `Verif.Trees.sequence_episode` | Q P |
| C143 | `Verif.Trees.fallback_episode` | Q P |
| C143 | `Verif.Trees.inverter_episode` | P |
| C143 | `Verif.Trees.reactive_starts_over` | Q P |
| C143 | `Verif.Trees.tree_is_formula_partial` | Q P |
| C143 | `Verif.Trees.force_refuted` | - |
| C143 | `Verif.Trees.star_refuted` | Q P |
| C144 | `Verif.Csv.open_rows` | C Q P |
| C144 | `Verif.Csv.table_read_partial` | C Q P |
| C144 | `Verif.Csv.column_index` | Q P |
| C144 | `Verif.Csv.last_row_refuted` | C Q P |
| C144 | `Verif.Csv.titles_refuted` | C Q P |
| C144 | `Verif.Csv.second_file_refuted` | C Q P |
| C144 | `Verif.Csv.quoted_refuted` | C Q P |
| C145 | `Verif.Global.type_names_mean_the_nearest_type_partial` | C Q P |
| C145 | `Verif.Global.type_used_early_refuted` | C Q P |
| C145 | `Verif.Global.member_is_type_refuted` | C Q P |
| C145 | `Verif.Global.member_hides_type_refuted` | C Q P |
| C145 | `Verif.Global.interface_parents_refuted` | C Q P |
| C145 | `Verif.Global.class_named_like_its_namespace_refuted` | C Q P |
| C146 | `Verif.Global.classes_are_those_declared_partial` | C Q P |
| C146 | `Verif.Global.inner_class_refuted` | C Q P |
| C146 | `Verif.Global.second_class_in_namespace_refuted` | C Q P |
| C147 | `Verif.Global.rejected_iff_declared_twice_partial` | C Q P |
| C147 | `Verif.Global.second_class_in_namespace_refuted` | C Q P |
| C147 | `Verif.Global.class_named_like_its_namespace_refuted` | C Q P |
| C148 | `Verif.Global.load_append` | C Q P |
| C148 | `Verif.Global.namespace_dotted` | C Q P |
| C148 | `Verif.Global.namespace_in_parts` | C Q P |
| C148 | `Verif.Global.namespace_visibility_refuted` | C Q P |
| C149 | `Verif.Sudoku.calculate_ends` | C Q P |
| C149 | `Verif.Sudoku.calculate_keeps_numbers` | C Q P |
| C149 | `Verif.Sudoku.calculate_forced` | C Q P |
| C149 | `Verif.Sudoku.calculate_lists` | C Q P |
| C149 | `Verif.Sudoku.calculate_covers` | C Q P |
| C149 | `Verif.Sudoku.calculate_solved` | C Q P |
| C150 | `Verif.Sudoku.solve_keeps_partial` | C Q P |
| C150 | `Verif.Sudoku.solve_reports_refuted` | C Q P |
| C150 | `Verif.Sudoku.solve_finds_refuted` | C Q P |
| C151 | `Verif.Sudoku.set_checked` | C Q P |
| C151 | `Verif.Sudoku.findEmptyCell_spec` | C Q P |
| C151 | `Verif.Sudoku.isSane_refuted` | C Q P |
| C152 | `Verif.Debug.unconditional_stops` | P |
| C152 | `Verif.Debug.literal_condition_partial` | C Q P |
| C152 | `Verif.Debug.variable_condition_refuted` | C Q P |
| C153 | `Verif.Debug.frame_moves_partial` | C Q P |
| C153 | `Verif.Debug.frame_kept` | C Q P |
| C153 | `Verif.Debug.down_past_end_refuted` | C Q P |
| C153 | `Verif.Debug.first_stop_frame_refuted` | C Q P |
| C154 | `Verif.Debug.print_shows` | C Q P |
| C154 | `Verif.Debug.modify_changes_partial` | C Q P |
| C154 | `Verif.Debug.modify_type_refuted` | C Q P |
| C154 | `Verif.Debug.watches_set` | C Q P |
| C154 | `Verif.Debug.watches_shown` | C Q P |
| C155 | `Verif.Debug.goes_on_iff_partial` | C Q P |
| C155 | `Verif.Debug.told_goes` | C Q P |
| C155 | `Verif.Debug.not_told_stays_partial` | C Q P |
| C156 | `Verif.Generic.arguments_read` | C Q P |
| C156 | `Verif.Generic.missing_arguments_object` | Q P |
| C156 | `Verif.Generic.too_many_arguments` | Q P |
| C156 | `Verif.Generic.separators_refuted` | C Q P |
| C156 | `Verif.Generic.nested_arguments_refuted` | C Q P |
| C157 | `Verif.Net.values_arrive_partial` | C Q P |
| C157 | `Verif.Net.small_values_arrive` | C Q P |
| C157 | `Verif.Net.reads_takes` | C Q P |
| C157 | `Verif.Net.int_in_pieces` | C Q P |
| C157 | `Verif.Net.values_arrive_refuted` | C Q P |
| C157 | `Verif.Net.end_not_told_refuted` | C Q P |
| C158 | `Verif.Net.failure_told_partial` | P |
| C158 | `Verif.Net.failure_told_refuted` | P |
| C158 | `Verif.Net.text_sent_in_order` | Q P |
| C158 | `Verif.Net.count_of_bytes_partial` | Q P |
| C158 | `Verif.Net.count_of_bytes_refuted` | Q P |
| C159 | `Verif.Net.client_writes_when_connected` | Q P |
| C159 | `Verif.Net.client_writes_reach` | P |
| C159 | `Verif.Net.reconnect_refuted` | P |
| C159 | `Verif.Net.bind_told_refuted` | - |
| C160 | `Verif.Calc.assertion_told_partial` | C Q P |
| C160 | `Verif.Calc.assertion_unequal_refuted` | C Q P |
| C160 | `Verif.Calc.assertion_truth_refuted` | C Q P |
| C160 | `Verif.Calc.assertion_signs_refuted` | C Q P |
| C160 | `Verif.Calc.assertion_object_refuted` | C Q P |
| C161 | `Verif.Embed.specification_lists_methods` | C Q P |
| C161 | `Verif.Embed.extensions_complete_partial` | C Q P |
| C161 | `Verif.Embed.specification_search` | C Q P |
| C161 | `Verif.Embed.extension_answer` | C Q P |
| C161 | `Verif.Embed.extension_cut_refuted` | C Q P |
| C161 | `Verif.Embed.extension_order_refuted` | C Q P |
| C162 | `Verif.Embed.called_by_name_partial` | C Q P |
| C162 | `Verif.Embed.called_by_name_short` | C Q P |
| C162 | `Verif.Embed.split_dotted` | P |
| C162 | `Verif.Embed.called_by_name_refuted` | C Q P |
| C163 | `Verif.Str.Config.config_values_partial` | C Q P |
| C163 | `Verif.Str.Config.config_indexed` | C Q P |
| C163 | `Verif.Str.Config.config_missing` | Q P |
| C163 | `Verif.Str.Config.config_last_line_refuted` | C Q P |
| C164 | `Verif.Str.extract_quoted` | P |
| C164 | `Verif.Str.extract_unquoted` | P |
| C165 | `Verif.Log.logger_key_partial` | C Q P |
| C165 | `Verif.Log.logger_key_blank_refuted` | C Q P |
| C165 | `Verif.Log.logger_negative_length` | C Q P |
| C165 | `Verif.Log.io_logger_key_partial` | C Q P |
| C165 | `Verif.Log.io_logger_short_key_refuted` | C Q P |
| C166 | `Verif.Log.file_log_contents` | C Q P |
| C166 | `Verif.Log.appending_log_refuted` | C Q P |
| C166 | `Verif.Log.file_log_lines_refuted` | C Q P |
| C167 | `Verif.Ints.power_is_the_power_partial` | C Q P |
| C167 | `Verif.Ints.power_small_exponent_refuted` | C Q P |
| C167 | `Verif.Ints.squares` | C Q P |
| C168 | `Verif.Libc.strchr_first_partial` | Q P |
| C168 | `Verif.Libc.strrchr_last_partial` | Q P |
| C168 | `Verif.Libc.strchr_absent_refuted` | Q P |
| C168 | `Verif.Libc.strpbrk_first_partial` | Q P |
| C168 | `Verif.Libc.strpbrk_absent_refuted` | Q P |
| C168 | `Verif.Libc.strstr_first_partial` | Q P |
| C168 | `Verif.Libc.strstr_absent_refuted` | Q P |
| C168 | `Verif.Libc.spans` | Q P |
| C169 | `Verif.Libc.strcmp_compares_partial` | C Q P |
| C169 | `Verif.Libc.strcmp_zero_byte_refuted` | C Q P |
| C169 | `Verif.Libc.strncmp_compares_partial` | C Q P |
| C169 | `Verif.Libc.strcat_joins` | P |
| C169 | `Verif.Libc.strncat_refuted` | Q P |
| C169 | `Verif.Libc.strncat_exception_refuted` | Q P |
| C170 | `Verif.Libc.case_partial` | C Q P |
| C170 | `Verif.Libc.case_again` | C Q P |
| C170 | `Verif.Libc.case_other_refuted` | P |
| C171 | `Verif.Libc.environment_partial` | Q P |
| C171 | `Verif.Libc.putenv_refuted` | Q P |
| C172 | `Verif.Web.requests_are_answered_partial` | C Q P |
| C172 | `Verif.Web.incomplete_request_refuted` | C Q P |
| C173 | `Verif.Web.script_sees_request_partial` | C Q P |
| C173 | `Verif.Web.missing_parameter_refuted` | C Q P |
| C173 | `Verif.Web.requests_are_answered_partial` | C Q P |
| C174 | `Verif.Repo.index_newest_partial` | C Q P |
| C174 | `Verif.Repo.index_bad_file_refuted` | C Q P |
| C174 | `Verif.Repo.index_false_refuted` | C Q P |
| C175 | `Verif.Repo.check_ok_iff_partial` | C Q P |
| C175 | `Verif.Repo.check_missing_refuted` | C Q P |
| C175 | `Verif.Repo.check_later_refuted` | C Q P |
| C176 | `Verif.Anc.class_ancestors_partial` | C Q P |
| C176 | `Verif.Anc.class_ancestors_exact` | C Q P |
| C176 | `Verif.Anc.ancestors_of_kind` | C Q P |
| C176 | `Verif.Anc.inherits_from_written` | C Q P |
| C176 | `Verif.Anc.ancestor_lost_refuted` | C Q P |
| C176 | `Verif.Anc.ancestor_twice_refuted` | C Q P |
| C177 | `Verif.Query.query_tokens_partial` | C Q P |
| C177 | `Verif.Query.letter_q_refuted` | C Q P |
| C177 | `Verif.Query.number_at_end_refuted` | C Q P |
| C178 | `Verif.Query.explain_partial` | C Q P |
| C178 | `Verif.Query.explain_missing` | C Q P |
| C178 | `Verif.Query.other_queries` | C Q P |
| C178 | `Verif.Query.select_refuted` | C Q P |
| C178 | `Verif.Query.false_title_refuted` | C Q P |
| C179 | `Verif.Trace.uncaught_report_partial` | C Q P |
| C179 | `Verif.Trace.fault_refuted` | C Q P |
| C179 | `Verif.Trace.rethrow_refuted` | C Q P |
| C179 | `Verif.Trace.final_refuted` | C Q P |
| C180 | `Verif.Files.scanner_text_partial` | C Q P |
| C180 | `Verif.Files.scanner_grown_refuted` | C Q P |
| C180 | `Verif.Files.scanner_missing_refuted` | C Q P |
| C181 | `Verif.Dump.text_of_object_partial` | C Q P |
| C181 | `Verif.Dump.text_ends_iff_partial` | C Q P |
| C181 | `Verif.Dump.cyclic_refuted` | C Q P |
| C181 | `Verif.Dump.member_name_refuted` | C Q P |
| C181 | `Verif.Dump.inherited_refuted` | C Q P |
| C182 | `Verif.Heap.shutdown_iff_partial` | C Q P |
| C182 | `Verif.Heap.shutdown_of_acyclic_partial` | C Q P |
| C182 | `Verif.Heap.shutdown_of_ordered_partial` | C Q P |
| C182 | `Verif.Heap.shutdown_refuted` | C Q P |
| C182 | `Verif.Heap.shutdown_leaked_refuted` | Q P |
