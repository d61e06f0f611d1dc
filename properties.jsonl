{"id": "C01", "title": "Object addresses are fresh", "statement": "Creating an object never returns the null address and never returns an address that was handed out before, not even that of an object deleted since; when the 32-bit address space is used up creation fails with an exception instead of reusing an address.", "quantifier": "every sequence of create / take / release / delete requests issued to the object memory", "why_tests_cant": "the claim is about every history of the address counter, including histories of four billion allocations", "anchors": ["Projects/Core/Core/VirtualMachine/Memory.cpp: Memory::newObject, Memory::reserveAddress"]}
{"id": "C02", "title": "An object lives exactly as long as it is referenced", "statement": "After any history in which no client releases more references than it took, an object that was ever referenced is still alive if and only if it has at least one outstanding reference, and its destruction happened exactly once, at the release that dropped the last one.", "quantifier": "every interleaving of create / take-reference / release-reference requests over any number of objects", "why_tests_cant": "needs all interleavings of takes and releases, for any number of objects", "anchors": ["Projects/Core/Core/VirtualMachine/Memory.cpp: Memory::add, Memory::remove, Memory::deleteObject"]}
{"id": "C03", "title": "Reference operations are isolated", "statement": "Taking, releasing or deleting one object never changes the reference count or the liveness of any other object; taking or releasing the null reference does nothing; taking or releasing an unknown address raises an error and changes nothing.", "quantifier": "every memory state and every pair of addresses", "why_tests_cant": "quantifies over all states and over all other objects of the heap", "anchors": ["Projects/Core/Core/VirtualMachine/Memory.cpp: Memory::add, Memory::remove, Memory::get"]}
{"id": "C04", "title": "Rebinding variables never leaves a dangling reference", "statement": "However reference variables are created, rebound to each other (including a variable to itself) or to new objects, and destroyed, every variable that is bound is bound to a live object, and each object's reference count equals the number of variables bound to it.", "quantifier": "every sequence of variable creation, rebinding, and destruction", "why_tests_cant": "aliasing histories are unbounded; the order of taking the new and dropping the old reference only matters on particular aliasings", "anchors": ["Projects/Core/Core/Object.cpp: Object::assignReference, Object::~Object", "Projects/Core/Core/VirtualMachine/Memory.cpp"]}
{"id": "C05", "title": "Cascading release frees what was owned and nothing else", "statement": "When the last reference to an object goes away, the references held by its members are released in turn; nothing that is still reachable from a variable is ever destroyed, and an object graph without reference cycles is destroyed completely once no variable reaches it.", "quantifier": "every object graph (any size and shape) and every sequence of rebinding operations", "why_tests_cant": "graph shapes and sharing patterns are unbounded", "anchors": ["Projects/Core/Core/VirtualMachine/Memory.cpp", "Projects/Core/Core/Object.cpp: Object::~Object"]}
{"id": "C06", "title": "Innermost visible declaration wins", "statement": "Looking a name up from a scope yields the declaration of the nearest enclosing scope that declares the name with sufficient visibility, and fails exactly when no enclosing scope does.", "quantifier": "every chain of nested scopes, every name, every access level", "why_tests_cant": "nesting depth and declaration placement are unbounded", "anchors": ["Projects/Core/Core/Scope.cpp: SymbolScope::resolve, MethodScope::resolve"]}
{"id": "C07", "title": "Declarations are unique and non-interfering", "statement": "Declaring a name in a scope succeeds exactly when the scope does not already hold that name; afterwards the name resolves to the new symbol and every other name resolves as before; a rejected declaration changes nothing.", "quantifier": "every scope state, every sequence of declarations", "why_tests_cant": "claims non-interference for all other names and all prior histories", "anchors": ["Projects/Core/Core/Scope.cpp: SymbolScope::define, MethodScope::define"]}
{"id": "C08", "title": "Access levels are monotone and enforced", "statement": "A lookup performed at a given access level never returns a declaration of lower visibility than that level, and anything visible at a stricter level is also visible at every laxer level.", "quantifier": "every scope chain, every name, every pair of access levels", "why_tests_cant": "universal over scope chains and all levels", "anchors": ["Projects/Core/Core/Scope.cpp", "Projects/Core/Core/Common/../Defines.h Visibility", "Projects/Core/Core/Object.cpp: Object::resolve"]}
{"id": "C09", "title": "Overload lookup returns only applicable methods", "statement": "If a method call is resolved, the chosen method accepts the argument list (no missing non-default argument, no surplus argument, matching types), belongs to the first scope in the chain that offers an applicable one, and two methods with the same signature can never both be declared in one scope.", "quantifier": "every scope chain with any set of overloads and any argument list", "why_tests_cant": "overload sets and argument lists are unbounded", "anchors": ["Projects/Core/Core/Scope.cpp: MethodScope::resolveMethod, MethodScope::defineMethod", "Projects/Core/Core/Common/Method.cpp: Method::isSignatureValid"]}
{"id": "C10", "title": "String literals survive tokenisation", "statement": "For every text, writing it between double quotes with each quote and backslash escaped by a backslash, followed by any delimiter, yields exactly one string-literal token whose content is the original text.", "quantifier": "every text (without NUL), every clean tokenizer position", "why_tests_cant": "texts are unbounded and the escape state machine must be right in every context", "anchors": ["Projects/Core/Core/Designtime/Parser/Tokenizer.cpp: Tokenizer::process, Tokenizer::addToken"]}
{"id": "C11", "title": "Line comments are invisible", "statement": "Inserting a '#' line comment (or a '//' line comment directly after a space or at the start of a line) with arbitrary content before a newline does not change the sequence of tokens.", "quantifier": "every program prefix, every comment text, every remainder", "why_tests_cant": "comment texts may contain quotes, comment openers, keywords; unbounded", "anchors": ["Projects/Core/Core/Designtime/Parser/Tokenizer.cpp: Tokenizer::process"]}
{"id": "C12", "title": "Block comments are invisible", "statement": "Replacing a block comment with arbitrary content by a single space does not change the token sequence (line numbers aside).", "quantifier": "every program prefix, every comment text not containing the closing mark, every remainder", "why_tests_cant": "unbounded comment texts and contexts; fails only for particular adjacency", "anchors": ["Projects/Core/Core/Designtime/Parser/Tokenizer.cpp: Tokenizer::process"]}
{"id": "C13", "title": "Token positions are the true line numbers", "statement": "The line reported for each token equals one plus the number of newlines preceding it in the source, and lines never decrease along the token list.", "quantifier": "every source text (strings without embedded line continuation)", "why_tests_cant": "all sources", "anchors": ["Projects/Core/Core/Designtime/Parser/Tokenizer.cpp: Tokenizer::process"]}
{"id": "C14", "title": "Words separated by spaces are tokenised one to one", "statement": "A sequence of identifiers, keywords, and numbers, each followed by whitespace, is tokenised into exactly those words, in order, followed by one end-of-file token.", "quantifier": "every list of words", "why_tests_cant": "word lists are unbounded", "anchors": ["Projects/Core/Core/Designtime/Parser/Tokenizer.cpp: Tokenizer::process, Tokenizer::addToken"]}
{"id": "C15", "title": "No source text is lost at end of file", "statement": "Appending a newline to a source does not change its token sequence, i.e. the last token of a file counts even when the file has no trailing newline.", "quantifier": "every source text", "why_tests_cant": "depends on the end-of-input state for all inputs", "anchors": ["Projects/Core/Core/Designtime/Parser/Tokenizer.cpp: Tokenizer::process"]}
{"id": "C16", "title": "Operators are merged only when written together", "statement": "Adjacent operator characters form one compound operator exactly when they are written next to each other; separating them by whitespace keeps them apart.", "quantifier": "every token sequence", "why_tests_cant": "all operator pairs and contexts", "anchors": ["Projects/Core/Core/Designtime/Parser/Tokenizer.cpp: Tokenizer::mergeAssignments, Tokenizer::mergeOperators"]}
{"id": "C17", "title": "Parsing inverts printing for expressions", "statement": "Every expression tree of arithmetic, comparison, boolean and unary operators over variables and literals, printed with the parentheses its precedence requires, is parsed back into exactly the same tree.", "quantifier": "every expression tree", "why_tests_cant": "trees are unbounded in depth and shape", "anchors": ["Projects/Core/Core/AST/TreeGenerator.cpp: TreeGenerator::expression, parseCondition, parseExpression, parseFactor, parseInfix, parseTerm"]}
{"id": "C18", "title": "Operators of one precedence group left to right", "statement": "A chain a1 op a2 op ... op an of operators of the same level is evaluated as ((a1 op a2) op a3) ..., for any length.", "quantifier": "every chain length and every operator choice at one level", "why_tests_cant": "chain length unbounded", "anchors": ["Projects/Core/Core/AST/TreeGenerator.cpp: parseCondition, parseExpression, parseFactor, expression"]}
{"id": "C19", "title": "Conventional precedence of boolean and ternary operators", "statement": "Conjunction binds tighter than disjunction, and the ternary operator binds weaker than comparison.", "quantifier": "every operand expression", "why_tests_cant": "claims a tree shape for all operands", "anchors": ["Projects/Core/Core/AST/TreeGenerator.cpp: TreeGenerator::expression, parsePostfix, processTernary"]}
{"id": "C20", "title": "Block extraction returns exactly the block", "statement": "Given a token stream positioned at an opening bracket whose block is well nested, the extractor returns exactly the tokens between it and its matching closing bracket, however deeply nested, and leaves the cursor at the matching closing bracket; it never runs past the end of a stream that contains a match.", "quantifier": "every well-nested token stream", "why_tests_cant": "nesting depth unbounded", "anchors": ["Projects/Core/Core/Common/Utils.cpp: findNextBalancedCurlyBracket, findNextBalancedParenthesis, findNextBalancedBracket", "Projects/Core/Core/Designtime/Parser/Parser.cpp: Parser::collectScopeTokens"]}
{"id": "C21", "title": "Sanity check rejects unbalanced sources", "statement": "The sanity check accepts every well-nested source, and every source it accepts has equally many opening and closing brackets of each kind.", "quantifier": "every token list", "why_tests_cant": "all token lists", "anchors": ["Projects/Core/Core/Designtime/SanityChecker.cpp: SanityChecker::process"]}
{"id": "C22", "title": "Operator typing is a function fixed at first registration", "statement": "Once an operator has been registered for a pair of types, no later registration changes the result type of that or of any other combination.", "quantifier": "every sequence of registrations and every query", "why_tests_cant": "all registration orders", "anchors": ["Projects/Core/Core/VirtualMachine/TypeSystem.cpp: TypeSystem::define, TypeSystem::exists, TypeSystem::getType"]}
{"id": "C23", "title": "Type errors are classified correctly", "statement": "Asking for the type of an operation yields its registered result, or an unknown-identifier error if the left type has no operators at all, or an unknown-operation error if it lacks that operator, or a type-mismatch error if the operator exists but not for the right type; exactly one of these.", "quantifier": "every table and every query", "why_tests_cant": "all tables and queries", "anchors": ["Projects/Core/Core/VirtualMachine/TypeSystem.cpp: TypeSystem::getType"]}
{"id": "C24", "title": "What the compiler accepts the runtime can execute", "statement": "For every built-in operator and every pair of built-in types, if the type checker accepts the operation then executing it on values of these types does not fail with an invalid-operation error.", "quantifier": "every operator and every pair of built-in types, every value", "why_tests_cant": "covers the whole operator/type table and all values", "anchors": ["Projects/Core/Core/VirtualMachine/TypeSystem.cpp", "Projects/Core/Core/Runtime/OperatorOverloading.cpp"]}
{"id": "C25", "title": "Static result types are honoured at run time", "statement": "The value produced by an accepted arithmetic operation has the type the type checker predicted.", "quantifier": "every operator and pair of built-in numeric types", "why_tests_cant": "covers the whole table", "anchors": ["Projects/Core/Core/VirtualMachine/TypeSystem.cpp: initInt32Type et al", "Projects/Core/Core/Runtime/OperatorOverloading.cpp", "Projects/Core/Core/AST/TreeInterpreter.cpp: evaluateBinaryExpression"]}
{"id": "C26", "title": "Integer arithmetic is exact or undefined, never silently wrong", "statement": "For 32 and 64 bit integers, whenever the mathematical result of + - * / % fits the type the computed value is that result; all other cases (overflow, division by zero, MIN / -1) are exactly the cases the C++ code leaves undefined.", "quantifier": "every pair of values of the type", "why_tests_cant": "2^64 (2^128) operand pairs", "anchors": ["Projects/Core/Core/Runtime/BuildInTypes/Int32Type.cpp", "Projects/Core/Core/Runtime/BuildInTypes/Int64Type.cpp", "Projects/Core/Core/Runtime/AtomicValue.cpp"]}
{"id": "C27", "title": "Integers survive conversion to text and back", "statement": "Converting any integer to a string and the string back to an integer gives the same integer.", "quantifier": "every 64-bit integer", "why_tests_cant": "2^64 values", "anchors": ["Projects/Core/Core/Runtime/AtomicValue.cpp: AtomicValue::toInt, toStdString", "Projects/Utils/Tools/Strings.cpp: stringToInt, toString"]}
{"id": "C28", "title": "Text to boolean conversion", "statement": "A text converts to false exactly when, after trimming spaces and ignoring case, it is empty, a lone newline, or 'false'; a boolean survives conversion to a text literal and back.", "quantifier": "every text", "why_tests_cant": "all texts", "anchors": ["Projects/Utils/Tools/Strings.cpp: stringToBool"]}
{"id": "C29", "title": "16-bit arithmetic wraps consistently", "statement": "The observable value of a 16-bit integer variable is always within -32768..32767, and equals the exact result of the arithmetic modulo 2^16.", "quantifier": "every sequence of 16-bit operations", "why_tests_cant": "all operand pairs and all operation sequences", "anchors": ["Projects/Core/Core/Runtime/BuildInTypes/Int16Type.cpp"]}
{"id": "C30", "title": "finally always runs", "statement": "The finally block of a try statement is executed exactly once on every way out of the try (normal completion, return, break, continue, caught or uncaught exception), and its own jump, if any, replaces the pending one.", "quantifier": "every program body, catch list, finally block and start state", "why_tests_cant": "all programs and all exits", "anchors": ["Projects/Core/Core/AST/TreeInterpreter.cpp: TreeInterpreter::visitTry"]}
{"id": "C31", "title": "Exceptions are caught by the first matching handler", "statement": "An exception thrown in a try body is handled by the first handler whose declared type the exception is an instance of, handlers after it do not run, and if none matches the exception propagates.", "quantifier": "every handler list, every exception type hierarchy", "why_tests_cant": "all handler lists and hierarchies", "anchors": ["Projects/Core/Core/AST/TreeInterpreter.cpp: TreeInterpreter::visitTry, tryControl"]}
{"id": "C32", "title": "Loop unrolling", "statement": "Executing a while loop is the same as testing the condition and, if it holds, executing the body followed by the loop again, with break ending the loop and continue skipping to the next test; return and exceptions leave the loop at once.", "quantifier": "every condition, body and state", "why_tests_cant": "loop iterations unbounded", "anchors": ["Projects/Core/Core/AST/TreeInterpreter.cpp: TreeInterpreter::visitWhile"]}
{"id": "C33", "title": "Scopes are released on every exit", "statement": "Executing any statement leaves the scope stack exactly as deep as it was, whichever way the statement completes.", "quantifier": "every statement, every state, every exit", "why_tests_cant": "all programs, all exits", "anchors": ["Projects/Core/Core/AST/TreeInterpreter.cpp: pushScope, popScope, visitFor, visitForeach, visitStatements, visitTry, visitWhile"]}
{"id": "C34", "title": "Short-circuit evaluation", "statement": "The right operand of && is evaluated exactly when the left is true, that of || exactly when the left is false, and the result is the conjunction or disjunction.", "quantifier": "every pair of operand expressions, including side effects and exceptions", "why_tests_cant": "all operand expressions", "anchors": ["Projects/Core/Core/AST/TreeInterpreter.cpp: TreeInterpreter::evaluateBooleanBinaryExpression"]}
{"id": "C35", "title": "switch runs the first matching case", "statement": "A switch executes the block of the first case whose value equals the switch value, or the default block if there is none, or nothing; break leaves the switch.", "quantifier": "every case list and value", "why_tests_cant": "all case lists", "anchors": ["Projects/Core/Core/AST/TreeInterpreter.cpp: TreeInterpreter::visitSwitch"]}
{"id": "C36", "title": "Nothing executes after a jump", "statement": "In a statement list nothing after the first statement that completes abruptly (return, break, continue, throw, exit) has any effect.", "quantifier": "every statement list and state", "why_tests_cant": "all programs", "anchors": ["Projects/Core/Core/AST/TreeInterpreter.cpp: TreeInterpreter::visitStatements"]}
{"id": "C37", "title": "Calls are transparent for the caller's stack", "statement": "Whatever a called method does - return, fall off its end, or throw - after the call the caller's frame is the top frame again with the same scopes as before.", "quantifier": "every call tree and every way a call completes", "why_tests_cant": "call trees are unbounded", "anchors": ["Projects/Core/Core/VirtualMachine/Threads.cpp: Thread::pushFrame, Thread::popFrame", "Projects/Core/Core/AST/TreeInterpreter.cpp: TreeInterpreter::execute"]}
{"id": "C38", "title": "break and continue never leave a method", "statement": "In a program accepted by the compiler, executing a method body never completes with a pending break or continue.", "quantifier": "every accepted method body and every execution", "why_tests_cant": "all programs and executions", "anchors": ["Projects/Core/Core/AST/TreeGenerator.cpp: process_break, process_continue, pushScope", "Projects/Core/Core/AST/TreeInterpreter.cpp"]}
{"id": "C39", "title": "for is while with an increment", "statement": "A for loop behaves like its initialisation followed by a while loop whose body is followed by the increment, where continue still performs the increment and break does not.", "quantifier": "every init, condition, increment, body and state", "why_tests_cant": "iterations unbounded", "anchors": ["Projects/Core/Core/AST/TreeInterpreter.cpp: TreeInterpreter::visitFor"]}
{"id": "C40", "title": "foreach visits every element once, in order", "statement": "A foreach loop over a collection executes its body once per element in iteration order, stopping early exactly on break, return or exception.", "quantifier": "every collection and body", "why_tests_cant": "collections unbounded", "anchors": ["Projects/Core/Core/AST/TreeInterpreter.cpp: TreeInterpreter::visitForeach"]}
{"id": "C41", "title": "Negated boolean operators", "statement": "a !& b is the negation of a && b, and a !| b is the negation of a || b.", "quantifier": "every pair of operands", "why_tests_cant": "claim over all operand pairs", "anchors": ["Projects/Core/Core/AST/TreeInterpreter.cpp: TreeInterpreter::evaluateBooleanBinaryExpression"]}
{"id": "C42", "title": "Checked exceptions", "statement": "If the compiler accepts a method that is not declared to throw, no exception thrown inside it escapes it.", "quantifier": "every accepted method body and every execution", "why_tests_cant": "all programs and executions", "anchors": ["Projects/Core/Core/AST/TreeGenerator.cpp: TreeGenerator::process_throw, process_try, process_method, finalize"]}
{"id": "C43", "title": "Non-void methods always return a value", "statement": "If the compiler accepts a method with a non-void result type, every execution of it ends with a return or a throw.", "quantifier": "every accepted method body and every execution", "why_tests_cant": "all programs and executions", "anchors": ["Projects/Core/Core/AST/TreeGenerator.cpp: TreeGenerator::finalize, generate"]}
{"id": "C44", "title": "Parameter binding", "statement": "A call binds each parameter to the argument in its position, or to its default value if omitted; a call with a missing non-default argument, with surplus arguments or a type mismatch is rejected.", "quantifier": "every signature and argument list", "why_tests_cant": "signatures and argument lists unbounded", "anchors": ["Projects/Core/Core/Common/Method.cpp: Method::mergeParameters, Method::isSignatureValid"]}
{"id": "C45", "title": "Overloads are totally ordered", "statement": "The order used to store overloads is a strict total order on (name, parameter types): distinct signatures never collide and equal signatures always do.", "quantifier": "every pair and triple of signatures", "why_tests_cant": "all signatures", "anchors": ["Projects/Core/Core/Common/Method.cpp: Method::operator<"]}
{"id": "C46", "title": "Distinct instantiations of a generic type are distinct types", "statement": "The instantiated type names of two instantiations of generic types are equal only if the generic type and all type arguments are equal.", "quantifier": "every pair of (possibly nested) instantiations", "why_tests_cant": "nesting unbounded", "anchors": ["Projects/Core/Core/Designtime/Parser/Parser.cpp: Parser::buildRuntimeConstraintTypename"]}
{"id": "C47", "title": "Type arguments are substituted everywhere", "statement": "When a generic type is instantiated, every type parameter occurring in it is replaced by its type argument, names that are no parameters are untouched, and instantiating twice is the same as once.", "quantifier": "every parameter list and every token list", "why_tests_cant": "token lists unbounded", "anchors": ["Projects/Core/Core/Common/PrototypeConstraint.cpp: lookupType, lookupConstraint, buildRuntimeConstraints", "Projects/Core/Core/Common/Method.cpp: Method::initialize"]}
{"id": "C48", "title": "Overriding rules", "statement": "A redefinition of an inherited method is accepted only if the inherited one is abstract or virtual, not final and not static, the new one is declared as override or abstract, and constness and return type agree; an accepted redefinition replaces the inherited one, and a rejected one changes nothing.", "quantifier": "every class and every sequence of method definitions", "why_tests_cant": "all classes and definition sequences", "anchors": ["Projects/Core/Core/Designtime/BluePrintObject.cpp: BluePrintObject::defineMethod"]}
{"id": "C49", "title": "Cyclic inheritance is rejected", "statement": "Every cyclic inheritance graph is rejected with an error, and every acyclic one is processed successfully with each class prepared after its ancestors.", "quantifier": "every inheritance graph", "why_tests_cant": "graphs unbounded; cycles of any length", "anchors": ["Projects/Core/Core/Designtime/BluePrintObject.cpp: BluePrintObject::prepareParents"]}
{"id": "C50", "title": "Enumeration values are ascending and unique", "statement": "The values of an accepted enumeration are strictly ascending in declaration order, hence pairwise distinct; members without explicit value get the predecessor's value plus one (0 for the first).", "quantifier": "every enum declaration", "why_tests_cant": "member lists unbounded", "anchors": ["Projects/Core/Core/Designtime/Analyser.cpp: Analyser::buildEnum"]}
{"id": "C51", "title": "Import resolution terminates and reads each file once", "statement": "For every import graph, also a cyclic one, loading terminates and each library file is analysed at most once.", "quantifier": "every file system and every import graph", "why_tests_cant": "graphs unbounded, cyclic", "anchors": ["Projects/Core/Core/VirtualMachine/VirtualMachine.cpp: VirtualMachine::loadLibrary"]}
{"id": "C52", "title": "Import resolution is complete", "statement": "If loading a library succeeds, every library reachable through import statements has been loaded; if some import cannot be resolved loading fails.", "quantifier": "every file system and import graph", "why_tests_cant": "graphs unbounded", "anchors": ["Projects/Core/Core/VirtualMachine/VirtualMachine.cpp: VirtualMachine::loadLibrary, createScript"]}
{"id": "C53", "title": "Version numbers survive printing and parsing", "statement": "Printing a version and parsing the result gives back an equal version, for all numeric components and all labels and build metadata that the notation can express.", "quantifier": "every version", "why_tests_cant": "all integers and all texts", "anchors": ["Projects/Utils/SemVer/Version.cpp: SemanticVersionNumber::parse, toString"]}
{"id": "C54", "title": "Version comparison is a strict order", "statement": "Version comparison is irreflexive, asymmetric and transitive, and for versions without label is the lexicographic order of the numeric components.", "quantifier": "every triple of versions", "why_tests_cant": "all versions", "anchors": ["Projects/Utils/SemVer/Version.cpp: SemanticVersionNumber::operator<"]}
{"id": "C55", "title": "The next version is greater", "statement": "nextMajor, nextMinor and nextBugfix of any version are greater than that version, and are the least such for their component.", "quantifier": "every version whose component is below the maximum", "why_tests_cant": "all versions", "anchors": ["Projects/Utils/SemVer/Version.h: nextMajor, nextMinor, nextBugfix"]}
{"id": "C56", "title": "Restrictions are honoured", "statement": "slang-pkg never installs a module whose version lies outside the range of a restriction recorded for that module.", "quantifier": "every repository content, restriction set, and request", "why_tests_cant": "all repositories and requests", "anchors": ["Projects/slang-pkg/Application/Application.cpp: checkRestrictions, install, prepareModuleInstallation"]}
{"id": "C57", "title": "Dependencies are installed transitively", "statement": "After an install request every module reachable through dependencies of the requested modules is installed (already or newly); resolution terminates.", "quantifier": "every dependency graph", "why_tests_cant": "graphs unbounded, possibly cyclic", "anchors": ["Projects/slang-pkg/Application/Application.cpp: prepareModuleInstallation, install"]}
{"id": "C58", "title": "No silent downgrade", "statement": "Unless a version is explicitly requested or --force is given, installing or upgrading never replaces an installed module by an older or equal version; upgrade offers exactly the installed modules for which the repository has a newer version.", "quantifier": "every local and remote repository", "why_tests_cant": "all repositories", "anchors": ["Projects/slang-pkg/Application/Application.cpp: install, upgrade, checkOutdatedModules"]}
{"id": "C59", "title": "Debugger breakpoints", "statement": "The debugger behaves like a set of breakpoints keyed by file and line: adding makes execution stop there, adding again replaces the condition, removing undoes it, and other breakpoints are unaffected; in run mode execution stops at a line exactly if a breakpoint is set there.", "quantifier": "every sequence of debugger commands and every execution trace", "why_tests_cant": "all command histories", "anchors": ["Projects/Core/Debugger/Debugger.cpp", "Projects/Core/Debugger/BreakPoint.cpp"]}
{"id": "C60", "title": "Splitting loses nothing", "statement": "Splitting a text at the first occurrence of a separator yields a head without separator, and head and tail joined by the separator give the text back; a text without separator is returned whole with an empty tail.", "quantifier": "every text and separator", "why_tests_cant": "all texts", "anchors": ["Projects/Utils/Tools/Strings.cpp: split, splitBy"]}
{"id": "C61", "title": "Trimming", "statement": "Trimming removes exactly the maximal runs of the given characters at the ends: the result is a contiguous part of the text, neither starts nor ends with such a character, only such characters were removed, and trimming again changes nothing.", "quantifier": "every text and trim set", "why_tests_cant": "all texts", "anchors": ["Projects/Utils/Tools/Strings.cpp: stringTrim, stringTrimLeft, stringTrimRight"]}
{"id": "C62", "title": "Word splitter", "statement": "Iterating the command-line tokenizer yields exactly the maximal delimiter-free pieces of the text, in order, and then ends.", "quantifier": "every text and delimiter set", "why_tests_cant": "all texts", "anchors": ["Projects/Utils/Parsers/Tokenizer.cpp: Tokenizer::hasNext, nextToken, getToken"]}
{"id": "C63", "title": "String library functions", "statement": "substr, strpos, strfind, strlpad and strrpad implement slicing, indexing, first-occurrence search and padding as documented, and out-of-range arguments raise an exception.", "quantifier": "every text and index", "why_tests_cant": "all texts and indices", "anchors": ["Projects/Extensions/System/Strings/SubStr.h", "Projects/Extensions/System/Strings/StrFind.h", "Projects/Extensions/System/Strings/StrPos.h", "Projects/Extensions/System/Strings/StrLPad.h", "Projects/Extensions/System/Strings/StrRPad.h"]}
{"id": "C64", "title": "Thread identities", "statement": "Every created thread gets an id different from all earlier ones, looking the id up returns that thread, and any other id raises an error.", "quantifier": "every sequence of thread operations", "why_tests_cant": "all histories", "anchors": ["Projects/Core/Core/VirtualMachine/Threads.cpp: Threads::createThread, getThread, deleteThread"]}
{"id": "C65", "title": "List behaves like a sequence", "statement": "System.Collections.List: after any sequence of push_back, push_front, pop_front, at, first, last, size, indexOf the observations equal those of a mathematical sequence; invalid indices raise OutOfBoundsException.", "quantifier": "every sequence of operations", "why_tests_cant": "all operation histories", "anchors": ["Projects/Library/System/Collections/List.os"]}
{"id": "C66", "title": "Vector behaves like a sequence", "statement": "System.Collections.Vector: insert, push_back, push_front, pop_back, erase and lookups observe a mathematical sequence.", "quantifier": "every sequence of operations", "why_tests_cant": "all operation histories", "anchors": ["Projects/Library/System/Collections/Vector.os"]}
{"id": "C67", "title": "Stack is last-in first-out", "statement": "System.Collections.Stack: pop returns the most recently pushed value that was not popped yet, and peek returns what pop would return.", "quantifier": "every sequence of push and pop", "why_tests_cant": "all operation histories", "anchors": ["Projects/Library/System/Collections/Stack.os"]}
{"id": "C68", "title": "Set is sorted and duplicate free", "statement": "System.Collections.Set keeps its elements in ascending order, and, unless duplicates are allowed, never holds an element twice.", "quantifier": "every sequence of insertions", "why_tests_cant": "all insertion histories", "anchors": ["Projects/Library/System/Collections/Set.os"]}
{"id": "C69", "title": "Map behaves like a finite map", "statement": "System.Collections.Map: get returns the value most recently put under the key, an unknown key raises an exception, and operations on one key do not affect others.", "quantifier": "every sequence of operations", "why_tests_cant": "all operation histories", "anchors": ["Projects/Library/System/Collections/Map.os"]}
{"id": "C70", "title": "A destructor may refer to its own object", "statement": "Releasing the last reference to an object terminates, whatever its destructor does with references to live objects, including a temporary reference to the object being destroyed.", "quantifier": "every destructor body, every history", "why_tests_cant": "needs the re-entrant call of the reference counter from inside a destruction", "anchors": ["Projects/Core/Core/VirtualMachine/Memory.cpp: Memory::remove, Memory::deleteObject", "Projects/Core/Core/Object.cpp: Object::Destructor"]}
{"id": "C71", "title": "File names decompose without loss", "statement": "For a path containing a separator, the directory part followed by the file name is the path, the directory part ends with the separator and the file name has none; a name with an extension is its stem, a dot and the extension, and the extension lies within the file name.", "quantifier": "every path text", "why_tests_cant": "all texts", "anchors": ["Projects/Utils/Tools/Files.cpp: ExtractPathname, ExtractFilename, ExtractFileExt, RemoveFileExt"]}
{"id": "C72", "title": "Integer comparison compares the numbers", "statement": "Comparing two integers, of the same or of different integer types, gives the result of comparing the two numbers.", "quantifier": "every pair of integer values and types", "why_tests_cant": "2^128 pairs", "anchors": ["Projects/Core/Core/Runtime/BuildInTypes/Int16Type.cpp: operator_equal, operator_less", "Projects/Core/Core/Runtime/BuildInTypes/Int32Type.cpp", "Projects/Core/Core/Runtime/BuildInTypes/Int64Type.cpp"]}
{"id": "C73", "title": "Number literals keep their digits and type", "statement": "A run of decimal digits is one integer constant with exactly these digits; the marks i, f and d choose integer, float or double; a decimal fraction marked f or d is one constant with exactly its digits; a fraction without mark or marked i is rejected with a syntax error.", "quantifier": "every digit strings before and behind the dot, every variable the literal is assigned to", "why_tests_cant": "digit strings are unbounded", "anchors": ["Projects/Core/Core/Designtime/Parser/Tokenizer.cpp: Tokenizer::isInteger, isFloat, isDouble, replaceConstDataTypesPatternMatching"]}
{"id": "C74", "title": "Private members stay private", "statement": "A name looked up inside a class never resolves to a private member of a base class of that class.", "quantifier": "every class, every line of inheritance, every name", "why_tests_cant": "lines of inheritance and member sets are unbounded", "anchors": ["Projects/Core/Core/Scope.cpp: MethodScope::resolve, MethodScope::resolveMethod", "Projects/Core/Core/Object.cpp: Object::resolve, Object::resolveMethod", "Projects/Core/Core/AST/TreeGenerator.cpp: TreeGenerator::resolve, resolveMethod"]}
{"id": "C75", "title": "Overload resolution does not depend on memory layout", "statement": "Which overload a call selects depends only on the declared methods, not on the addresses at which the interpreter happened to allocate them.", "quantifier": "every overload set, every argument list, every allocation order", "why_tests_cant": "the allocator decides the order; a test observes one layout", "anchors": ["Projects/Core/Core/Scope.h: MethodScope::MethodCollection", "Projects/Core/Core/Scope.cpp: MethodScope::resolveMethod, MethodScope::defineMethod"]}
{"id": "C76", "title": "Block extraction stays inside the source", "statement": "On every source the sanity check accepts, extracting the block that starts at any of its opening curly brackets ends with a block or a reported error; the extractor never reads past the end of the tokens.", "quantifier": "every token list accepted by the sanity check, every opening curly bracket in it", "why_tests_cant": "all token lists; an overrun may go unnoticed in a test", "anchors": ["Projects/Core/Core/Designtime/SanityChecker.cpp: SanityChecker::process", "Projects/Core/Core/Designtime/Parser/Parser.cpp: Parser::collectScopeTokens", "Projects/Core/Core/AST/TreeGenerator.cpp: TreeGenerator::collectScopeTokens", "Projects/Core/Core/Common/Utils.cpp: findNextBalancedCurlyBracket"]}
{"id": "C77", "title": "Malformed expressions are rejected", "statement": "A text that is not an expression is refused with an error; an accepted text is a spelling of the expression that was read; the parser stops on every input.", "quantifier": "every token list", "why_tests_cant": "the set of malformed texts is unbounded; a test can only sample it", "anchors": ["Projects/Core/Core/AST/TreeGenerator.cpp: TreeGenerator::expression, parseTerm, process_identifier, process_method"]}
{"id": "C78", "title": "Objects are assignable to their ancestors", "statement": "In every program, an object of a class may be assigned to a variable of that class and of each of its ancestors, the type of an assignment is always the type of its target, and declaring classes or enumerations never changes the typing of operations between built-in types.", "quantifier": "every sequence of class and enumeration declarations, every operator method in them", "why_tests_cant": "programs declare unboundedly many types in any order", "anchors": ["Projects/Core/Core/VirtualMachine/Repository.cpp: Repository::initTypeSystem", "Projects/Core/Core/VirtualMachine/TypeSystem.cpp: TypeSystem::define"]}
{"id": "C79", "title": "Language words and names are told apart", "statement": "A word that begins with a letter is the language's word of that spelling, if the language has one (keywords, modifiers, visibilities, reserved words, boolean constants), and a name in every other case; its text is kept.", "quantifier": "every word", "why_tests_cant": "infinitely many words", "anchors": ["Projects/Core/Core/Designtime/Parser/Tokenizer.cpp: Tokenizer::addToken, isKeyword, isModifier, isReservedWord", "Projects/Core/Core/Consts.h"]}
{"id": "C80", "title": "Operators of classes work on every operand", "statement": "When a class defines an operator, an accepted expression that applies this operator to an object of the class calls the method of the class, whatever expression computes the object.", "quantifier": "every class, operator and operand expression", "why_tests_cant": "operand expressions are unbounded", "anchors": ["Projects/Core/Core/AST/TreeGenerator.cpp: parseExpression, parseFactor, parseCondition"]}
{"id": "C81", "title": "Operators of a class have the declared types", "statement": "The operators a class defines are known to the type checker with the declared operand and result types, wherever in the program the class is declared and whatever else the program declares.", "quantifier": "every program, class and operator method", "why_tests_cant": "programs are unbounded; interference between declarations appears only in combination", "anchors": ["Projects/Core/Core/VirtualMachine/Repository.cpp: Repository::initTypeSystem", "Projects/Core/Core/VirtualMachine/TypeSystem.cpp: TypeSystem::define"]}
{"id": "C82", "title": "Integer constants denote the number written", "statement": "A decimal integer constant in a program denotes exactly the number its digits spell, with any number of leading zeros; it has 32 bit type if it fits and 64 bit type otherwise, and a constant that fits neither is rejected.", "quantifier": "every natural number and every number of leading zeros", "why_tests_cant": "numbers are unbounded, and the boundaries are at 2^31 and 2^63", "anchors": ["Projects/Core/Core/AST/TreeGenerator.cpp: TreeGenerator::parseTerm", "Projects/Utils/Tools/Strings.cpp: Utils::Tools::stringToInt"]}
{"id": "C83", "title": "Scripts mean what the language reference says", "statement": "Executing a script prints the same output, in the same order, as a block-structured big-step reading of its statements: nested variable scopes, left-to-right evaluation, value-passing calls, exceptions to the innermost matching handler; it ends with the same return value or uncaught exception and leaves no frame or scope behind.", "quantifier": "every script, every set of classes and methods, every primitive operation", "why_tests_cant": "Programs nest statements, calls and exceptions without bound; a test covers one nesting, the claim covers them all.", "anchors": ["Projects/Core/Core/AST/TreeInterpreter.cpp:TreeInterpreter::execute", "Projects/Core/Core/AST/TreeInterpreter.cpp:TreeInterpreter::visitStatement", "Projects/Core/Core/AST/TreeInterpreter.cpp:TreeInterpreter::evaluate"]}
{"id": "C84", "title": "Exceptions keep their identity", "statement": "throw; inside a handler throws the exception being handled, and an exception that is pending while a finally block runs is the same exception afterwards, whatever other exceptions were thrown and caught meanwhile.", "quantifier": "every nesting of handlers and finally blocks", "why_tests_cant": "Programs nest statements, calls and exceptions without bound; a test covers one nesting, the claim covers them all.", "anchors": ["Projects/Core/Core/AST/TreeInterpreter.cpp:TreeInterpreter::visitThrow", "Projects/Core/Core/AST/TreeInterpreter.cpp:TreeInterpreter::visitTry"]}
{"id": "C85", "title": "Every exception reaches the enclosing handler", "statement": "An exception raised anywhere inside a try block - in a constructor, an assignment inside an expression, a comparison operator, an iterator, or by the postfix ! operator - is seen by the handlers of that try statement.", "quantifier": "every expression and statement in which an exception can come up", "why_tests_cant": "Programs nest statements, calls and exceptions without bound; a test covers one nesting, the claim covers them all.", "anchors": ["Projects/Core/Core/AST/TreeInterpreter.cpp:TreeInterpreter::evaluateNewExpression", "Projects/Core/Core/AST/TreeInterpreter.cpp:TreeInterpreter::evaluateAssignmentExpression", "Projects/Core/Core/AST/TreeInterpreter.cpp:TreeInterpreter::visitForeach", "Projects/Core/Core/Runtime/OperatorOverloading.cpp:operator_unary_validate"]}
{"id": "C86", "title": "Members of expression results", "statement": "In f().g(x) the argument x is evaluated in the scope of the expression, not in the scope of the object f() returned, and an exception in g leaves the variables of the surrounding blocks as they were.", "quantifier": "every receiver expression, method and argument list", "why_tests_cant": "Programs nest statements, calls and exceptions without bound; a test covers one nesting, the claim covers them all.", "anchors": ["Projects/Core/Core/AST/TreeInterpreter.cpp:TreeInterpreter::evaluateScopeExpression"]}
{"id": "C87", "title": "exit ends the program", "statement": "exit, wherever it is executed, ends the script with no further statement executed and without corrupting the interpreter.", "quantifier": "every call depth and block nesting at which exit can be executed", "why_tests_cant": "Programs nest statements, calls and exceptions without bound; a test covers one nesting, the claim covers them all.", "anchors": ["Projects/Core/Core/AST/TreeInterpreter.cpp:TreeInterpreter::visitExit", "Projects/Core/Core/AST/TreeInterpreter.cpp:TreeInterpreter::execute"]}
{"id": "C88", "title": "Only complete classes can be instantiated", "statement": "An object of a class can be created exactly if the class is neither declared abstract nor an interface and every abstract method that it declares, inherits or takes over from an interface is implemented by it or an ancestor; whether it succeeds does not depend on the memory layout, and the object never refers to deleted methods.", "quantifier": "all class hierarchies, method signatures and memory layouts", "why_tests_cant": "Hierarchies have any depth and width, and the methods are kept in sets ordered by address; tests see a few hierarchies with one memory layout.", "anchors": ["Projects/Core/Core/VirtualMachine/Repository.cpp: Repository::createInstance, Repository::createUserType", "Projects/Core/Core/Object.cpp: Object::defineMethod, Object::isAbstract, Object::resolveMethod"]}
{"id": "C89", "title": "Every enumeration declaration is decided", "statement": "Every enumeration declaration is either accepted or rejected with an error; the semicolon behind the last entry may be omitted, and nothing behind the entries is ignored silently.", "quantifier": "every token sequence between the brackets of an enumeration", "why_tests_cant": "token sequences are unbounded, and reading behind their end may go unnoticed in a test", "anchors": ["Projects/Core/Core/Designtime/Analyser.cpp: Analyser::buildEnum"]}
{"id": "C90", "title": "Stored breakpoints are restored", "statement": "Storing the debugger configuration and loading it again restores every breakpoint with its condition.", "quantifier": "every set of breakpoints, file names and conditions", "why_tests_cant": "file names and conditions are arbitrary texts", "anchors": ["Projects/slang-dbg/LocalClient/LocalClient.cpp: LocalClient::saveConfig, loadConfig, parseCommands, addBreakPoint", "Projects/Core/Debugger/BreakPoint.cpp: BreakPoint::toConfigString"]}
{"id": "C91", "title": "An import means the same file whatever else is imported", "statement": "Which file an import statement loads is determined by the importing file and the configured library folders, not by the imports written before it or elsewhere.", "quantifier": "all file systems, scripts and orders of imports", "why_tests_cant": "the set of library folders grows with every loaded library; only some combinations of folder names expose a different file", "anchors": ["Projects/Core/Core/VirtualMachine/VirtualMachine.cpp:createScript", "Projects/Core/Core/VirtualMachine/VirtualMachine.cpp:loadLibrary", "Projects/Core/Core/VirtualMachine/VirtualMachine.cpp:addLibraryFolder"]}
{"id": "C92", "title": "Version ranges of dependencies are honoured", "statement": "After slang-pkg has installed a module, every module it depends on is installed in a version that lies in the range (minimum and maximum version) the module's description gives for it.", "quantifier": "all repository servers, sets of installed modules, requests and chains of dependencies", "why_tests_cant": "Depends on the whole dependency graph, on what happens to be installed and on the order in which descriptions are fetched; tests use a handful of small repositories.", "anchors": ["Projects/slang-pkg/Application/Application.cpp: prepareModuleInstallation, install", "Projects/slang-pkg/Common/Dependency.h", "Projects/slang-pkg/Common/Repository.cpp: addModule, contains"]}
{"id": "C93", "title": "Queue is first-in first-out", "statement": "System.Collections.Queue: dequeue returns the element enqueued first among those not yet dequeued, peek returns what dequeue would return, and both raise OutOfBoundsException on an empty queue.", "quantifier": "every sequence of operations on a new queue", "why_tests_cant": "all operation histories", "anchors": ["Projects/Library/System/Collections/Queue.os"]}
{"id": "C94", "title": "DoubleLinkedList behaves like a sequence", "statement": "System.Collections.DoubleLinkedList: after any sequence of push_back, push_front, pop_back, pop_front, erase, clear and lookups the observations equal those of a mathematical sequence.", "quantifier": "every sequence of operations on a new list", "why_tests_cant": "all operation histories", "anchors": ["Projects/Library/System/Collections/DoubleLinkedList.os"]}
{"id": "C95", "title": "Range visits its numbers", "statement": "foreach over Range( start, end, step ) visits start, start + step, and so on, up to and including end, each once and in order.", "quantifier": "every start, end and step other than 0", "why_tests_cant": "all numbers", "anchors": ["Projects/Library/System/Collections/Range.os", "Projects/Library/System/Collections/RandomAccessIterator.os"]}
{"id": "C96", "title": "Iterators visit every element once", "statement": "An iterator of a collection visits each element exactly once in the order of the collection; a reverse iterator visits them in reverse order.", "quantifier": "every collection content", "why_tests_cant": "all contents", "anchors": ["Projects/Library/System/Collections/DoubleLinkedIterator.os", "Projects/Library/System/Collections/List.os"]}
{"id": "C97", "title": "Copies of collections are independent", "statement": "After copy assignment of a collection, what is done to the copy does not change what is observed of the original, and vice versa.", "quantifier": "every content and every later operation", "why_tests_cant": "all histories", "anchors": ["Projects/Library/System/Collections/List.os Copy", "Projects/Library/System/Collections/Vector.os Copy", "Projects/Library/System/Collections/Set.os Copy"]}
{"id": "C98", "title": "delete releases the object", "statement": "After delete x the variable x no longer refers to the object.", "quantifier": "every variable and every state", "why_tests_cant": "all states", "anchors": ["Projects/Core/Core/AST/TreeInterpreter.cpp visitDelete"]}
{"id": "C99", "title": "Methods are compiled as they are written", "statement": "The syntax tree compiled from the text of a method is the one its statements spell: every statement ends with its own semicolon or block, an else belongs to the last if without one, declarations are visible from their place to the end of their block, break and continue are accepted inside loops and switch blocks; a method is rejected only if a name, type or flow rule is broken.", "quantifier": "every list of statements, every spelling of it, every surrounding program", "why_tests_cant": "all statement trees of any depth and all their spellings", "anchors": ["Projects/Core/Core/AST/TreeGenerator.cpp process", "Projects/Core/Core/AST/TreeGenerator.cpp process_statement", "Projects/Core/Core/AST/TreeGenerator.cpp process_keyword", "Projects/Core/Core/AST/TreeGenerator.cpp process_scope", "Projects/Core/Core/AST/TreeGenerator.cpp process_if"]}
{"id": "C100", "title": "Qualified names mean what they spell", "statement": "A qualified name a.b.c in a method is either rejected or stands for the member c of the member b of what a stands for; no part of it is dropped.", "quantifier": "every program, every method, every qualified name of any length", "why_tests_cant": "programs, class hierarchies and name lengths are unbounded", "anchors": ["Projects/Core/Core/AST/TreeGenerator.cpp: TreeGenerator::resolve", "Projects/Core/Core/AST/TreeGenerator.cpp: TreeGenerator::resolveWithThis", "Projects/Core/Core/AST/TreeGenerator.cpp: TreeGenerator::resolveWithExceptions"]}
{"id": "C101", "title": "Non-public members of other classes are out of reach", "statement": "A member that is not public can be named in a method only if it belongs to the class of the method (or, when protected, to a base class of it); through variables of other classes exactly the public members can be named.", "quantifier": "every program, every method, every qualified name", "why_tests_cant": "programs and qualified names are unbounded", "anchors": ["Projects/Core/Core/AST/TreeGenerator.cpp: TreeGenerator::resolve", "Projects/Core/Core/AST/TreeGenerator.cpp: TreeGenerator::resolveWithThis"]}
{"id": "C102", "title": "Local names hide members", "statement": "A simple name in a method stands for the innermost local variable or parameter of that name, and only if there is none for a member of the class.", "quantifier": "every class, every method, every set of local declarations", "why_tests_cant": "all combinations of members, parameters and nested blocks", "anchors": ["Projects/Core/Core/AST/TreeGenerator.cpp: TreeGenerator::resolveWithThis"]}
{"id": "C103", "title": "Using a member of null raises NullPointerException", "statement": "Reading or assigning a member of a null reference, or calling a method on it, raises a NullPointerException that the script can catch, and has no other effect.", "quantifier": "every object graph, every path, every surrounding scope", "why_tests_cant": "object graphs and surrounding declarations are unbounded", "anchors": ["Projects/Core/Core/AST/TreeInterpreter.cpp: TreeInterpreter::evaluateSymbolExpression", "Projects/Core/Core/AST/TreeInterpreter.cpp: TreeInterpreter::resolveRValue", "Projects/Core/Core/AST/TreeInterpreter.cpp: TreeInterpreter::resolveMethod", "Projects/Core/Core/VirtualMachine/Repository.cpp: Repository::createUserType"]}
{"id": "C104", "title": "Const things are not modified", "statement": "No accepted method assigns to, increments, decrements or calls modifying methods on anything declared const, except constructors and destructors on members of their object.", "quantifier": "every program, every method, every name used for modification", "why_tests_cant": "all programs and paths", "anchors": ["Projects/Core/Core/AST/TreeGenerator.cpp: TreeGenerator::process_assignment_expression", "Projects/Core/Core/AST/TreeGenerator.cpp: TreeGenerator::process_incdecrement", "Projects/Core/Core/AST/TreeGenerator.cpp: TreeGenerator::process_method", "Projects/Core/Core/AST/TreeGenerator.cpp: TreeGenerator::resolve"]}
{"id": "C105", "title": "Const methods leave their object unchanged", "statement": "An accepted const method neither assigns to, increments nor decrements a member of its object, and calls only const methods on it and its members.", "quantifier": "every class, every const method", "why_tests_cant": "all method bodies", "anchors": ["Projects/Core/Core/AST/TreeGenerator.cpp: TreeGenerator::process_assignment_expression", "Projects/Core/Core/AST/TreeGenerator.cpp: TreeGenerator::process_incdecrement", "Projects/Core/Core/AST/TreeGenerator.cpp: TreeGenerator::process_method"]}
{"id": "C106", "title": "Static methods use no object", "statement": "An accepted static method neither uses non-static members of its class nor calls non-static methods of it without an object.", "quantifier": "every class, every static method", "why_tests_cant": "all method bodies", "anchors": ["Projects/Core/Core/AST/TreeGenerator.cpp: TreeGenerator::process_method", "Projects/Core/Core/AST/TreeGenerator.cpp: TreeGenerator::resolveWithThis", "Projects/Core/Core/AST/TreeInterpreter.cpp: TreeInterpreter::execute"]}
{"id": "C107", "title": "Members found by the compiler exist at run time", "statement": "If the compiler resolves a name in a method to a member of the class or a base class, the name stands for that member in every object of the class when the method runs.", "quantifier": "every class, every line of inheritance, every object of the class", "why_tests_cant": "hierarchies and member sets are unbounded", "anchors": ["Projects/Core/Core/AST/TreeGenerator.cpp: TreeGenerator::resolve", "Projects/Core/Core/AST/TreeInterpreter.cpp: TreeInterpreter::evaluateSymbolExpression", "Projects/Core/Core/VirtualMachine/Repository.cpp: Repository::createUserType", "Projects/Core/Core/Object.cpp: Object::resolve"]}
{"id": "C108", "title": "Declarations are read as they are written", "statement": "Every file whose text follows the grammar of declarations gives exactly the declarations written in it, in their order and nesting: each class, interface, enumeration, namespace, import, member and method gets the visibility, memory layout, feature state, mutability, type, type parameters, ancestors, parameters with their default values, exception behaviour and body that are written, and the documented defaults where nothing is written (private, stable, virtual in classes, static in namespaces, abstract in interfaces, modifiable members, const methods, nothrow). Declarations that are not allowed where they stand, and default values that do not fit their type, are errors. Reading ends for every file, and a text that follows the grammar in no way is rejected.", "quantifier": "all lists of declarations with any nesting, any combination of optional attributes and any number of type parameters, ancestors and parameters, all token lists that spell them, and, for termination, all token lists", "why_tests_cant": "the combinations of optional parts and nestings are unbounded; tests only show that some programs are read", "anchors": ["Projects/Core/Core/Designtime/Analyser.cpp: generate, createBluePrint, createEnum, createInterface, createLibraryReference, createMemberOrMethod, createMemberStub, createMethodStub, createNamespace", "Projects/Core/Core/Designtime/Parser/Parser.cpp: parseTypeDeclaration, collectInheritance, parseParameters, parseValueInitialization, collectDesigntimePrototypeConstraints"]}
{"id": "C109", "title": "A variable of a class accepts every object of the class", "statement": "An accepted assignment to a variable of a class never fails at run time: whatever object of the class or of a derived class the variable held before, it can be assigned every object the compiler lets through, and then denotes that object.", "quantifier": "all accepted programs of the fragment (any classes, members, functions, nesting, loops and recursion), all runs of any length, all expressions, all classes last held by the variable", "why_tests_cant": "the states a program can reach, the shapes of the class hierarchy and the aliases between variables are unbounded", "anchors": ["Projects/Core/Core/Object.cpp: Object::assign, getValue, setValue, isInstanceOf", "Projects/Core/Core/Runtime/OperatorOverloading.cpp: operator_binary_assign, operator_binary_equal", "Projects/Core/Core/AST/TreeInterpreter.cpp: evaluateAssignmentExpression, visitTypeDeclaration, initialize"]}
{"id": "C110", "title": "Variables hold only what their type promises", "statement": "At any time every variable and every member of a class type is null or denotes an object of that class or of a class that descends from it, and every variable of an atomic type holds a value of that type.", "quantifier": "all accepted programs of the fragment (any classes, members, functions, nesting, loops and recursion), all runs of any length, all expressions", "why_tests_cant": "the states a program can reach, the shapes of the class hierarchy and the aliases between variables are unbounded", "anchors": ["Projects/Core/Core/Object.cpp: Object::assign, getValue, setValue, isInstanceOf", "Projects/Core/Core/Runtime/OperatorOverloading.cpp: operator_binary_assign, operator_binary_equal", "Projects/Core/Core/AST/TreeInterpreter.cpp: evaluateAssignmentExpression, visitTypeDeclaration, initialize", "Projects/Core/Core/Runtime/TypeCast.cpp: typecast"]}
{"id": "C111", "title": "Assigning an object shares it and touches nothing else", "statement": "After x = y, where y refers to an object, x and y denote the same object: every member path through x leads to the same place as through y. An assignment changes the assigned variable or member and no other.", "quantifier": "all programs and states, all member paths", "why_tests_cant": "the states a program can reach, the shapes of the class hierarchy and the aliases between variables are unbounded", "anchors": ["Projects/Core/Core/Object.cpp: Object::assign, getValue, setValue, isInstanceOf", "Projects/Core/Core/Runtime/OperatorOverloading.cpp: operator_binary_assign, operator_binary_equal", "Projects/Core/Core/AST/TreeInterpreter.cpp: evaluateAssignmentExpression, visitTypeDeclaration, initialize"]}
{"id": "C112", "title": "== on objects without operator== is identity", "statement": "In programs that use C-style casts only where cast<> is allowed or to give null a type, two class values whose class defines no operator== compare equal exactly if they are the same object or both null.", "quantifier": "all accepted programs of the fragment (any classes, members, functions, nesting, loops and recursion), all runs of any length, all expressions", "why_tests_cant": "the states a program can reach, the shapes of the class hierarchy and the aliases between variables are unbounded", "anchors": ["Projects/Core/Core/Object.cpp: Object::assign, getValue, setValue, isInstanceOf", "Projects/Core/Core/Runtime/OperatorOverloading.cpp: operator_binary_assign, operator_binary_equal", "Projects/Core/Core/AST/TreeInterpreter.cpp: evaluateAssignmentExpression, visitTypeDeclaration, initialize"]}
{"id": "C113", "title": "is tells the class of the object", "statement": "e is C is true exactly if e refers to an object whose class is C or descends from it, through classes and interfaces.", "quantifier": "all accepted programs of the fragment (any classes, members, functions, nesting, loops and recursion), all runs of any length, all expressions, all class names", "why_tests_cant": "the states a program can reach, the shapes of the class hierarchy and the aliases between variables are unbounded", "anchors": ["Projects/Core/Core/Object.cpp: isInstanceOf", "Projects/Core/Core/VirtualMachine/Repository.cpp: createUserType", "Projects/Core/Core/AST/TreeInterpreter.cpp: evaluateIsExpression"]}
{"id": "C114", "title": "The function called is the one the compiler chose", "statement": "Where functions are overloaded by the type of their parameter, a call runs the function that belongs to the static type of the argument, and there always is one, whatever object the argument denotes.", "quantifier": "all accepted programs of the fragment (any classes, members, functions, nesting, loops and recursion), all runs of any length, all expressions, all overloads", "why_tests_cant": "the states a program can reach, the shapes of the class hierarchy and the aliases between variables are unbounded", "anchors": ["Projects/Core/Core/AST/TreeInterpreter.cpp: evaluateMethodExpression", "Projects/Core/Core/AST/TreeGenerator.cpp: process_method", "Projects/Core/Core/Object.cpp: Object::assign"]}
{"id": "C115", "title": "Atomic variables not declared ref are independent copies", "statement": "Assigning to a variable of an atomic type that is not declared ref gives it the assigned value, converted to its type, and leaves the value of every other variable and member as it was; casting a value leaves the variable it came from as it was.", "quantifier": "all accepted programs of the fragment (any classes, members, functions, nesting, loops and recursion), all runs of any length, all expressions, all atomic types", "why_tests_cant": "the states a program can reach, the shapes of the class hierarchy and the aliases between variables are unbounded", "anchors": ["Projects/Core/Core/Object.cpp: Object::assign, getValue, setValue, isInstanceOf", "Projects/Core/Core/Runtime/OperatorOverloading.cpp: operator_binary_assign, operator_binary_equal", "Projects/Core/Core/AST/TreeInterpreter.cpp: evaluateAssignmentExpression, visitTypeDeclaration, initialize", "Projects/Core/Core/Runtime/TypeCast.cpp: typecast"]}
{"id": "C116", "title": "Assigning null makes a variable null", "statement": "After x = e, where e evaluates to null, x is null, wherever the null comes from.", "quantifier": "all accepted programs of the fragment (any classes, members, functions, nesting, loops and recursion), all runs of any length, all expressions, all sources of null: the literal, members, parameters, results", "why_tests_cant": "the states a program can reach, the shapes of the class hierarchy and the aliases between variables are unbounded", "anchors": ["Projects/Core/Core/Object.cpp: Object::assign, getValue, setValue, isInstanceOf", "Projects/Core/Core/Runtime/OperatorOverloading.cpp: operator_binary_assign, operator_binary_equal", "Projects/Core/Core/AST/TreeInterpreter.cpp: evaluateAssignmentExpression, visitTypeDeclaration, initialize", "Projects/Core/Core/VirtualMachine/Repository.cpp: createUserType, initializeBasicTypes"]}
{"id": "C117", "title": "Every open file has its own handle", "statement": "The handles fopen and tmpfile give out in a run are all different, different from 0 and from the standard streams, also when files are closed in between; calls with other handles never change the position, the end-of-file or the error indicator of a file.", "quantifier": "all histories of calls of the file functions, of any length, on any number of files, with any contents, sizes and handles", "why_tests_cant": "the histories of calls and the contents of files are unbounded, and the handles of several files interleave", "anchors": ["Projects/Extensions/LIBC/stdio/stdio.cpp: stdio_t::FileHandles", "Projects/Extensions/LIBC/stdio/fopen.h: FOPEN::execute", "Projects/Extensions/LIBC/stdio/tmpfile.h: TMPFILE::execute", "Projects/Extensions/LIBC/stdio/fclose.h: FCLOSE::execute"]}
{"id": "C118", "title": "Handles that are not open are rejected", "statement": "A file function called with a number that is not the handle of an open file reports an error and changes nothing.", "quantifier": "all histories of calls of the file functions, of any length, on any number of files, with any contents, sizes and handles", "why_tests_cant": "the histories of calls and the contents of files are unbounded, and the handles of several files interleave", "anchors": ["Projects/Extensions/LIBC/stdio/fclose.h: FCLOSE::execute", "Projects/Extensions/LIBC/stdio/fread.h: FREADS::execute, FREADI::execute, FREADB::execute", "Projects/Extensions/LIBC/stdio/fwrite.h: FWRITES::execute, FWRITEI::execute", "Projects/Extensions/LIBC/stdio/ftell.h", "Projects/Extensions/LIBC/stdio/feof.h"]}
{"id": "C119", "title": "Reading gives exactly the next bytes or an error", "statement": "freads( h, n ) returns exactly the next n bytes of the file (all for -1, those left if there are fewer) and moves behind them; a read that fails or finds too few bytes for a number is reported.", "quantifier": "all histories of calls of the file functions, of any length, on any number of files, with any contents, sizes and handles", "why_tests_cant": "the histories of calls and the contents of files are unbounded, and the handles of several files interleave", "anchors": ["Projects/Extensions/LIBC/stdio/fread.h: FREADS::execute, FREADI::execute, FREADB::execute"]}
{"id": "C120", "title": "What was written to a file is read back", "statement": "After text or a number was written to a file, reading at the place where it was written gives the same text or number.", "quantifier": "all texts, all 32 bit integers, all contents and positions of the file, append mode included", "why_tests_cant": "the histories of calls and the contents of files are unbounded, and the handles of several files interleave", "anchors": ["Projects/Extensions/LIBC/stdio/fwrite.h: FWRITES::execute, FWRITEI::execute", "Projects/Extensions/LIBC/stdio/fread.h: FREADS::execute, FREADI::execute, FREADB::execute", "Projects/Extensions/LIBC/stdio/fseek.h"]}
{"id": "C121", "title": "fgets gives the next line", "statement": "fgets( h, n ) returns the next line of the file including its line break, at most n - 1 bytes of it, and moves behind what it returned.", "quantifier": "all files, positions, lines and sizes", "why_tests_cant": "the histories of calls and the contents of files are unbounded, and the handles of several files interleave", "anchors": ["Projects/Extensions/LIBC/stdio/fgets.h: FGETS::execute"]}
{"id": "C122", "title": "The class File reports success and failure", "statement": "File.open returns true and positions at the start with the right size if the file can be opened, else false; write returns true exactly if the data was written; methods of a file that is not open report that; close closes once; the access mode decides whether reading and writing are possible.", "quantifier": "all files, names, modes, texts and numbers, all histories of calls before", "why_tests_cant": "the histories of calls and the contents of files are unbounded, and the handles of several files interleave", "anchors": ["Projects/Library/System/IO/File.os: File", "Projects/Extensions/LIBC/stdio/fopen.h", "Projects/Extensions/LIBC/stdio/fwrite.h: FWRITES::execute, FWRITEI::execute"]}
{"id": "C123", "title": "The class String finds what is there", "statement": "CharAt gives the character at the index and an exception outside of the text; Contains, StartsWith, EndsWith, IndexOf and LastIndexOf answer whether and where (first, last) a text occurs; s[first, last] is the part from first to last.", "quantifier": "all texts shorter than 2^31, all texts searched for, all indices", "why_tests_cant": "texts are of any length and content; the methods combine searches, cuts and loops over them", "anchors": ["Projects/Library/System/String.os: CharAt, Contains, StartsWith, EndsWith, IndexOf, LastIndexOf, operator[]"]}
{"id": "C124", "title": "The class String changes its text as said and knows its length", "statement": "Replace replaces the first occurrence, RemoveCharAt removes exactly that character, TrimLeft( n ) and TrimRight( n ) cut that many characters, Trim removes the whitespace at both ends and nothing else; after any sequence of calls Length is the length of the text.", "quantifier": "all texts, arguments and histories of calls", "why_tests_cant": "texts are of any length and content; the methods combine searches, cuts and loops over them", "anchors": ["Projects/Library/System/String.os: Replace, RemoveCharAt, TrimLeft, TrimRight, Trim, Length, operator<<"]}
{"id": "C125", "title": "ReplaceAll replaces every occurrence", "statement": "ReplaceAll replaces every occurrence of the old text, found from left to right, by the new one, and ends.", "quantifier": "all texts, old and new", "why_tests_cant": "texts are of any length and content; the methods combine searches, cuts and loops over them", "anchors": ["Projects/Library/System/String.os: ReplaceAll, Replace"]}
{"id": "C126", "title": "SplitBy gives the pieces between the separators", "statement": "Iterating over SplitBy( separator ) ends and gives the pieces of the text between the separators: joined with the separator they are the text, and none contains it; current is the last piece given; next( separator ) gives the piece up to that separator.", "quantifier": "all texts and separators", "why_tests_cant": "texts are of any length and content; the methods combine searches, cuts and loops over them", "anchors": ["Projects/Library/System/StringIterator.os: hasNext, next, current, setSeparator", "Projects/Library/System/String.os: SplitBy"]}
{"id": "C127", "title": "Iterating over a String gives its characters", "statement": "foreach over a String gives its characters in order, each once, and nothing else; peek gives what next will give.", "quantifier": "all texts", "why_tests_cant": "texts are of any length and content; the methods combine searches, cuts and loops over them", "anchors": ["Projects/Library/System/CharacterIterator.os: hasNext, next, peek", "Projects/Library/System/String.os: getIterator"]}
{"id": "C128", "title": "Options in front of the file are for slang, everything behind it is for the script", "statement": "slang [options] [-f] file args...: the options take effect as the usage text says, the script is run exactly if none of them asks for something else, and it gets the file name and all arguments behind it, unchanged and in order, also those that look like options; the folders in SLANG_LIBRARY are those between the colons.", "quantifier": "all lists of options, all file names, all lists of arguments of any content, all values of SLANG_LIBRARY", "why_tests_cant": "command lines are unbounded sequences of arbitrary texts", "anchors": ["Projects/slang/main.cpp: processParameters, main", "Projects/Core/Core/VirtualMachine/VirtualMachine.cpp: VirtualMachine::init"]}
{"id": "C129", "title": "The parameter handler gives a script its arguments", "statement": "A ParameterHandler made from the arguments of Main holds one parameter per argument of the command line, in order: words as keys without their dashes, key=value as key and value; the name and the folder of the program are right.", "quantifier": "all lists of arguments of any content", "why_tests_cant": "arguments are arbitrary texts, joined into one text and split again", "anchors": ["Projects/Library/libParam/ParameterHandler.os: ParameterHandler", "Projects/slang/main.cpp: processParameters"]}
{"id": "C130", "title": "What an object holds is released with it, inherited members included", "statement": "When an object is destroyed it gives up all its references, those in members declared by its class and those in members it inherits, so that objects only it referred to are destroyed too; as long as it exists, everything it refers to exists.", "quantifier": "all programs of variables, objects with any number of own and inherited members, assignments, deletes and ends of scopes, of any length", "why_tests_cant": "object graphs and histories are unbounded", "anchors": ["Projects/Core/Core/Runtime/BuildInTypes/Object.cpp: Object::Destructor, Object::garbageCollector, Object::free", "Projects/Core/Core/Common/Scope.cpp: MethodScope::deinit", "Projects/Core/Core/Runtime/Repository.cpp: Repository::createReference, createUserType"]}
{"id": "C131", "title": "New objects start with their declared values", "statement": "Each member that a class or one of its ancestors declares is in every new object, with the value given in the declaration, or, if none is given, with the default value of its type: the empty text for strings, 0 for everything else. This holds also for instances of generic classes, and static members exist once per class.", "quantifier": "all classes with any members, all chains of ancestors, all instances of generic classes", "why_tests_cant": "classes, ancestors and type arguments are unbounded", "anchors": ["Projects/Core/Core/Designtime/Analyser.cpp: Analyser::createMemberStub", "Projects/Core/Core/Designtime/BluePrintObject.cpp: fromPrototype, replicate", "Projects/Core/Core/VirtualMachine/Repository.cpp: Repository::createUserType"]}
{"id": "C132", "title": "new runs the constructor of the class, and destruction its destructor", "statement": "new C(args) runs the constructor of C that takes the arguments; it is an error if C has none; a private constructor can be used only by the class itself. Destroying an object runs the destructor of its class, or else that of the nearest ancestor that has one.", "quantifier": "all classes with any constructors of any visibility, all chains of ancestors, all argument lists", "why_tests_cant": "overload sets and inheritance chains are unbounded", "anchors": ["Projects/Core/Core/Object.cpp: Object::Constructor, Object::Destructor, Object::resolveMethod", "Projects/Core/Core/AST/TreeGenerator.cpp: process_new, process_method, resolveMethod", "Projects/Core/Core/AST/TreeInterpreter.cpp: evaluateNewExpression", "Projects/Core/Core/Designtime/Analyser.cpp: createBluePrint"]}
{"id": "C133", "title": "An iterator is a position that moves forth and back", "statement": "An iterator on a collection behaves like a position in the sequence of the elements: next and previous move to the neighbours and give their values, hasNext and hasPrevious tell whether there are any, current gives the element there, peek(k) the one k places away, reset goes before the first.", "quantifier": "all sequences of push_back and push_front that fill the collection, all sequences of calls on the iterator", "why_tests_cant": "histories of insertions and calls are unbounded", "anchors": ["Projects/Library/System/Collections/DoubleLinkedIterator.os: Iterator", "Projects/Library/System/Collections/Iterator.os: Iterator", "Projects/Library/System/Collections/List.os: push_back, push_front", "Projects/Library/System/Collections/Vector.os: push_back, push_front, insert"]}
{"id": "C134", "title": "The text of a formula evaluates to the value of the formula", "statement": "The text of an arithmetic formula or of a condition over int and bool variables, with any layout, comments and redundant parentheses, is accepted as one expression up to its semicolon, and evaluating it in any store gives the value the formula has in mathematics, provided all intermediate results fit 32 bits and no division by zero occurs.", "quantifier": "all formulas, all spellings with redundant parentheses, all layouts with blanks, line ends and comments, all stores, all programs with any classes and enumerations", "why_tests_cant": "formulas, layouts and stores are unbounded, and the claim spans tokenizer, parser, type checker and evaluator", "anchors": ["Projects/Core/Core/Designtime/Parser/Tokenizer.cpp: process, mergeOperators", "Projects/Core/Core/AST/TreeGenerator.cpp: expression, parseCondition, parseExpression, parseFactor, parseInfix, parseTerm", "Projects/Core/Core/AST/TreeInterpreter.cpp: evaluate, evaluateBinaryExpression, evaluateBooleanBinaryExpression, evaluateUnaryExpression"]}
{"id": "C135", "title": "A script prints what its commands mean", "statement": "A script made of functions on numbers (int, bool and string variables in nested blocks, declared with or without a value (0, false and the empty text then), assertions, assignments with =, +=, -=, *=, /= and %=, ++ and --, formulas and conditions, if, else if and else, switch with case and default, while and counting for loops with break and continue, print of numbers and of texts, texts put together with + of texts, string variables, numbers and truth values, which are printed, assigned or given to new variables, calls of functions with and without results and with any recursion, whose results are assigned, given to new variables, printed or returned, return with and without a result) that obeys the rules of the language is accepted in any layout, prints exactly the numbers and texts that a textbook semantics of the commands prescribes, one per line, ends normally when the commands end, and prints nothing else.", "quantifier": "all programs of the small language, all ways to write them with redundant parentheses, all layouts with blanks, line ends and comments, all terminating executions of any length and recursion depth", "why_tests_cant": "programs, layouts and executions are unbounded, and the claim spans tokenizer, declarations, parser, type checker and interpreter", "anchors": ["Projects/Core/Core/VirtualMachine/VirtualMachine.cpp: createScriptFromString, createScript, run", "Projects/Core/Core/Designtime/Parser/Tokenizer.cpp: process, mergeOperators", "Projects/Core/Core/Designtime/Parser/Parser.cpp: buildAST, parseMethod", "Projects/Core/Core/Designtime/Analyser.cpp: createMethodStub, resolveType", "Projects/Core/Core/AST/TreeGenerator.cpp: process, process_statement, expression, resolveMethod", "Projects/Core/Core/AST/TreeInterpreter.cpp: execute, executeMethod, visitAssert, visitAssignment, visitIf, visitWhile, visitFor, visitExpression, visitReturn, visitTypeDeclaration, visitPrint", "Projects/Core/Core/Runtime/BuildInTypes/StringType.cpp: operator_assign, operator_plus"]}
{"id": "C136", "title": "Every JSON document is read as its value", "statement": "JsonReader.parse gives, for every JSON document, the value the document stands for: null, booleans, numbers, strings, arrays in order and objects with their members in order, independent of blanks and of the way strings are escaped.", "quantifier": "all JSON values of any depth and size and all ways to write them", "why_tests_cant": "documents are nested without bound and each has infinitely many spellings", "anchors": ["Projects/Library/libJson/Tokenizer.os: parseString, getNextToken, getID, getDigit, readString", "Projects/Library/libJson/Reader.os: parse, parseArray, parseObject, parseValue, require", "Projects/Library/System/CharacterIterator.os: next, peek", "Projects/Library/System/Collections/Iterator.os: current, hasNext, next"]}
{"id": "C137", "title": "What is written as JSON is JSON with the same value", "statement": "The text that toString, JsonWriter and JsonStyledWriter give for an array or object is a JSON document of the same value, so that reading it gives the value back.", "quantifier": "all values of any depth and size, all texts in them, all depths of indentation", "why_tests_cant": "values are nested without bound and contain any text", "anchors": ["Projects/Library/libJson/Writer.os: JsonWriter.toString, indent, JsonStyledWriter", "Projects/Library/libJson/Value.os: toString", "Projects/Library/libJson/Array.os: toString", "Projects/Library/libJson/Object.os: toString"]}
{"id": "C138", "title": "Reading JSON ends, and accepts documents only", "statement": "JsonReader.parse ends for every text, and it returns a value only if the text is a JSON document; otherwise it throws.", "quantifier": "all texts", "why_tests_cant": "texts are unbounded; an endless loop cannot be observed by a test", "anchors": ["Projects/Library/libJson/Reader.os: parse, parseArray, parseObject, parseValue, require", "Projects/Library/libJson/Tokenizer.os: parseString, getNextToken"]}
{"id": "C139", "title": "A script ends, fails or runs on exactly as its commands do", "statement": "A script that obeys the rules of the language ends exactly if its commands end, and then with their output; it fails exactly if its commands arrive at a result that does not exist (overflow, division by zero) or at an assertion that does not hold; and it runs forever exactly if its commands do. It never ends in any other way: it is not rejected, and no exception leaves it.", "quantifier": "all programs of the language of C135, all their layouts, all numbers of steps", "why_tests_cant": "that a script never ends cannot be observed, and there are infinitely many programs and layouts", "anchors": ["Projects/Core/Core/VirtualMachine/VirtualMachine.cpp: createScript, run, runScriptFromString", "Projects/Core/Core/AST/TreeInterpreter.cpp: execute, visitAssert, visitWhile, visitFor, visitIf, visitBlock, visitReturn, evaluateMethodExpression", "Projects/Core/Core/AST/TreeGenerator.cpp: generateAST"]}
{"id": "C140", "title": "A script is rejected before it runs exactly when it breaks a rule", "statement": "A script is accepted if and only if it obeys the rules of the language: every variable is declared before it is used and once in a block, every called function exists with this number of parameters and has a result if one is used, operators get values they are made for, no text is given to a number, break and continue stand in loops or blocks of a switch, every block of a switch ends with a jump and at most one is the default, results are returned by functions that promise one and by no others, functions with the same name differ in their parameters. A script that breaks a rule anywhere is rejected, and nothing of it is executed.", "quantifier": "all programs of the language of C135, lawful or not, all their layouts, all numbers of steps", "why_tests_cant": "there are infinitely many programs, and a rule can be broken at any depth in any of them", "anchors": ["Projects/Core/Core/AST/TreeGenerator.cpp: generateAST, process_statement, expression, typeDeclaration, process_method, process_return, process_break, process_continue, process_switch", "Projects/Core/Core/Designtime/Parser/Parser.cpp: parseMethod", "Projects/Core/Core/Designtime/Analyser.cpp: createMethod", "Projects/Core/Core/VirtualMachine/TypeSystem.cpp: getType", "Projects/Core/Core/VirtualMachine/VirtualMachine.cpp: createScript"]}
{"id": "C141", "title": "JSON builders build the document they are told to", "statement": "When the members of an object are added to a JSON builder one after the other, nested arrays and objects begun and ended around their contents, the text the builder gives is a JSON document of exactly that object, and the JSON reader reads it back; plain and styled builders alike, for every further document as well.", "quantifier": "all objects, of any depth and width, all keys and texts, plain and styled builders, any document built before", "why_tests_cant": "objects nest without bound, and the place of every comma depends on all the calls made before", "anchors": ["Projects/Library/libJsonBuilder/Builder.os: Builder", "Projects/Library/libJsonBuilder/StyledBuilder.os: StyledBuilder", "Projects/Library/libJsonBuilder/StructuredBuilder.os: BeginArray, BeginObject, EndArray, EndObject, AddElement, AddValue, AddObject, GetString"]}
{"id": "C142", "title": "The version class of the library reads, prints and orders versions", "statement": "SemVer.FromString accepts exactly the texts of three parts between points and gives their numbers and the label; a version turned into a text and read again is the same version; <, > and == are a strict total order in which a version with a label comes before the same version without one; the next bugfix, minor and major version is the first one after all versions it follows.", "quantifier": "all texts, all versions, with any label and build", "why_tests_cant": "there are infinitely many versions and labels, and total order is a statement about every three of them", "anchors": ["Projects/Library/libSemVer/SemVer.os: SemVer.FromString, nextBugfix, nextMajor, nextMinor, operator<, operator>, operator==, =operator(string)", "Projects/Extensions/System/Strings/StrFind.h: StrFind.execute", "Projects/Extensions/System/Strings/SubStr.h: SubStr.execute", "Projects/Core/Core/Runtime/AtomicValue.cpp: AtomicValue::toBool"]}
{"id": "C143", "title": "Behaviour trees execute their nodes in the right order", "statement": "From the tick that begins it to the tick that finishes it, a sequence executes its children in order, each until it is finished, up to the first that fails, and a fallback up to the first that succeeds; in between the world may change in any way. Then the node is at its beginning again. Inverters turn the result around, decorators that force a result execute their child and replace its result, reactive nodes start over at every tick. If nothing waits, a tick evaluates the tree as a formula and executes exactly the actions its value depends on.", "quantifier": "all trees, all actions and what they do to the world, all numbers of ticks and changes of the world between them", "why_tests_cant": "trees nest without bound, and the memory of a node matters over any number of ticks", "anchors": ["Projects/Library/libBehaviourTree/Control.os: Fallback.tick, ReactiveFallback.tick, Sequence.tick, ReactiveSequence.tick, SequenceStar.tick", "Projects/Library/libBehaviourTree/Decorator.os: ForceFailureDecorator.tick, ForceSuccessDecorator.tick, InverterDecorator.tick", "Projects/Library/libBehaviourTree/Node.os: NodeStatus"]}
{"id": "C144", "title": "A table is read as it was written", "statement": "A CSVReader gives a row for every line of the file and in it a field for every text between the separators: a table written row by row is read back as it was, with or without a line break behind the last row, with or without titles, whatever was read before. getIdx gives the first column with a title.", "quantifier": "all tables, of any number of rows and fields with any texts", "why_tests_cant": "there are infinitely many tables, and every character of one can be a separator", "anchors": ["Projects/Library/libCSVReader/CSVReader.os: CSVReader.Constructor, open, parseString", "Projects/Library/libCSVReader/Row.os: Row.getIdx", "Projects/Library/System/CharacterIterator.os: CharacterIterator", "Projects/Library/System/StringIterator.os: StringIterator"]}
{"id": "C145", "title": "The name of a type means the nearest class", "statement": "Wherever a type is written in a declaration - the type of a member, variable, parameter or result, an ancestor, a type argument - its name means the class, interface or enumeration of that name in the innermost namespace or class around it, in whatever order and in whatever files the two are written; a name that nothing around it has is a full name.", "quantifier": "all programs: all sets of files with namespaces, classes, interfaces, enumerations, members and methods, nested to any depth", "why_tests_cant": "names, nesting and order of declarations are unbounded; a test covers one order", "anchors": ["Projects/Core/Core/Designtime/Analyser.cpp: Analyser::resolveType, createBluePrint, createInterface, createMemberStub, createMethodStub"]}
{"id": "C146", "title": "Every class is known under its full name", "statement": "After a program is loaded the classes that exist are the built-in ones and, for every class, interface and enumeration that is declared, one whose name is its own preceded by the names of the namespaces and classes around it.", "quantifier": "all programs, nested to any depth, and all names", "why_tests_cant": "programs and names are unbounded", "anchors": ["Projects/Core/Core/Designtime/Analyser.cpp: Analyser::createBluePrint, createEnum, createInterface, getQualifiedTypename", "Projects/Core/Core/VirtualMachine/Repository.cpp: Repository::addBluePrint"]}
{"id": "C147", "title": "A program is rejected exactly if a name is declared twice", "statement": "Declaring two things of the same name in the same namespace or class is an error, save methods and namespaces that are opened again; nothing else about the names of the declarations is.", "quantifier": "all programs", "why_tests_cant": "programs and names are unbounded; both directions are claimed", "anchors": ["Projects/Core/Core/Scope.cpp: MethodScope::define", "Projects/Core/Core/Designtime/Analyser.cpp: Analyser::createNamespace, createBluePrint", "Projects/Core/Core/VirtualMachine/Repository.cpp: Repository::addBluePrint"]}
{"id": "C148", "title": "Namespaces may be written in parts", "statement": "Opening a namespace again goes on where it ended, namespace A.B is namespace B in namespace A, and it does not matter how a program is divided into files.", "quantifier": "all programs and all ways to divide namespaces and files", "why_tests_cant": "divisions are unbounded", "anchors": ["Projects/Core/Core/Designtime/Analyser.cpp: Analyser::createNamespace"]}
{"id": "C149", "title": "What the Sudoku solver fills in first is forced", "statement": "Working out the possible values of a Sudoku always ends. It keeps every number on the board; each number it fills in is one that every solution of the puzzle has at that place; for each place it leaves empty it lists exactly the numbers that no place in the same line, column or box has, so that every solution uses one of them; and if it reports the puzzle as solved, the board is a solution and the only one.", "quantifier": "all boards the program can have, of any size, however they were filled, and all solutions of them", "why_tests_cant": "boards and solutions are unbounded in size, and too many to try for any one size", "anchors": ["Projects/Library/SudokuSolver/Board.os: calculatePossibleValues, isSafe, isUsedInBox, isUsedInLine, isUsedInRow"]}
{"id": "C150", "title": "The Sudoku solver finds a solution if there is one", "statement": "Solving a Sudoku that has a solution ends with a solution on the board and reports it as solved; the numbers given stay, and at no time do two places of a line, column or box get the same number.", "quantifier": "all boards the program can have, of any size", "why_tests_cant": "boards are unbounded, and the search is exponential", "anchors": ["Projects/Library/SudokuSolver/Board.os: solve"]}
{"id": "C151", "title": "Numbers of a Sudoku are checked against line, column and box", "statement": "Setting a number with validation succeeds exactly when no place of the line, column or box has it, and then changes that place only; looking for an empty place finds the first in reading order; a board is called sane exactly when it is a solution.", "quantifier": "all boards, places and numbers", "why_tests_cant": "boards and numbers are unbounded", "anchors": ["Projects/Library/SudokuSolver/Board.os: set, findEmptyCell, isSane"]}
{"id": "C152", "title": "A conditional breakpoint stops exactly when its condition holds", "statement": "While a program runs under slang-dbg, a breakpoint with a condition stops it exactly when the condition holds for the values its variables have there, and one without always.", "quantifier": "all sessions before (any events, any commands at the stops), all programs and states of their variables, all breakpoints and conditions", "why_tests_cant": "sessions and programs are unbounded", "anchors": ["Projects/slang-dbg/LocalClient/LocalClient.cpp: notify, handleBreakpoint, getSymbol, addLiteralSymbol", "Projects/Core/Debugger/Condition.cpp: evaluate"]}
{"id": "C153", "title": "The debugger looks at the selected stack frame", "statement": "When the program stops, the innermost frame is selected; up and down select the frame of the caller and of the called method if there is one, frame n the frame with that number if there is one; all other commands keep the selection, and names are looked up in the selected frame.", "quantifier": "all call stacks, selections and commands", "why_tests_cant": "call stacks and command sequences are unbounded", "anchors": ["Projects/slang-dbg/LocalClient/LocalClient.cpp: frameUp, frameDown, setCurrentFrame, handleBreakpoint, executeCommand"]}
{"id": "C154", "title": "Looking at variables changes nothing, changing one changes only that", "statement": "print a.b.c shows what the names lead to from the selected frame and changes nothing; modify changes the value of exactly the variable named, to a value of its type; the watches are exactly the names watched and not unwatched since, shown once each in alphabetical order with what they lead to.", "quantifier": "all programs, scopes, dotted names, new values and sequences of commands", "why_tests_cant": "names, values and command sequences are unbounded", "anchors": ["Projects/slang-dbg/LocalClient/LocalClient.cpp: getSymbol, printSymbol, modifySymbol, addWatch, removeWatch, refreshWatches", "Projects/slang-dbg/LocalClient/Watch.cpp: operator<"]}
{"id": "C155", "title": "A stopped program stays stopped until told to go on", "statement": "At a stop the program goes on exactly when one of the commands continue, run, into, next, out and ignore (or its short form) is entered, and then in the way the command says; no other line, known or not, makes it go on.", "quantifier": "all lines entered at a stop", "why_tests_cant": "lines are unbounded", "anchors": ["Projects/slang-dbg/LocalClient/LocalClient.cpp: executeCommand, handleBreakpoint, continueExecution"]}
{"id": "C156", "title": "Type arguments mean what is written, missing ones are Object", "statement": "The type arguments t1, ..., tk between < and > are read in their order; an object of a generic class with n parameters that is created with k \u2264 n arguments has the class written with Object for the missing ones, and more than n arguments are rejected; arguments are separated by commas and may be generic types themselves.", "quantifier": "all lists of type names, all generic classes, all sets of known classes", "why_tests_cant": "argument lists and the known classes are unbounded", "anchors": ["Projects/Core/Core/Designtime/Parser/Parser.cpp: Parser::collectRuntimePrototypeConstraints, buildRuntimeConstraintTypename", "Projects/Core/Core/VirtualMachine/Repository.cpp: Repository::createInstance", "Projects/Core/Core/Common/PrototypeConstraint.cpp: buildRawConstraints"]}
{"id": "C157", "title": "What is sent over a connection is received", "statement": "The values that one script sends with writeb, writei, writef, writed and writes are received by the other side with the matching readb, readi, readf, readd and reads, in the same order and with nothing left over, however the operating system cuts the bytes into pieces; a value that was not sent is not received.", "quantifier": "all sequences of values, all texts, all sequences of answers of the operating system", "why_tests_cant": "how bytes are cut into pieces depends on the schedule of the network", "anchors": ["Projects/Extensions/System/Network/Read.h: ReadBool, ReadInt, ReadFloat, ReadDouble, ReadString", "Projects/Extensions/System/Network/Write.h: WriteBool, WriteInt, WriteFloat, WriteDouble, WriteString"]}
{"id": "C158", "title": "Failures on a connection are told, counts are true", "statement": "When a call of the operating system fails while a value is sent or received, the script gets an exception it can catch; what was sent before is a beginning of the value; the number a write function returns is the number of bytes sent.", "quantifier": "all values, all states of the line, all answers of the operating system", "why_tests_cant": "failures can occur at every byte", "anchors": ["Projects/Extensions/System/Network/Read.h: ReadString::execute", "Projects/Extensions/System/Network/Write.h: WriteString::execute"]}
{"id": "C159", "title": "A client socket writes exactly while it is connected", "statement": "In every history of calls of a ClientSocket a Write is refused with \"not connected\" exactly when the last Connect or Close before it was not a Connect that said yes, exactly the values of the other writes reach the operating system, and a closed client can be connected again; ServerSocket.Bind says whether the socket was bound.", "quantifier": "all histories of calls and all answers of the operating system", "why_tests_cant": "histories are unbounded", "anchors": ["Projects/Library/System/Network/ClientSocket.os: Connect, Close, Write", "Projects/Library/System/Network/ServerSocket.os: Bind", "Projects/Extensions/System/Network/Bind.h: Bind::execute"]}
{"id": "C160", "title": "A failed assertion tells what failed", "statement": "assert(c); passes exactly when the condition is true.  When it is false, the exception carries a text of the condition that means the same: read again as an expression of the language it is the same expression.", "quantifier": "all conditions, spellings, layouts and values of variables", "why_tests_cant": "conditions nest without bound", "anchors": ["Projects/Core/Core/AST/TreeInterpreter.cpp: visitAssert, printExpression", "Projects/Core/Core/Runtime/Exceptions.h: AssertionFailed", "Projects/Core/Core/AST/TreeGenerator.cpp: parseCondition"]}
{"id": "C161", "title": "Loaded extensions offer their methods", "statement": "When an extension is said to be loaded, all its methods can be called, whatever was loaded before and in whatever order; the printed specification lists exactly the methods that can be called, and searching it finds them.", "quantifier": "all sequences of extensions, all their methods, all orders", "why_tests_cant": "extensions of different authors meet only on the machines of users", "anchors": ["Projects/Core/Core/VirtualMachine/VirtualMachine.cpp: addExtension, printSpecification", "Projects/Core/Core/Scope.cpp: MethodScope::defineMethod"]}
{"id": "C162", "title": "A method called by its full name is the one of that name", "statement": "Script::execute(\"A.B.f\", arguments) calls a public method f of the namespace A.B that fits the arguments if there is one, and otherwise ends with an exception.", "quantifier": "all programs (trees of namespaces), all names, all types of arguments", "why_tests_cant": "trees of namespaces are unbounded", "anchors": ["Projects/Core/Core/Runtime/Script.cpp: Script::execute", "Projects/Core/Core/Scope.cpp: MethodScope::resolve, MethodScope::resolveMethod"]}
{"id": "C163", "title": "A configuration file gives its keys their values", "statement": "After a configuration file has been loaded, whatever was loaded before, the value of a key is the type and the words of the last line whose first word is the key; a key is a member exactly when a line sets it; every other key has the empty value. A file that is missing or empty is no success and leaves no keys.", "quantifier": "every text of a file, every key and index, every state before loading", "why_tests_cant": "files have unbounded length and any order of lines; earlier loads must leave no trace", "anchors": ["Projects/Utils/Common/Configuration/Configurator.cpp: Configurator::load", "Projects/Utils/Common/Configuration/Configurator.cpp: Configurator::getValue", "Projects/Utils/Common/Configuration/Configurator.cpp: Configurator::isMember", "Projects/Utils/Parsers/LineParser.cpp: LineParser::parse"]}
{"id": "C164", "title": "Quoted text is unquoted exactly", "statement": "Extracting a text that stands between two equal quotation marks gives exactly what is between them; any other text gives the empty text.", "quantifier": "every text and both kinds of quotation marks", "why_tests_cant": "texts are unbounded and may contain quotation marks themselves", "anchors": ["Projects/Utils/Tools/Strings.cpp: extract"]}
{"id": "C165", "title": "The key of a logger shows where a message comes from", "statement": "The key of a logger is the path of the keys of its ancestors and its own, joined by the separator; with a key length it has exactly that many characters: the end of the path, or the path filled up with blanks.", "quantifier": "every chain of loggers, every separator, key and key length", "why_tests_cant": "chains of loggers and keys are unbounded, and every key is cut and filled up again on the way down", "anchors": ["Projects/Library/libLog/Logger.os: Logger.Constructor", "Projects/Library/libLog/StdOutLogger.os: StdOutLogger.Constructor", "Projects/Library/libLog/FileLogger.os: FileLogger.Constructor", "Projects/Library/System/IO/Logger.os: System.IO.Logger.Constructor"]}
{"id": "C166", "title": "A log file holds exactly what was logged", "statement": "The file of a file logger holds exactly the entries that were logged, with level, key and message, in order; an appending logger keeps what the file held before; every entry is a line of its own.", "quantifier": "every earlier use of files, every sequence of messages of every level", "why_tests_cant": "the contents depend on the whole history of the file and the position of every write", "anchors": ["Projects/Library/libLog/Logger.os: Logger.debug, error, fatal, info, warning", "Projects/Library/libLog/Context.os: FileContext", "Projects/Library/libLog/FileLogger.os: FileLogger, AppendingFileLogger", "Projects/Library/System/IO/File.os: File.open, File.write"]}
{"id": "C167", "title": "Math.power and Math.sqr compute powers", "statement": "power( value, exp ) of integers is value to the power of exp whenever the result fits, and ends for every exponent; power( value ) and sqr( value ) are the square.", "quantifier": "every int value and every int exponent", "why_tests_cant": "the number of rounds is the exponent; values up to the limits of the type must not overflow on the way", "anchors": ["Projects/Library/System/Math/Functions.os: Math.power", "Projects/Library/System/Math/Functions.os: Math.sqr"]}
{"id": "C168", "title": "The C search functions find the first or last occurrence", "statement": "strchr, strrchr, strpbrk and strstr give the text from the first (strrchr: the last) occurrence on, and a defined answer if there is none; strspn and strcspn are the lengths of the longest starts made of, or free of, the given characters.", "quantifier": "every text, every character, set of characters and searched text", "why_tests_cant": "texts are unbounded; that no earlier occurrence exists quantifies over all places", "anchors": ["Projects/Extensions/LIBC/cstring/strchr.h: STRCHR::execute", "Projects/Extensions/LIBC/cstring/strrchr.h: STRRCHR::execute", "Projects/Extensions/LIBC/cstring/strpbrk.h: STRPBRK::execute", "Projects/Extensions/LIBC/cstring/strstr.h: STRSTR::execute", "Projects/Extensions/LIBC/cstring/strspn.h: STRSPN::execute", "Projects/Extensions/LIBC/cstring/strcspn.h: STRCSPN::execute"]}
{"id": "C169", "title": "The C functions compare and join texts", "statement": "strcmp and strncmp are zero, negative or positive exactly if the first text (its first num characters) is equal to, before or behind the other in the order of bytes; strcat joins two texts and strncat appends at most num characters.", "quantifier": "every pair of texts and every number", "why_tests_cant": "texts are unbounded, and the sign must agree with the order for every pair", "anchors": ["Projects/Extensions/LIBC/cstring/strcmp.h: STRCMP::execute", "Projects/Extensions/LIBC/cstring/strncmp.h: STRNCMP::execute", "Projects/Extensions/LIBC/cstring/strcat.h: STRCAT::execute", "Projects/Extensions/LIBC/cstring/strncat.h: STRNCAT::execute"]}
{"id": "C170", "title": "tolower and toupper change letters only", "statement": "tolower turns every capital letter into the small letter at the same place and keeps everything else, toupper the other way round; doing it twice is the same as once.", "quantifier": "every text", "why_tests_cant": "texts are unbounded, and every byte value must be right at every place", "anchors": ["Projects/Extensions/System/Strings/ToLower.h: ToLower::execute", "Projects/Extensions/System/Strings/ToUpper.h: ToUpper::execute"]}
{"id": "C171", "title": "The environment is a map from names to values", "statement": "getenv gives the value last set, or the empty text; setenv sets it, does not replace an existing one unless told to, and refuses bad names with -1; putenv sets it too.", "quantifier": "every sequence of getenv, setenv and putenv calls, every start environment", "why_tests_cant": "answers depend on the whole history of calls", "anchors": ["Projects/Extensions/System/GetEnv.h: GetEnv::execute", "Projects/Extensions/System/SetEnv.h: SetEnv::execute", "Projects/Extensions/System/PutEnv.h: PutEnv::execute"]}
{"id": "C172", "title": "The application server answers every request with its own service", "statement": "A request to slang-app is answered with what the entry point configured for its path prints, or with 404 if there is none, no matter which requests came before; the script runs with the parameters of this request.", "quantifier": "every configuration, every sequence of requests, every script", "why_tests_cant": "depends on the whole history of requests; earlier scripts can change the environment of their process", "anchors": ["Projects/slang-app/Application/Application.cpp: Application::exec, Application::loadServices", "Projects/slang-app/Common/Service.cpp: Service::handleRequest, Service::prepareEnvironment"]}
{"id": "C173", "title": "A script of the application server sees the request's parameters and no others", "statement": "getenv of a parameter that slang-app passes on gives the value of the current request, and the empty text if the request does not have it.", "quantifier": "every request, every parameter, every environment the server was started with", "why_tests_cant": "over all start environments and all combinations of missing parameters", "anchors": ["Projects/slang-app/Common/Service.cpp: Service::prepareEnvironment, setenv_s"]}
{"id": "C174", "title": "The repository index lists the newest version of every module", "statement": "The index RepoIndexer builds holds every module of the repository exactly once, with its newest version, ordered by name, whatever the order of the files; files that are no modules are skipped.", "quantifier": "every list of files in every order", "why_tests_cant": "the number and order of the files is unbounded; a version may replace another any number of times", "anchors": ["Projects/Library/RepoIndexer/Indexer.os: Indexer.buildIndex", "Projects/Library/RepoIndexer/Module.os: Module.operator<, operator==, isValid", "Projects/Library/libSemVer/SemVer.os: SemVer.FromString, operator<"]}
{"id": "C175", "title": "The dependency check says OK only if all dependencies are met", "statement": "DependencyChecker answers \"Dependencies are OK\" exactly if for every dependency of every module the needed module is there with a version in the allowed range.", "quantifier": "every set of modules with every list of dependencies, in every order", "why_tests_cant": "the modules, their dependencies and the order of the files are unbounded", "anchors": ["Projects/Library/DependencyChecker/Main.slang: Main, Dependency.FromJson"]}
{"id": "C176", "title": "A class has exactly the ancestors that are written", "statement": "After its declaration a class has exactly the ancestors written after extends and implements, each once, whatever their order, and the class Object if it extends nothing and is implemented.", "quantifier": "every list of ancestors with every kind, name and type arguments, in every order, and every shape the search tree of the C++ library may take", "why_tests_cant": "the number of ancestors is unbounded, and what the set keeps depends on all those inserted before", "anchors": ["Projects/Core/Core/Designtime/Ancestor.cpp: Ancestor::operator<", "Projects/Core/Core/Common/PrototypeConstraint.cpp: operator==", "Projects/Core/Core/Designtime/Parser/Parser.cpp: collectInheritance", "Projects/Core/Core/Designtime/Analyser.cpp: createObject", "Projects/Core/Core/Designtime/BluePrintObject.cpp: addInheritance, getAncestors, getImplementations, inheritsFrom"]}
{"id": "C177", "title": "A query is split into the tokens it is written with", "statement": "Parsing a query of csvDB gives its words, numbers, quoted texts and symbols in their order, white space left out, with reserved words recognised in any mixture of cases, and rejects a query with anything else in it.", "quantifier": "every text of a query", "why_tests_cant": "the number and the kinds of tokens and the lengths of words, numbers and texts are unbounded", "anchors": ["Projects/Library/csvDB/Tokenizer.os: parse, getNextToken, getID, getDigit, consume, peek", "Projects/Library/csvDB/Token.os: Token", "Projects/Library/System/CharacterIterator.os: next, current, peek"]}
{"id": "C178", "title": "Queries are answered from the table", "statement": "A SELECT query prints the columns it names of the rows of the table behind FROM, and EXPLAIN with the name of a table prints the titles of its columns.", "quantifier": "every query, every table, every content of the files", "why_tests_cant": "queries and tables are unbounded, and every combination of columns and tables is allowed", "anchors": ["Projects/Library/csvDB/QueryExecutor.os: exec, explainTable, parseQuery", "Projects/Library/System/Collections/Iterator.os: peek", "Projects/Library/libCSVReader/Row.os: =operator( string )"]}
{"id": "C179", "title": "An uncaught exception is reported with its origin and its stack", "statement": "A script that ends with an exception that nothing catches reports the place of the throw statement the exception comes from, its value, and exactly the calls that were active there, outermost first and numbered from 0; a script that ends without one reports nothing.", "quantifier": "every script made of calls, throws, rethrows, handlers and final blocks, every depth of calls", "why_tests_cant": "the depth of the calls and the nesting of handlers are unbounded, and what has been raised and handled before may leave traces in the state of the thread", "anchors": ["Projects/Core/Core/Runtime/Script.cpp: execute", "Projects/Core/Core/VirtualMachine/Threads.cpp: exception, stackTrace, pushFrame, popFrame", "Projects/Core/Core/VirtualMachine/StackFrame.cpp: toString", "Projects/Core/Core/AST/TreeInterpreter.cpp: visitThrow, visitTry, initialize, finalize", "Projects/Core/Core/Common/Position.cpp: toString", "Projects/Core/Core/Common/Types.cpp: toString"]}
{"id": "C180", "title": "A Scanner gives the text of its file", "statement": "A Scanner made for a file has the whole contents of the file as its text; after reset the text is what the file contains at that moment, whatever happened to files in between; a file that cannot be opened is reported.", "quantifier": "all files and contents, all histories of calls of the file functions before and after, any number of resets", "why_tests_cant": "the contents and the histories of calls are unbounded, and other handles of the same file change it behind the scanner", "anchors": ["Projects/Library/FileReader/Scanner.os: Constructor, reset, readFile, getText", "Projects/Library/System/IO/File.os: open, getSize, readString, rewind", "Projects/Extensions/LIBC/stdio/fread.h: FREADS::execute"]}
{"id": "C181", "title": "The text of an object shows all its members", "statement": "The text of an object, which the report of an uncaught exception contains, ends and shows the object with its type and every member, inherited ones included, with its name and its value, one line each, nested by indentation and in the order of the names.", "quantifier": "all object graphs, of any size, depth and sharing, with or without cycles, all contents of the members", "why_tests_cant": "object graphs are unbounded and may contain cycles", "anchors": ["Projects/Core/Core/Object.cpp: Object::ToString", "Projects/Core/Core/VirtualMachine/Repository.cpp: createUserType", "Projects/Core/Core/AST/TreeInterpreter.cpp: evaluate (new)", "Projects/Core/Core/Runtime/Script.cpp: execute", "Projects/Utils/Tools/Strings.cpp: indent"]}
{"id": "C182", "title": "A program ends by destroying what is left, once", "statement": "When the virtual machine is shut down after all variables are gone, every object that still exists is destroyed exactly once, and no object is used after it has been destroyed.", "quantifier": "all histories of creating, assigning and releasing objects, of any length, with or without reference cycles", "why_tests_cant": "histories and object graphs are unbounded, and what is left at the end depends on the whole history", "anchors": ["Projects/Core/Core/VirtualMachine/Memory.cpp: Memory::deinit, remove, deleteObject", "Projects/Core/Core/VirtualMachine/Controller.cpp: Controller::deinit", "Projects/Core/Core/Object.cpp: Object::~Object"]}
