import Verif.Brackets.Model
import Verif.Expr.Model

/-!
# The reading of declarations

Models `Analyser::generate` and what it calls (`Designtime/Analyser.cpp`) with the static functions of `Parser`
(`Designtime/Parser/Parser.cpp`); paths relative to `/repo/Projects/Core/Core`, line numbers without a file name are those of
`Analyser.cpp`.  The result is the list of declarations in the order in which they are defined, types and names as they are written.

Simplifications: names of types are not resolved (`resolveType`, 748-792, which throws for names that are no types), duplicate
definitions are not rejected (`define`, `defineMethod`), no objects are created for static members (`createInstance`, 447), the text
of numbers is not converted (`stringToInt` etc.), the default constructor is not added (205-219), the entries of enumerations are not read (`buildEnum`, see `Verif.Enums`); default values are the tokens they consist
of.  An iterator is the list of tokens from its position on, reading at its end is undefined behaviour.
-/

namespace Verif.Decl

open Verif.Str (Text)
open Verif.Lex (Tok Ty Cat)
open Verif.Expr (Res expect)

/-! ## Attributes -/

/-- `Visibility::E` (Common/Visibility.h). -/
inductive Vis where
  | designtime | priv | prot | pub
deriving DecidableEq, Repr

/-- `LanguageFeatureState::E` (Common/Attributes/Types.h). -/
inductive Feature where
  | deprecated | notImplemented | stable | unspecified | unstable
deriving DecidableEq, Repr

/-- `MemoryLayout::E` (Common/Attributes/Types.h). -/
inductive Layout where
  | abstr | fin | over | stat | virt | unspecified
deriving DecidableEq, Repr

/-- `Mutability::E` (Common/Attributes/Types.h). -/
inductive Mut where
  | const | modify | unknown
deriving DecidableEq, Repr

/-- `AccessMode::E` (Common/Attributes/Types.h). -/
inductive Access where
  | byReference | byValue | unspecified
deriving DecidableEq, Repr

/-- `Visibility::convert` (Common/Visibility.cpp:22-31); `none` is the failed assertion. -/
def visOf (t : Text) : Option Vis :=
  if t = "Designtime".toList then some .designtime
  else if t = "private".toList then some .priv
  else if t = "protected".toList then some .prot
  else if t = "public".toList then some .pub
  else none

/-- `LanguageFeatureState::convert` (Common/Attributes/Types.cpp:98-107). -/
def featureOf (t : Text) : Feature :=
  if t = "deprecated".toList then .deprecated
  else if t = [] then .stable
  else if t = "notimplemented".toList then .notImplemented
  else if t = "stable".toList then .stable
  else if t = "unstable".toList then .unstable
  else .unspecified

/-- `MemoryLayout::convert` (Common/Attributes/Types.cpp:123-132). -/
def layoutOf (t : Text) : Layout :=
  if t = "abstract".toList then .abstr
  else if t = "final".toList then .fin
  else if t = "override".toList then .over
  else if t = "static".toList then .stat
  else if t = "virtual".toList then .virt
  else .unspecified

/-- `Mutability::convert` (Common/Attributes/Types.cpp:149-155). -/
def mutOf (t : Text) : Mut :=
  if t = "const".toList then .const
  else if t = "modify".toList then .modify
  else .unknown

/-- `AccessMode::convert` (Common/Attributes/Types.cpp:16-22). -/
def accessOf (t : Text) : Access :=
  if t = "default".toList then .unspecified
  else if t = "ref".toList then .byReference
  else .unspecified

/-- An attribute that may be missing: `parseLanguageFeatureState`, `parseMemoryLayout`, `parseMutability`
(Designtime/Parser/Parser.cpp:433-464). -/
def attr {α : Type} (ty : Ty) (convert : Text → α) (dflt : α) : List Tok → Res α
  | [] => .undefined
  | t :: ts => if t.ty = ty then .ok (convert t.content) ts else .ok dflt (t :: ts)

/-- `parseVisibility` (Designtime/Parser/Parser.cpp:636-645). -/
def visibility (dflt : Vis) : List Tok → Res Vis
  | [] => .undefined
  | t :: ts =>
    if t.ty = .VISIBILITY then
      match visOf t.content with
      | some v => .ok v ts
      | none => .undefined
    else .ok dflt (t :: ts)

/-- `parseAccessMode` (Designtime/Parser/Parser.cpp:402-411). -/
def accessMode (dflt : Access) : List Tok → Res Access
  | [] => .undefined
  | t :: ts =>
    if t.ty = .ACCESS_MODE ∨ t.content = "default".toList then .ok (accessOf t.content) ts else .ok dflt (t :: ts)

/-- `parseExceptions` (Designtime/Parser/Parser.cpp:418-431): does the method throw? -/
def exceptions (dflt : Bool) : List Tok → Res Bool
  | [] => .undefined
  | t :: ts =>
    if t.content = "nothrow".toList then .ok false ts
    else if t.content = "throws".toList then .ok true ts
    else .ok dflt (t :: ts)

/-! ## Types -/

/-- A type parameter or argument (Common/PrototypeConstraint.h): design time and run time type are the same text. -/
structure Arg where
  type : Text
  constraint : Text
deriving DecidableEq, Repr

/-- `TypeDeclaration` (Common/TypeDeclaration.h). -/
structure TypeDecl where
  name : Text
  args : List Arg
  mutab : Mut
deriving DecidableEq, Repr

/-- `identify` (Designtime/Parser/Parser.cpp:304-319). -/
def identify : List Tok → Res Text
  | [] => .undefined
  | t :: ts =>
    if t.ty = .IDENTIFIER then
      match ts with
      | [] => .undefined
      | d :: ts =>
        if d.ty ≠ .OPERATOR_SCOPE then .ok t.content (d :: ts)
        else (identify ts).bind fun n ts => .ok (t.content ++ d.content ++ n) ts
    else .ok t.content ts

/-- The optional `: type` behind a type parameter (Designtime/Parser/Parser.cpp:204-215). -/
def constraint : List Tok → Res Text
  | [] => .undefined
  | c :: ts =>
    if c.ty = .COLON then
      match ts with
      | [] => .undefined
      | k :: ts => if k.ty = .IDENTIFIER then .ok k.content ts else .error
    else .ok [] (c :: ts)

/-- A comma that may be missing (Designtime/Parser/Parser.cpp:225-227). -/
def comma : List Tok → Res Unit
  | [] => .undefined
  | t :: ts => if t.ty = .COMMA then .ok () ts else .ok () (t :: ts)

/-- The loop of `collectDesigntimePrototypeConstraints` (Designtime/Parser/Parser.cpp:198-231). -/
def argList : Nat → List Tok → Res (List Arg)
  | 0, _ => .noFuel
  | _ + 1, [] => .undefined
  | n + 1, t :: ts =>
    if t.ty = .COMPARE_GREATER then .ok [] ts
    else (constraint ts).bind fun c ts => (comma ts).bind fun _ ts =>
      (argList n ts).bind fun as ts => .ok (⟨t.content, c⟩ :: as) ts

/-- `collectDesigntimePrototypeConstraints` (Designtime/Parser/Parser.cpp:184-234). -/
def typeArgs : List Tok → Res (List Arg)
  | [] => .undefined
  | t :: ts => if t.ty = .COMPARE_LESS then argList (ts.length + 1) ts else .ok [] (t :: ts)

/-- `parseTypeDeclaration` (Designtime/Parser/Parser.cpp:522-538); the scopes of the analyser are no named scopes. -/
def typeDeclaration (ts : List Tok) : Res TypeDecl :=
  (identify ts).bind fun n ts => (typeArgs ts).bind fun as ts =>
    (attr .MUTABILITY mutOf .modify ts).bind fun m ts => .ok ⟨n, as, m⟩ ts

/-! ## Ancestors -/

/-- `Ancestor::Type::E` (Designtime/Ancestor.h). -/
inductive Relation where
  | extends | implements | replicates
deriving DecidableEq, Repr

/-- `Ancestor` (Designtime/Ancestor.h); the visibility is always public. -/
structure Ancestor where
  name : Text
  args : List Arg
  relation : Relation
deriving DecidableEq, Repr

/-- The type of an ancestor, if there is one (Designtime/Parser/Parser.cpp:161-178); `k` reads the following ones. -/
def ancestor (rel : Relation) (k : List Tok → Res (List Ancestor)) : List Tok → Res (List Ancestor)
  | [] => .undefined
  | u :: us =>
    if u.ty ≠ .IDENTIFIER then .ok [] (u :: us)
    else (identify (u :: us)).bind fun n ts => (typeArgs ts).bind fun as ts =>
      (k ts).bind fun more ts => .ok (⟨n, as, rel⟩ :: more) ts

/-- The loop of `collectInheritance` (Designtime/Parser/Parser.cpp:126-179): `repl` is `replicates`.  Simplification: the ancestors
keep the order in which they are written, while the code sorts them by kind and name. -/
def ancestorLoop : Nat → Bool → Relation → List Tok → Res (List Ancestor)
  | 0, _, _, _ => .noFuel
  | _ + 1, _, _, [] => .undefined
  | n + 1, repl, rel, t :: ts =>
    if t.content = "extends".toList then
      if repl then .error else ancestor .extends (ancestorLoop n repl .extends) ts
    else if t.content = "implements".toList then
      if repl then .error else ancestor .implements (ancestorLoop n repl .implements) ts
    else if t.content = "replicates".toList then
      if repl then .error else ancestor .replicates (ancestorLoop n true .replicates) ts
    else if t.ty = .COMMA then ancestorLoop n repl rel ts
    else ancestor rel (ancestorLoop n repl rel) (t :: ts)

/-- `collectInheritance` (Designtime/Parser/Parser.cpp:113-182). -/
def inheritance : List Tok → Res (List Ancestor)
  | [] => .undefined
  | t :: ts =>
    if t.ty ≠ .RESERVED_WORD then .ok [] (t :: ts)
    -- the first word is `extends`, `implements` or `replicates`, or the loop ends at once: the relation does not matter
    else ancestorLoop (ts.length + 2) false .extends (t :: ts)

/-! ## Values and parameters -/

/-- An initial value: its sign, the type of its token and its text. -/
structure Init where
  negative : Bool
  ty : Ty
  text : Text
deriving DecidableEq, Repr

/-- `isAtomicType`, `provideAtomicTypes` (Common/Types.cpp:24-29, 41-55). -/
def atomicTypes : List Text :=
  ["bool".toList, "double".toList, "float".toList, "int16".toList, "int".toList, "int64".toList, "string".toList, "void".toList]

/-- The `switch` of `parseValueInitialization` (Designtime/Parser/Parser.cpp:550-631): does a token of this kind give a value of
the type? -/
def valueFits (neg : Bool) (type : Text) (ty : Ty) (text : Text) : Bool :=
  match ty with
  | .CONST_BOOLEAN => type = "bool".toList && !neg
  | .CONST_DOUBLE => type = "double".toList
  | .CONST_FLOAT => type = "float".toList
  | .CONST_INTEGER => type = "int16".toList || type = "int".toList || type = "int64".toList
  | .CONST_LITERAL => type = "string".toList && !neg
  | .IDENTIFIER => !(type ∈ atomicTypes) && text = "null".toList && !neg
  | _ => false

/-- The last step of `parseValueInitialization`, with the `++token` behind its calls. -/
def value (neg : Bool) (type : Text) : List Tok → Res Init
  | [] => .undefined
  | t :: ts => if valueFits neg type t.ty t.content then .ok ⟨neg, t.ty, t.content⟩ ts else .error

/-- `parseValueInitialization` (Designtime/Parser/Parser.cpp:540-634), with the `++token` behind its calls. -/
def initialValue (type : Text) : List Tok → Res Init
  | [] => .undefined
  | t :: ts => if t.ty = .MATH_SUBTRACT then value true type ts else value false type (t :: ts)

/-- `Parameter` (Runtime/Parameter.h); the name is empty if there is none. -/
structure Param where
  name : Text
  type : TypeDecl
  mutab : Mut
  access : Access
  init : Option Init
deriving DecidableEq, Repr

/-- The name of a parameter (Designtime/Parser/Parser.cpp:477-482). -/
def paramName : List Tok → Res Text
  | [] => .undefined
  | t :: ts => if t.ty = .IDENTIFIER then .ok t.content ts else .ok [] (t :: ts)

/-- The default value of a parameter (Designtime/Parser/Parser.cpp:488-506). -/
def paramDefault (name type : Text) (access : Access) : List Tok → Res (Option Init)
  | [] => .undefined
  | t :: ts =>
    if t.ty = .ASSIGN then
      if name = [] then .error
      else (initialValue type ts).bind fun i ts => if access = .byReference then .error else .ok (some i) ts
    else .ok none (t :: ts)

/-- One parameter (Designtime/Parser/Parser.cpp:473-510). -/
def parameter (ts : List Tok) : Res Param :=
  (typeDeclaration ts).bind fun ty ts => (paramName ts).bind fun n ts =>
    (attr .MUTABILITY mutOf .modify ts).bind fun m ts => (accessMode .unspecified ts).bind fun a ts =>
      (paramDefault n ty.name a ts).bind fun i ts => .ok ⟨n, ty, m, a, i⟩ ts

/-- The loop of `parseParameters` (Designtime/Parser/Parser.cpp:472-517), from the token before the next parameter on; the remaining
tokens begin with the closing parenthesis. -/
def paramLoop : Nat → List Tok → Res (List Param)
  | 0, _ => .noFuel
  | _ + 1, [] => .undefined
  | n + 1, _ :: ts =>
    match ts with
    | [] => .undefined
    | t :: ts =>
      if t.ty = .PARENTHESIS_CLOSE then .ok [] (t :: ts)
      else (parameter (t :: ts)).bind fun p r =>
        match r with
        | [] => .undefined
        | c :: r =>
          if c.ty = .PARENTHESIS_CLOSE then .ok [p] (c :: r)
          else (paramLoop n (c :: r)).bind fun ps r => .ok (p :: ps) r

/-- `parseParameters` (Designtime/Parser/Parser.cpp:466-520). -/
def parameters : List Tok → Res (List Param)
  | [] => .undefined
  | t :: ts => if t.ty = .PARENTHESIS_OPEN then paramLoop (ts.length + 1) (t :: ts) else .error

/-! ## Declarations -/

/-- `MethodType::E` (Common/Attributes/Types.h). -/
inductive MethodKind where
  | constructor | destructor | method
deriving DecidableEq, Repr

/-- A declaration: the arguments of the `set…` calls behind it. -/
inductive Node where
  /-- `createBluePrint` (115-224); without a body for replications and declarations with a semicolon. -/
  | object (vis : Vis) (feature : Feature) (layout : Layout) (type : TypeDecl) (ancestors : List Ancestor) (body : Option (List Node))
  /-- `createEnum` (226-267), with the tokens of the entries. -/
  | enum (vis : Vis) (feature : Feature) (type : TypeDecl) (entries : List Tok)
  /-- `createInterface` (269-334). -/
  | interface (vis : Vis) (feature : Feature) (type : TypeDecl) (ancestors : List Ancestor) (body : List Node)
  /-- `createLibraryReference` (336-370). -/
  | library (extension : Bool) (reference : Text)
  /-- `createNamespace` (543-604); visibility and feature only matter for the namespaces that do not exist yet. -/
  | space (vis : Vis) (feature : Feature) (names : List Text) (body : List Node)
  /-- `createMemberStub` (404-461). -/
  | member (vis : Vis) (layout : Layout) (feature : Feature) (type : TypeDecl) (name : Text) (mutab : Mut) (access : Access)
      (init : Option Init)
  /-- `createMethodStub` (463-541), with the tokens of the body. -/
  | method (vis : Vis) (layout : Layout) (feature : Feature) (type : TypeDecl) (name : Text) (params : List Param)
      (kind : MethodKind) (mutab : Mut) (throws : Bool) (body : Option (List Tok))

/-- The scope in which a declaration stands (`mScope`): a namespace, or a class or interface, constant or not. -/
inductive Where where
  | space
  | blueprint (const : Bool)
deriving DecidableEq, Repr

/-- `collectScopeTokens` (Designtime/Parser/Parser.cpp:280-302). -/
def block (ts : List Tok) : Res (List Tok) :=
  match Brackets.collectDesigntime ts with
  | .ok body rest => .ok body rest
  | .error => .error
  | .undefined => .undefined

/-- Skip a token of this type. -/
def skip (ty : Ty) : List Tok → List Tok
  | [] => []
  | t :: ts => if t.ty = ty then ts else t :: ts

/-- Skip an optional token (`checkSyntax`, Designtime/Parser/Parser.cpp:33-36). -/
def skipOptional : List Tok → List Tok
  | [] => []
  | t :: ts => if t.optional then ts else t :: ts

/-- Is the next token this reserved word?  `none` is undefined behaviour. -/
def isWord (w : String) : List Tok → Option Bool
  | [] => none
  | t :: _ => some (t.ty = .RESERVED_WORD && t.content = w.toList)

/-- `isObjectDeclaration` (Designtime/Parser/Parser.cpp:382-400). -/
def isObject (ts : List Tok) : Option Bool :=
  isWord "object" (skip .MEMORY_LAYOUT (skip .LANGUAGE_FEATURE_STATE (skip .VISIBILITY ts)))

/-- `isInterfaceDeclaration` (Designtime/Parser/Parser.cpp:336-349). -/
def isInterface (ts : List Tok) : Option Bool := isWord "interface" (skip .LANGUAGE_FEATURE_STATE (skip .VISIBILITY ts))

/-- `isNamespaceDeclaration` (Designtime/Parser/Parser.cpp:365-378). -/
def isNamespace (ts : List Tok) : Option Bool := isWord "namespace" (skip .LANGUAGE_FEATURE_STATE (skip .VISIBILITY ts))

/-- `checkSyntax` (Designtime/Parser/Parser.cpp:22-47) for a reserved word and an identifier, with `isEnumDeclaration` (323-332),
whose optional visibility is skipped in both lists, and `isLibraryReference` (353-361). -/
def wordAndName (w : String) (ts : List Tok) : Option Bool :=
  match skipOptional ts with
  | [] => none
  | t :: ts =>
    if t.ty = .RESERVED_WORD ∧ t.content = w.toList then
      match skipOptional ts with
      | [] => none
      | u :: _ => some (u.ty = .IDENTIFIER)
    else some false

/-- The reference of an import (349-358). -/
def reference : List Tok → Res Text
  | [] => .undefined
  | t :: ts =>
    if t.ty = .IDENTIFIER then
      match ts with
      | [] => .undefined
      | d :: ts =>
        if d.ty ≠ .OPERATOR_SCOPE then .ok t.content (d :: ts)
        else (reference ts).bind fun r ts => .ok (t.content ++ ".".toList ++ r) ts
    else .ok [] (t :: ts)

/-- `createLibraryReference` (336-370); the remaining tokens begin with the semicolon. -/
def library (ts : List Tok) : Res Node :=
  (expect .RESERVED_WORD ts).bind fun _ ts =>
    match ts with
    | [] => .undefined
    | t :: ts =>
      let ext : Bool := t.content = "extension".toList
      (reference (if ext then ts else t :: ts)).bind fun r ts =>
        match ts with
        | [] => .undefined
        | s :: ts => if s.ty = .SEMICOLON then .ok (.library ext r) (s :: ts) else .error

/-- The names of a namespace (559-593): a dot behind a name is skipped. -/
def spaceNames : List Tok → Res (List Text)
  | [] => .undefined
  | t :: ts =>
    if t.ty = .IDENTIFIER then
      match ts with
      | [] => .undefined
      | d :: ts =>
        if d.ty = .OPERATOR_SCOPE then (spaceNames ts).bind fun ns ts => .ok (t.content :: ns) ts
        else (spaceNames (d :: ts)).bind fun ns ts => .ok (t.content :: ns) ts
    else .ok [] (t :: ts)

/-- `createMemberStub` (404-461); the remaining tokens begin with the semicolon. -/
def member (w : Where) (v : Vis) (l : Layout) (f : Feature) (ty : TypeDecl) (name : Text) (ts : List Tok) : Res Node :=
  (attr .MUTABILITY mutOf .modify ts).bind fun m ts => (accessMode .byValue ts).bind fun a ts =>
    if w = .blueprint true ∧ m ≠ .const then .error
    else match ts with
      | [] => .undefined
      | t :: ts =>
        (if t.ty = .ASSIGN then (initialValue ty.name ts).bind fun i ts => .ok (some i) ts else .ok none (t :: ts)).bind fun i ts =>
          match ts with
          | [] => .undefined
          | s :: ts => if s.ty = .SEMICOLON then .ok (.member v l f ty name m a i) (s :: ts) else .error

/-- `createMethodStub` (463-541): what is behind the parameters; the remaining tokens begin with the last token of the method. -/
def methodEnd (w : Where) (v : Vis) (l : Layout) (f : Feature) (ty : TypeDecl) (name : Text) (ps : List Param) (kind : MethodKind)
    (ts : List Tok) : Res Node :=
  (attr .MUTABILITY mutOf (if kind = .method then .const else .modify) ts).bind fun m ts => (exceptions false ts).bind fun e ts =>
    if kind = .method ∧ w = .blueprint true ∧ m ≠ .const then .error
    else match ts with
      | [] => .undefined
      | t :: ts =>
        (if t.ty = .BRACKET_CURLY_OPEN then
            if l = .abstr then .error else (block (t :: ts)).bind fun b ts => .ok (some b) ts
          else if l ≠ .abstr ∧ f ≠ .notImplemented then .error
          else .ok none (t :: ts)).bind fun b ts =>
            -- 521: `hasRuntimeTypes` (Common/PrototypeConstraint.cpp:132-141)
            if w = .space ∧ ty.args.any (·.type = []) then .error
            else .ok (.method v l f ty name ps kind m e b) ts

/-- `createMethodStub` (463-541). -/
def methodStub (w : Where) (iface : Bool) (v : Vis) (l : Layout) (f : Feature) (ty : TypeDecl) (name : Text) (ts : List Tok) : Res Node :=
  if iface ∧ l ≠ .abstr then .error
  else
    let kind : MethodKind := if w ≠ .space ∧ name = "Constructor".toList then .constructor
      else if w ≠ .space ∧ name = "Destructor".toList then .destructor else .method
    (parameters ts).bind fun ps ts =>
      -- `++token`
      methodEnd w v l f ty name ps kind (ts.drop 1)

/-- `createMemberOrMethod` (372-402). -/
def memberOrMethod (w : Where) (iface : Bool) (ts : List Tok) : Res Node :=
  (visibility .priv ts).bind fun v ts =>
    (if iface then .ok .abstr ts
      else if w = .space then .ok .stat ts
      else attr .MEMORY_LAYOUT layoutOf .virt ts).bind fun l ts =>
      (attr .LANGUAGE_FEATURE_STATE featureOf .stable ts).bind fun f ts => (typeDeclaration ts).bind fun ty ts =>
        match ts with
        | [] => .undefined
        | n :: ts =>
          match ts with
          | [] => .undefined
          | t :: ts =>
            if t.ty = .PARENTHESIS_OPEN then methodStub w iface v l f ty n.content (t :: ts)
            else member w v l f ty n.content (t :: ts)

/-- The head of `createBluePrint` (115-138). -/
def objectHead (ts : List Tok) : Res (Vis × Feature × Layout × TypeDecl × List Ancestor) :=
  (visibility .priv ts).bind fun v ts => (attr .LANGUAGE_FEATURE_STATE featureOf .stable ts).bind fun f ts =>
    (attr .MEMORY_LAYOUT layoutOf .virt ts).bind fun l ts =>
      if l ≠ .abstr ∧ l ≠ .fin ∧ l ≠ .virt then .error
      else match ts with
        | [] => .undefined
        | t :: ts =>
          if t.content ≠ "object".toList then .error
          else (typeDeclaration ts).bind fun ty ts => (inheritance ts).bind fun as ts => .ok (v, f, l, ty, as) ts

/-- `createEnum` (226-267). -/
def enumeration (ts : List Tok) : Res Node :=
  (visibility .priv ts).bind fun v ts => (attr .LANGUAGE_FEATURE_STATE featureOf .stable ts).bind fun f ts =>
    match ts with
    | [] => .undefined
    | t :: ts =>
      if t.content ≠ "enum".toList then .error
      else (typeDeclaration ts).bind fun ty ts =>
        if ty.args ≠ [] then .error else (block ts).bind fun b ts => .ok (.enum v f ty b) ts

/-- The head of `createInterface` (269-305). -/
def interfaceHead (ts : List Tok) : Res (Vis × Feature × TypeDecl × List Ancestor) :=
  (visibility .priv ts).bind fun v ts => (attr .LANGUAGE_FEATURE_STATE featureOf .unstable ts).bind fun f ts =>
    match ts with
    | [] => .undefined
    | t :: ts =>
      if t.content ≠ "interface".toList then .error
      else (typeDeclaration ts).bind fun ty ts =>
        if ty.mutab = .unknown then .error
        else (inheritance ts).bind fun as ts =>
          if as.all (·.relation = .implements) then .ok (v, f, ty, as) ts else .error

/-- The head of `createNamespace` (543-595). -/
def spaceHead (ts : List Tok) : Res (Vis × Feature × List Text) :=
  (visibility .priv ts).bind fun v ts => (attr .LANGUAGE_FEATURE_STATE featureOf .stable ts).bind fun f ts =>
    (expect .RESERVED_WORD ts).bind fun _ ts => (spaceNames ts).bind fun ns ts => .ok (v, f, ns) ts

mutual

/-- `generate` (614-644): `iface` is `mProcessingInterface`, which is returned with the declarations. -/
def generate : Nat → Where → Bool → List Tok → Res (List Node × Bool)
  | 0, _, _, _ => .noFuel
  | _ + 1, _, iface, [] => .ok ([], iface) []
  | n + 1, w, iface, t :: ts =>
    if t.ty = .ENDOFFILE then .ok ([], iface) (t :: ts)
    else (declaration n w iface (t :: ts)).bind fun d r =>
      -- `++token`
      (generate n w d.2 (r.drop 1)).bind fun ds r => .ok (d.1 :: ds.1, ds.2) r

/-- The body of the loop of `generate` (620-640); the remaining tokens begin with the last token of the declaration. -/
def declaration : Nat → Where → Bool → List Tok → Res (Node × Bool)
  | 0, _, _, _ => .noFuel
  | n + 1, w, iface, ts =>
    match isObject ts with
    | none => .undefined
    | some true => object n iface ts
    | some false =>
      match wordAndName "enum" ts with
      | none => .undefined
      | some true => (enumeration ts).bind fun d ts => .ok (d, iface) ts
      | some false =>
        match isInterface ts with
        | none => .undefined
        | some true => interface n ts
        | some false =>
          match wordAndName "import" ts with
          | none => .undefined
          | some true => (library ts).bind fun d ts => .ok (d, iface) ts
          | some false =>
            match isNamespace ts with
            | none => .undefined
            | some true => if w = .space then space n iface ts else .error
            | some false => (memberOrMethod w iface ts).bind fun d ts => .ok (d, iface) ts

/-- `createBluePrint` (115-224). -/
def object : Nat → Bool → List Tok → Res (Node × Bool)
  | 0, _, _ => .noFuel
  | n + 1, iface, ts =>
    (objectHead ts).bind fun h ts =>
      match h, ts with
      | _, [] => .undefined
      | (v, f, l, ty, as), t :: ts =>
        -- the first ancestor in the order of the set is a replication if all are
        let replicates : Bool := as ≠ [] ∧ as.all (·.relation = .replicates)
        if replicates = true ∨ t.ty = .SEMICOLON then
          if ty.mutab = .const ∧ as.any (·.relation = .extends) then .error
          else if ty.mutab = .unknown then .error
          else .ok (.object v f l ty as none, iface) (t :: ts)
        else (block (t :: ts)).bind fun b ts =>
          if ty.mutab = .const ∧ as.any (·.relation = .extends) then .error
          else if ty.mutab = .unknown then .error
          else (generate n (.blueprint (ty.mutab = .const)) iface b).bind fun ds _ => .ok (.object v f l ty as (some ds.1), ds.2) ts

/-- `createInterface` (269-334). -/
def interface : Nat → List Tok → Res (Node × Bool)
  | 0, _ => .noFuel
  | n + 1, ts =>
    (interfaceHead ts).bind fun h ts =>
      match h with
      | (v, f, ty, as) => (block ts).bind fun b ts =>
        (generate n (.blueprint (ty.mutab = .const)) true b).bind fun ds _ => .ok (.interface v f ty as ds.1, false) ts

/-- `createNamespace` (543-604). -/
def space : Nat → Bool → List Tok → Res (Node × Bool)
  | 0, _, _ => .noFuel
  | n + 1, iface, ts =>
    (spaceHead ts).bind fun h ts =>
      match h with
      | (v, f, ns) => (block ts).bind fun b ts =>
        (generate n .space iface b).bind fun ds _ => .ok (.space v f ns ds.1, ds.2) ts

end

/-- Enough fuel for every list of tokens of this length. -/
def fuel (ts : List Tok) : Nat := 3 * ts.length + 1

/-- `processTokens` (733-746) without the sanity check (see `Verif.Brackets`): the declarations of a file. -/
def analyse (ts : List Tok) : Res (List Node × Bool) := generate (fuel ts) .space false ts

end Verif.Decl
