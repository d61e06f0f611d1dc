import Verif.Decl.Model
import Verif.Brackets.Spec

/-!
# A grammar of declarations

`Item` is a declaration as the author of a file has it in mind, `Spells` says which token lists are spellings of it, `meaning` gives
the declaration with everything that was left out filled in, or rejects it.
-/

namespace Verif.Decl

open Verif.Str (Text)
open Verif.Lex (Tok Ty Cat)

/-! ## What is written -/

/-- A type parameter or argument: `name [: bound]`. -/
structure ArgSrc where
  name : Text
  bound : Option Text

/-- `a.b.c [<args>] [const|modify]`. -/
structure TypeSrc where
  path : List Text
  args : List ArgSrc
  mutab : Option Mut

/-- `[-] constant`. -/
structure InitSrc where
  negative : Bool
  ty : Ty
  text : Text

/-- `type [name] [const|modify] [ref|val] [= constant]`: `ref` is `some true`. -/
structure ParamSrc where
  type : TypeSrc
  name : Option Text
  mutab : Option Mut
  ref : Option Bool
  init : Option InitSrc

/-- A type behind `extends`, `implements` or `replicates`. -/
structure Parent where
  path : List Text
  args : List ArgSrc

/-- `extends A, B` etc. -/
abbrev Clause := Relation × List Parent

/-- A declaration as written. -/
inductive Item where
  | object (vis : Option Vis) (feature : Option Feature) (layout : Option Layout) (type : TypeSrc) (parents : List Clause)
      (body : List Item)
  /-- An object without a body: `object A;`, `object A replicates B;`. -/
  | forward (vis : Option Vis) (feature : Option Feature) (layout : Option Layout) (type : TypeSrc) (parents : List Clause)
  | enum (vis : Option Vis) (feature : Option Feature) (type : TypeSrc) (entries : List Tok)
  | interface (vis : Option Vis) (feature : Option Feature) (type : TypeSrc) (parents : List Clause) (body : List Item)
  | library (extension : Bool) (path : List Text)
  | space (vis : Option Vis) (feature : Option Feature) (path : List Text) (body : List Item)
  | member (vis : Option Vis) (layout : Option Layout) (feature : Option Feature) (type : TypeSrc) (name : Text)
      (mutab : Option Mut) (ref : Option Bool) (init : Option InitSrc)
  /-- `throws` is `some true`, `nothrow` is `some false`. -/
  | method (vis : Option Vis) (layout : Option Layout) (feature : Option Feature) (type : TypeSrc) (name : Text)
      (params : List ParamSrc) (mutab : Option Mut) (throws : Option Bool) (body : Option (List Tok))

/-! ## How it is written -/

/-- The tokens that the tokenizer marks as optional. -/
def modifierTypes : List Ty := [.VISIBILITY, .LANGUAGE_FEATURE_STATE, .MEMORY_LAYOUT, .MODIFIER, .MUTABILITY]

/-- A token of this kind with this text. -/
def Is (ty : Ty) (w : String) (t : Tok) : Prop := t.ty = ty ∧ t.content = w.toList ∧ t.optional = decide (ty ∈ modifierTypes)

/-- Words that are no names. -/
def noNames : List Text := ["default".toList, "extends".toList, "implements".toList, "replicates".toList, "nothrow".toList,
  "throws".toList, "extension".toList, []]

/-- An identifier. -/
def NameTok (n : Text) (t : Tok) : Prop := t.ty = .IDENTIFIER ∧ t.content = n ∧ t.optional = false ∧ n ∉ noNames

/-- The word of a visibility. -/
def VisTok : Vis → Tok → Prop
  | .designtime, _ => False
  | .priv, t => Is .VISIBILITY "private" t
  | .prot, t => Is .VISIBILITY "protected" t
  | .pub, t => Is .VISIBILITY "public" t

/-- The word of a language feature state. -/
def FeatureTok : Feature → Tok → Prop
  | .deprecated, t => Is .LANGUAGE_FEATURE_STATE "deprecated" t
  | .notImplemented, t => Is .LANGUAGE_FEATURE_STATE "notimplemented" t
  | .stable, t => Is .LANGUAGE_FEATURE_STATE "stable" t
  | .unstable, t => Is .LANGUAGE_FEATURE_STATE "unstable" t
  | .unspecified, _ => False

/-- The word of a memory layout. -/
def LayoutTok : Layout → Tok → Prop
  | .abstr, t => Is .MEMORY_LAYOUT "abstract" t
  | .fin, t => Is .MEMORY_LAYOUT "final" t
  | .over, t => Is .MEMORY_LAYOUT "override" t
  | .stat, t => Is .MEMORY_LAYOUT "static" t
  | .virt, t => Is .MEMORY_LAYOUT "virtual" t
  | .unspecified, _ => False

/-- The word of a mutability. -/
def MutTok : Mut → Tok → Prop
  | .const, t => Is .MUTABILITY "const" t
  | .modify, t => Is .MUTABILITY "modify" t
  | .unknown, _ => False

/-- `ref` or `val`. -/
def RefTok : Bool → Tok → Prop
  | true, t => Is .ACCESS_MODE "ref" t
  | false, t => Is .ACCESS_MODE "val" t

/-- `throws`, or `nothrow`, which is no reserved word. -/
def ThrowsTok : Bool → Tok → Prop
  | true, t => Is .MODIFIER "throws" t
  | false, t => Is .IDENTIFIER "nothrow" t

/-- The word of a kind of inheritance. -/
def RelationTok : Relation → Tok → Prop
  | .extends, t => Is .RESERVED_WORD "extends" t
  | .implements, t => Is .RESERVED_WORD "implements" t
  | .replicates, t => Is .RESERVED_WORD "replicates" t

/-- Something that may be left out. -/
def Opt {α : Type} (P : α → Tok → Prop) : Option α → List Tok → Prop
  | none, ts => ts = []
  | some a, ts => ∃ t, ts = [t] ∧ P a t

/-- `a.b.c`. -/
inductive Path : List Text → List Tok → Prop
  | one {n t} : NameTok n t → Path [n] [t]
  | more {n t d ns ts} : NameTok n t → Is .OPERATOR_SCOPE "." d → Path ns ts → Path (n :: ns) (t :: d :: ts)

/-- `name [: bound]`. -/
inductive ArgText : ArgSrc → List Tok → Prop
  | plain {n t} : NameTok n t → ArgText ⟨n, none⟩ [t]
  | bound {n b t c u} : NameTok n t → Is .COLON ":" c → NameTok b u → ArgText ⟨n, some b⟩ [t, c, u]

/-- One or more, with commas between them. -/
inductive Commas {α : Type} (P : α → List Tok → Prop) : List α → List Tok → Prop
  | one {a ts} : P a ts → Commas P [a] ts
  | more {a as ts c us} : P a ts → Is .COMMA "," c → Commas P as us → Commas P (a :: as) (ts ++ c :: us)

/-- `<args>`, or nothing. -/
inductive ArgsText : List ArgSrc → List Tok → Prop
  | none : ArgsText [] []
  | some {as l ts g} : Is .COMPARE_LESS "<" l → Commas ArgText as ts → Is .COMPARE_GREATER ">" g → ArgsText as (l :: (ts ++ [g]))

/-- A type. -/
inductive TypeText : TypeSrc → List Tok → Prop
  | mk {d p a m} : Path d.path p → ArgsText d.args a → Opt MutTok d.mutab m → TypeText d (p ++ (a ++ m))

/-- A constant; `null` is an identifier. -/
def ConstTok (ty : Ty) (text : Text) (t : Tok) : Prop :=
  t.ty = ty ∧ t.content = text ∧ (ty ∈ [Ty.CONST_BOOLEAN, .CONST_DOUBLE, .CONST_FLOAT, .CONST_INTEGER, .CONST_LITERAL] ∨
    ty = .IDENTIFIER ∧ text = "null".toList)

/-- An initial value with its sign. -/
inductive InitText : InitSrc → List Tok → Prop
  | plain {ty x t} : ConstTok ty x t → InitText ⟨false, ty, x⟩ [t]
  | negative {ty x m t} : Is .MATH_SUBTRACT "-" m → ConstTok ty x t → InitText ⟨true, ty, x⟩ [m, t]

/-- `= constant`, or nothing. -/
inductive InitOpt : Option InitSrc → List Tok → Prop
  | none : InitOpt none []
  | some {i e ts} : Is .ASSIGN "=" e → InitText i ts → InitOpt (some i) (e :: ts)

/-- A parameter.  Behind a type, `const` belongs to the type. -/
inductive ParamText : ParamSrc → List Tok → Prop
  | mk {p ty n m a i} : TypeText p.type ty → Opt NameTok p.name n → Opt MutTok p.mutab m → Opt RefTok p.ref a → InitOpt p.init i →
      (p.name = none → p.mutab = none) → ParamText p (ty ++ (n ++ (m ++ (a ++ i))))

/-- The parameters without their parentheses. -/
inductive ParamsText : List ParamSrc → List Tok → Prop
  | none : ParamsText [] []
  | some {ps ts} : Commas ParamText ps ts → ParamsText ps ts

/-- A type behind `extends` etc. -/
inductive ParentText : Parent → List Tok → Prop
  | mk {p n a} : Path p.path n → ArgsText p.args a → ParentText p (n ++ a)

/-- The ancestors. -/
inductive ClausesText : List Clause → List Tok → Prop
  | nil : ClausesText [] []
  | cons {r ps cs w ts us} : RelationTok r w → Commas ParentText ps ts → ClausesText cs us →
      ClausesText ((r, ps) :: cs) (w :: (ts ++ us))

/-- `{ … }` with balanced brackets in it, or a semicolon. -/
inductive BodyText : Option (List Tok) → List Tok → Prop
  | none {s} : Is .SEMICOLON ";" s → BodyText none [s]
  | some {o b c} : Is .BRACKET_CURLY_OPEN "{" o → Brackets.Nested .BRACKET_CURLY_OPEN .BRACKET_CURLY_CLOSE b →
      Is .BRACKET_CURLY_CLOSE "}" c → BodyText (some b) (o :: (b ++ [c]))

mutual

/-- The tokens are a spelling of the declaration. -/
inductive Spells : Item → List Tok → Prop
  | object {v f l ty ps body vt ft lt w tt pt o bt c} : Opt VisTok v vt → Opt FeatureTok f ft → Opt LayoutTok l lt →
      Is .RESERVED_WORD "object" w → TypeText ty tt → ClausesText ps pt → Is .BRACKET_CURLY_OPEN "{" o → SpellsAll body bt →
      Is .BRACKET_CURLY_CLOSE "}" c →
      Spells (.object v f l ty ps body) (vt ++ (ft ++ (lt ++ w :: (tt ++ (pt ++ o :: (bt ++ [c]))))))
  | forward {v f l ty ps vt ft lt w tt pt s} : Opt VisTok v vt → Opt FeatureTok f ft → Opt LayoutTok l lt →
      Is .RESERVED_WORD "object" w → TypeText ty tt → ClausesText ps pt → Is .SEMICOLON ";" s →
      Spells (.forward v f l ty ps) (vt ++ (ft ++ (lt ++ w :: (tt ++ (pt ++ [s])))))
  | enum {v f ty es vt ft w tt o c} : Opt VisTok v vt → Opt FeatureTok f ft → Is .RESERVED_WORD "enum" w → TypeText ty tt →
      Is .BRACKET_CURLY_OPEN "{" o → Brackets.Nested .BRACKET_CURLY_OPEN .BRACKET_CURLY_CLOSE es → Is .BRACKET_CURLY_CLOSE "}" c →
      Spells (.enum v f ty es) (vt ++ (ft ++ w :: (tt ++ o :: (es ++ [c]))))
  | interface {v f ty ps body vt ft w tt pt o bt c} : Opt VisTok v vt → Opt FeatureTok f ft → Is .RESERVED_WORD "interface" w →
      TypeText ty tt → ClausesText ps pt → Is .BRACKET_CURLY_OPEN "{" o → SpellsAll body bt → Is .BRACKET_CURLY_CLOSE "}" c →
      Spells (.interface v f ty ps body) (vt ++ (ft ++ w :: (tt ++ (pt ++ o :: (bt ++ [c])))))
  | library {p w pt s} : Is .RESERVED_WORD "import" w → Path p pt → Is .SEMICOLON ";" s →
      Spells (.library false p) (w :: (pt ++ [s]))
  | extension {p w e pt s} : Is .RESERVED_WORD "import" w → Is .IDENTIFIER "extension" e → Path p pt → Is .SEMICOLON ";" s →
      Spells (.library true p) (w :: e :: (pt ++ [s]))
  | space {v f p body vt ft w pt o bt c} : Opt VisTok v vt → Opt FeatureTok f ft → Is .RESERVED_WORD "namespace" w → Path p pt →
      Is .BRACKET_CURLY_OPEN "{" o → SpellsAll body bt → Is .BRACKET_CURLY_CLOSE "}" c →
      Spells (.space v f p body) (vt ++ (ft ++ w :: (pt ++ o :: (bt ++ [c]))))
  | member {v l f ty n m r i vt lt ft tt nt mt rt it s} : Opt VisTok v vt → Opt LayoutTok l lt → Opt FeatureTok f ft →
      TypeText ty tt → NameTok n nt → Opt MutTok m mt → Opt RefTok r rt → InitOpt i it → Is .SEMICOLON ";" s →
      Spells (.member v l f ty n m r i) (vt ++ (lt ++ (ft ++ (tt ++ nt :: (mt ++ (rt ++ (it ++ [s])))))))
  | method {v l f ty n ps m e b vt lt ft tt nt o pt c mt et bt} : Opt VisTok v vt → Opt LayoutTok l lt → Opt FeatureTok f ft →
      TypeText ty tt → NameTok n nt → Is .PARENTHESIS_OPEN "(" o → ParamsText ps pt → Is .PARENTHESIS_CLOSE ")" c →
      Opt MutTok m mt → Opt ThrowsTok e et → BodyText b bt →
      Spells (.method v l f ty n ps m e b) (vt ++ (lt ++ (ft ++ (tt ++ nt :: o :: (pt ++ c :: (mt ++ (et ++ bt)))))))

/-- The tokens are spellings of the declarations, one behind the other. -/
inductive SpellsAll : List Item → List Tok → Prop
  | nil : SpellsAll [] []
  | cons {i is ts us} : Spells i ts → SpellsAll is us → SpellsAll (i :: is) (ts ++ us)

end

/-! ## What it means -/

/-- Where a declaration stands: in a namespace, a class or an interface, constant or not. -/
inductive Ctx where
  | space
  | cls (const : Bool)
  | iface (const : Bool)
deriving DecidableEq

/-- Are all members constant? -/
def Ctx.const : Ctx → Bool
  | .space => false
  | .cls k => k
  | .iface k => k

/-- The text of a qualified name. -/
def dotted : List Text → Text
  | [] => []
  | [n] => n
  | n :: ns => n ++ '.' :: dotted ns

/-- The type parameters or arguments. -/
def argsOf (as : List ArgSrc) : List Arg := as.map fun a => ⟨a.name, a.bound.getD []⟩

/-- The type as written; it is modifiable unless it is said to be constant. -/
def typeOf (d : TypeSrc) : TypeDecl := ⟨dotted d.path, argsOf d.args, d.mutab.getD .modify⟩

/-- The constants of the types. -/
def InitSrc.fits (type : Text) (i : InitSrc) : Bool :=
  if type = "bool".toList then i.ty = .CONST_BOOLEAN && !i.negative
  else if type = "string".toList then i.ty = .CONST_LITERAL && !i.negative
  else if type = "double".toList then i.ty = .CONST_DOUBLE
  else if type = "float".toList then i.ty = .CONST_FLOAT
  else if type = "int16".toList ∨ type = "int".toList ∨ type = "int64".toList then i.ty = .CONST_INTEGER
  else if type = "void".toList then false
  else i.ty = .IDENTIFIER && !i.negative

/-- The initial value of something of this type: `none` if it does not fit. -/
def initOf (type : Text) : Option InitSrc → Option (Option Init)
  | none => some none
  | some i => if i.fits type then some (some ⟨i.negative, i.ty, i.text⟩) else none

/-- `ref` makes a reference, `val` is the same as nothing. -/
def accessText (dflt : Access) : Option Bool → Access
  | none => dflt
  | some true => .byReference
  | some false => .unspecified

/-- A parameter: only named parameters that are no references have default values. -/
def paramOf (p : ParamSrc) : Option Param :=
  if p.init.isSome ∧ (p.name = none ∨ p.ref = some true) then none
  else (initOf (dotted p.type.path) p.init).map fun i =>
    ⟨p.name.getD [], typeOf p.type, p.mutab.getD .modify, accessText .unspecified p.ref, i⟩

/-- All parameters. -/
def paramsOf : List ParamSrc → Option (List Param)
  | [] => some []
  | p :: ps => (paramOf p).bind fun p => (paramsOf ps).map (p :: ·)

/-- The ancestors, in the order in which they are written. -/
def ancestorsOf (cs : List Clause) : List Ancestor :=
  cs.flatMap fun c => c.2.map fun p => ⟨dotted p.path, argsOf p.args, c.1⟩

/-- Does the object extend another one? -/
def extendsSome (cs : List Clause) : Bool := cs.any (·.1 = .extends)

/-- Replication cannot be combined with inheritance. -/
def combines (cs : List Clause) : Bool := cs.any (·.1 = .replicates) && cs.length > 1

/-- An object may be `abstract`, `final` or `virtual`, a constant one extends nothing, and replication stands alone. -/
def objectOk (l : Option Layout) (ty : TypeSrc) (cs : List Clause) : Bool :=
  (l != some .over && l != some .stat) && !(ty.mutab = some .const && extendsSome cs) && !combines cs

/-- The memory layout of a member: what is written in a class, `static` in a namespace, `abstract` in an interface. -/
def layoutIn : Ctx → Option Layout → Option Layout
  | .cls _, l => some (l.getD .virt)
  | .space, none => some .stat
  | .iface _, none => some .abstr
  | _, some _ => none

/-- Constructors and destructors only exist in classes. -/
def kindOf (c : Ctx) (n : Text) : MethodKind :=
  if c = .space then .method
  else if n = "Constructor".toList then .constructor
  else if n = "Destructor".toList then .destructor
  else .method

/-- A method has a body unless it is abstract, or not implemented. -/
def bodyOk (l : Layout) (f : Feature) (hasBody : Bool) : Bool :=
  if l = .abstr then !hasBody else hasBody || f = .notImplemented

mutual

/-- The declaration with all that was left out, or `none` if it is rejected. -/
def meaning (c : Ctx) : Item → Option Node
  | .object v f l ty ps body =>
    if objectOk l ty ps then
      (meaningAll (.cls (ty.mutab = some .const)) body).map fun ds =>
        .object (v.getD .priv) (f.getD .stable) (l.getD .virt) (typeOf ty) (ancestorsOf ps) (some ds)
    else none
  | .forward v f l ty ps =>
    if objectOk l ty ps then some (.object (v.getD .priv) (f.getD .stable) (l.getD .virt) (typeOf ty) (ancestorsOf ps) none) else none
  | .enum v f ty es => if ty.args.isEmpty then some (.enum (v.getD .priv) (f.getD .stable) (typeOf ty) es) else none
  | .interface v f ty ps body =>
    if ps.all (·.1 = .implements) then
      (meaningAll (.iface (ty.mutab = some .const)) body).map fun ds =>
        .interface (v.getD .priv) (f.getD .unstable) (typeOf ty) (ancestorsOf ps) ds
    else none
  | .library e p => some (.library e (dotted p))
  | .space v f p body =>
    if c = .space then (meaningAll .space body).map fun ds => .space (v.getD .priv) (f.getD .stable) p ds else none
  | .member v l f ty n m r i =>
    if c.const ∧ m ≠ some .const then none
    else (layoutIn c l).bind fun l => (initOf (dotted ty.path) i).map fun i =>
      .member (v.getD .priv) l (f.getD .stable) (typeOf ty) n (m.getD .modify) (accessText .byValue r) i
  | .method v l f ty n ps m e b =>
    (layoutIn c l).bind fun l => (paramsOf ps).bind fun ps =>
      let kind := kindOf c n
      let mt := m.getD (if kind = .method then .const else .modify)
      if c.const ∧ kind = .method ∧ mt ≠ .const then none
      else if bodyOk l (f.getD .stable) b.isSome then
        some (.method (v.getD .priv) l (f.getD .stable) (typeOf ty) n ps kind mt (e.getD false) b)
      else none

/-- All declarations: one that is rejected is enough to reject all. -/
def meaningAll (c : Ctx) : List Item → Option (List Node)
  | [] => some []
  | i :: is => (meaning c i).bind fun d => (meaningAll c is).map (d :: ·)

end

/-! ## Where the code departs from it -/

/-- Only the first of the clauses is a replication, if any is. -/
def FirstReplicates (cs : List Clause) : Prop := ∀ c ∈ cs.tail, c.1 ≠ .replicates

/-- A class or interface. -/
def Item.isType : Item → Bool
  | .object .. | .forward .. | .interface .. => true
  | _ => false

mutual

/-- The declarations that the code reads as they are meant: no replication behind other ancestors or with a body, no enumeration
with both a visibility and a feature state, and no class or interface in an interface. -/
def Regular : Item → Prop
  | .object _ _ _ _ ps body => (∀ c ∈ ps, c.1 ≠ .replicates) ∧ RegularAll body
  | .forward _ _ _ _ ps => FirstReplicates ps
  | .enum v f _ _ => v = none ∨ f = none
  | .interface _ _ _ _ body => (∀ i ∈ body, i.isType = false) ∧ RegularAll body
  | .space _ _ _ body => RegularAll body
  | _ => True

/-- All are. -/
def RegularAll : List Item → Prop
  | [] => True
  | i :: is => Regular i ∧ RegularAll is

end

end Verif.Decl
