import Verif.Stmt.Model
import Verif.Expr.Spec

/-!
# A grammar of statements

`Src` is a statement as the author of a method has it in mind, `Spells` says which token lists are spellings of it, `elab` gives the
syntax tree and checks names and types.  The grammar is that of any language with braces: every statement ends with its own
semicolon or with the closing bracket of a block, and an `else` belongs to the last `if` without one.
-/

namespace Verif.Stmt

open Verif.Str (Text)
open Verif.Lex (Tok Ty Cat)
open Verif.Types (TName)
open Verif.Expr (Env Sym Kind Res Expr Syn Der Plain Lvl)

/-- `type name [const|modify] [ref|val]`. -/
structure Decl where
  ty : Text
  name : Text
  const : Option Bool
  ref : Option Bool

/-- What can stand in the head of a `for` statement, or be a statement of its own. -/
inductive Simple where
  | expr (e : Syn)
  | decl (d : Decl) (init : Option Syn)
  /-- `var name [const|modify] [ref|val] = e`. -/
  | infer (name : Text) (const ref : Option Bool) (e : Syn)

/-- The beginning of a block behind a `try` block. -/
inductive Handler where
  | catchAll
  | catch (d : Decl)
  | fin

/-- A statement as written. -/
inductive Src where
  | empty
  | simple (s : Simple)
  | block (b : List Src)
  | ifThen (c : Syn) (t : Src)
  | ifElse (c : Syn) (t e : Src)
  | while (c : Syn) (b : Src)
  | for (i : Option Simple) (c : Option Syn) (s : Option Simple) (b : Src)
  | foreach (d : Decl) (e : Syn) (b : Src)
  /-- `none` is `default`. -/
  | switch (e : Syn) (cs : List (Option Syn × List Src))
  | try (b : List Src) (hs : List (Handler × List Src))
  | ret (e : Option Syn)
  | throw (e : Option Syn)
  | brk
  | cont
  | assert (c : Syn) (msg : Option Syn)
  | print (e : Syn)
  | exit (e : Syn)
  | delete (e : Syn)

/-! ## Spelling -/

/-- The words that the code compares with, whatever kind of token they are. -/
def words : List Text := ["default".toList, "catch".toList, "finally".toList]

/-- A punctuation mark or bracket. -/
def Mark (ty : Ty) (t : Tok) : Prop := t.ty = ty ∧ Plain t ∧ t.content ∉ words

/-- A keyword. -/
def Word (w : String) (t : Tok) : Prop := t.ty = .KEYWORD ∧ t.content = w.toList

/-- An identifier. -/
def Name (t : Tok) : Prop := t.ty = .IDENTIFIER ∧ t.cat ≠ .assignment ∧ t.content ∉ words

/-- There are no curly brackets in expressions. -/
def NoCurly (ts : List Tok) : Prop := ∀ t ∈ ts, t.ty ≠ .BRACKET_CURLY_OPEN ∧ t.ty ≠ .BRACKET_CURLY_CLOSE

/-- The surroundings that decide whether `T e` is a type cast: only the types outside of the method count. -/
def Site.types (w : Site) : Env :=
  { w.env with lookup := fun n => (w.env.lookup n).or (some ⟨.var, .b .void, false, false⟩) }

/-- The tokens are a spelling of the expression. -/
def ExprText (w : Site) (l : Lvl) (e : Syn) (ts : List Tok) : Prop :=
  (∃ b, Der w.types true (.lvl l) b e ts) ∧ NoCurly ts

/-- An expression as a statement: an assignment, an expression that begins with a parenthesis, or the use of a name (a call,
`x++`, `x--`, or `x` alone). -/
inductive ExprStatement (w : Site) : Syn → List Tok → Prop
  | assign (t a : Tok) (e : Syn) (ts : List Tok) (ht : Name t) (ha : a.cat = .assignment)
      (h : ExprText w .expression e (t :: a :: ts)) : ExprStatement w e (t :: a :: ts)
  | paren (t : Tok) (e : Syn) (ts : List Tok) (ht : Mark .PARENTHESIS_OPEN t)
      (h : ExprText w .expression e (t :: ts)) : ExprStatement w e (t :: ts)
  | use (t : Tok) (e : Syn) (ts : List Tok) (ht : Name t) (hc : NoCurly ts)
      (h : Der w.types true .term false e (t :: ts)) : ExprStatement w e (t :: ts)

/-- `[const|modify]`. -/
inductive Mutability : Option Bool → List Tok → Prop
  | none : Mutability none []
  | const (t : Tok) (ht : t.ty = .MUTABILITY) (hc : t.content = "const".toList) : Mutability (some true) [t]
  | modify (t : Tok) (ht : t.ty = .MUTABILITY) (hc : t.content = "modify".toList) : Mutability (some false) [t]

/-- `[ref|val]`. -/
inductive Access : Option Bool → List Tok → Prop
  | none : Access none []
  | ref (t : Tok) (ht : t.ty = .ACCESS_MODE) (hc : t.content = "ref".toList) : Access (some true) [t]
  | val (t : Tok) (ht : t.ty = .ACCESS_MODE) (hc : t.content = "val".toList) : Access (some false) [t]

/-- `type name [const|modify] [ref|val]`. -/
inductive DeclText : Decl → List Tok → Prop
  | mk (t x : Tok) (m a : Option Bool) (ms as : List Tok) (ht : Name t) (hx : Name x) (hm : Mutability m ms) (ha : Access a as) :
      DeclText ⟨t.content, x.content, m, a⟩ (t :: x :: ms ++ as)

/-- The sign between a variable and its initial value. -/
def Assign (t : Tok) : Prop := t.ty = .ASSIGN ∧ t.content ∉ words

/-- A simple statement, without its semicolon. -/
inductive SimpleText (w : Site) : Simple → List Tok → Prop
  | expr (e : Syn) (ts : List Tok) (h : ExprStatement w e ts) : SimpleText w (.expr e) ts
  | decl (d : Decl) (ds : List Tok) (hd : DeclText d ds) : SimpleText w (.decl d none) ds
  | init (d : Decl) (a : Tok) (e : Syn) (ds ts : List Tok) (hd : DeclText d ds) (ha : Assign a)
      (h : ExprText w .expression e ts) : SimpleText w (.decl d (some e)) (ds ++ a :: ts)
  | infer (v x a : Tok) (m r : Option Bool) (e : Syn) (ms as ts : List Tok) (hv : Word "var" v) (hx : Name x)
      (hm : Mutability m ms) (hr : Access r as) (ha : Assign a) (h : ExprText w .expression e ts) :
      SimpleText w (.infer x.content m r e) (v :: x :: ms ++ as ++ a :: ts)

/-- A part of the head of a `for` statement that may be missing. -/
inductive OptText {α : Type} (P : α → List Tok → Prop) : Option α → List Tok → Prop
  | none : OptText P none []
  | some (a : α) (ts : List Tok) (h : P a ts) : OptText P (some a) ts

/-- Does the statement read its last token itself?  The semicolon behind a simple statement is read as an empty statement. -/
def closed : Src → Bool
  | .simple _ => false
  | .assert _ _ => false
  | .ifThen _ t => closed t
  | .ifElse _ _ e => closed e
  | .while _ b => closed b
  | .for _ _ _ b => closed b
  | .foreach _ _ b => closed b
  | _ => true

/-- Would a following `else` belong to this statement? -/
def endsIf : Src → Bool
  | .ifThen _ _ => true
  | .ifElse _ _ e => endsIf e
  | .while _ b => endsIf b
  | .for _ _ _ b => endsIf b
  | .foreach _ _ b => endsIf b
  | _ => false

mutual

/-- `Spells w s ts`: the tokens `ts` are a spelling of the statement `s`. -/
inductive Spells (w : Site) : Src → List Tok → Prop
  | empty (t : Tok) (ht : Mark .SEMICOLON t) : Spells w .empty [t]
  | simple (s : Simple) (ts : List Tok) (t : Tok) (h : SimpleText w s ts) (ht : Mark .SEMICOLON t) :
      Spells w (.simple s) (ts ++ [t])
  | block (o c : Tok) (b : List Src) (ts : List Tok) (ho : Mark .BRACKET_CURLY_OPEN o) (hc : Mark .BRACKET_CURLY_CLOSE c)
      (h : SpellsList w b ts) : Spells w (.block b) (o :: ts ++ [c])
  | ifThen (k o c : Tok) (e : Syn) (t : Src) (es ts : List Tok) (hk : Word "if" k) (ho : Mark .PARENTHESIS_OPEN o)
      (hc : Mark .PARENTHESIS_CLOSE c) (he : ExprText w .expression e es) (ht : Spells w t ts) :
      Spells w (.ifThen e t) (k :: o :: es ++ c :: ts)
  | ifElse (k o c l : Tok) (e : Syn) (t f : Src) (es ts fs : List Tok) (hk : Word "if" k) (ho : Mark .PARENTHESIS_OPEN o)
      (hc : Mark .PARENTHESIS_CLOSE c) (hl : Word "else" l) (he : ExprText w .expression e es) (ht : Spells w t ts)
      (hd : endsIf t = false) (hf : Spells w f fs) : Spells w (.ifElse e t f) (k :: o :: es ++ c :: ts ++ l :: fs)
  | while (k o c : Tok) (e : Syn) (b : Src) (es ts : List Tok) (hk : Word "while" k) (ho : Mark .PARENTHESIS_OPEN o)
      (hc : Mark .PARENTHESIS_CLOSE c) (he : ExprText w .expression e es) (hb : Spells w b ts) :
      Spells w (.while e b) (k :: o :: es ++ c :: ts)
  | for (k o m₁ m₂ c : Tok) (i : Option Simple) (e : Option Syn) (s : Option Simple) (b : Src) (is es ss ts : List Tok)
      (hk : Word "for" k) (ho : Mark .PARENTHESIS_OPEN o) (h₁ : Mark .SEMICOLON m₁) (h₂ : Mark .SEMICOLON m₂)
      (hc : Mark .PARENTHESIS_CLOSE c) (hi : OptText (SimpleText w) i is) (he : OptText (ExprText w .expression) e es)
      (hs : OptText (SimpleText w) s ss) (hb : Spells w b ts) :
      Spells w (.for i e s b) (k :: o :: is ++ m₁ :: es ++ m₂ :: ss ++ c :: ts)
  | foreach (k o m c : Tok) (d : Decl) (e : Syn) (b : Src) (ds es ts : List Tok) (hk : Word "foreach" k)
      (ho : Mark .PARENTHESIS_OPEN o) (hm : Mark .COLON m) (hc : Mark .PARENTHESIS_CLOSE c) (hd : DeclText d ds)
      (he : ExprText w .arith e es) (hb : Spells w b ts) : Spells w (.foreach d e b) (k :: o :: ds ++ m :: es ++ c :: ts)
  | switch (k o c bo bc : Tok) (e : Syn) (cs : List (Option Syn × List Src)) (es ts : List Tok) (hk : Word "switch" k)
      (ho : Mark .PARENTHESIS_OPEN o) (hc : Mark .PARENTHESIS_CLOSE c) (hbo : Mark .BRACKET_CURLY_OPEN bo)
      (hbc : Mark .BRACKET_CURLY_CLOSE bc) (he : ExprText w .expression e es) (hcs : SpellsCases w cs ts) :
      Spells w (.switch e cs) (k :: o :: es ++ c :: bo :: ts ++ [bc])
  | try (k o c : Tok) (b : List Src) (hs : List (Handler × List Src)) (ts us : List Tok) (hk : Word "try" k)
      (ho : Mark .BRACKET_CURLY_OPEN o) (hc : Mark .BRACKET_CURLY_CLOSE c) (hb : SpellsList w b ts)
      (hh : SpellsHandlers w hs us) : Spells w (.try b hs) (k :: o :: ts ++ c :: us)
  | ret (k m : Tok) (e : Option Syn) (es : List Tok) (hk : Word "return" k) (hm : Mark .SEMICOLON m)
      (he : OptText (ExprText w .expression) e es) : Spells w (.ret e) (k :: es ++ [m])
  | throw (k m : Tok) (e : Option Syn) (es : List Tok) (hk : Word "throw" k) (hm : Mark .SEMICOLON m)
      (he : OptText (ExprText w .expression) e es) : Spells w (.throw e) (k :: es ++ [m])
  | brk (k m : Tok) (hk : Word "break" k) (hm : Mark .SEMICOLON m) : Spells w .brk [k, m]
  | cont (k m : Tok) (hk : Word "continue" k) (hm : Mark .SEMICOLON m) : Spells w .cont [k, m]
  | assert (k o c m : Tok) (e : Syn) (es : List Tok) (hk : Word "assert" k) (ho : Mark .PARENTHESIS_OPEN o)
      (hc : Mark .PARENTHESIS_CLOSE c) (hm : Mark .SEMICOLON m) (he : ExprText w .expression e es) :
      Spells w (.assert e none) (k :: o :: es ++ [c, m])
  | assertMsg (k o p c m : Tok) (e f : Syn) (es fs : List Tok) (hk : Word "assert" k) (ho : Mark .PARENTHESIS_OPEN o)
      (hp : Mark .COMMA p) (hc : Mark .PARENTHESIS_CLOSE c) (hm : Mark .SEMICOLON m) (he : ExprText w .expression e es)
      (hf : ExprText w .expression f fs) : Spells w (.assert e (some f)) (k :: o :: es ++ p :: fs ++ [c, m])
  | print (k o c m : Tok) (e : Syn) (es : List Tok) (hk : Word "print" k) (ho : Mark .PARENTHESIS_OPEN o)
      (hc : Mark .PARENTHESIS_CLOSE c) (hm : Mark .SEMICOLON m) (he : ExprText w .expression e es) :
      Spells w (.print e) (k :: o :: es ++ [c, m])
  | exit (k o c m : Tok) (e : Syn) (es : List Tok) (hk : Word "exit" k) (ho : Mark .PARENTHESIS_OPEN o)
      (hc : Mark .PARENTHESIS_CLOSE c) (hm : Mark .SEMICOLON m) (he : ExprText w .expression e es) :
      Spells w (.exit e) (k :: o :: es ++ [c, m])
  | delete (k m : Tok) (e : Syn) (es : List Tok) (hk : Word "delete" k) (hm : Mark .SEMICOLON m)
      (he : ExprText w .expression e es) : Spells w (.delete e) (k :: es ++ [m])

/-- Statements one after the other. -/
inductive SpellsList (w : Site) : List Src → List Tok → Prop
  | nil : SpellsList w [] []
  | cons (s : Src) (b : List Src) (ts us : List Tok) (h : Spells w s ts) (hb : SpellsList w b us) : SpellsList w (s :: b) (ts ++ us)

/-- The blocks of a `switch` statement. -/
inductive SpellsCases (w : Site) : List (Option Syn × List Src) → List Tok → Prop
  | nil : SpellsCases w [] []
  | case (k m o c : Tok) (e : Syn) (b : List Src) (cs : List (Option Syn × List Src)) (es ts us : List Tok) (hk : Word "case" k)
      (hm : Mark .COLON m) (ho : Mark .BRACKET_CURLY_OPEN o) (hc : Mark .BRACKET_CURLY_CLOSE c) (he : ExprText w .expression e es)
      (hb : SpellsList w b ts) (hs : SpellsCases w cs us) :
      SpellsCases w ((some e, b) :: cs) (k :: es ++ m :: o :: ts ++ c :: us)
  | default (k m o c : Tok) (b : List Src) (cs : List (Option Syn × List Src)) (ts us : List Tok) (hk : Word "default" k)
      (hm : Mark .COLON m) (ho : Mark .BRACKET_CURLY_OPEN o) (hc : Mark .BRACKET_CURLY_CLOSE c) (hb : SpellsList w b ts)
      (hs : SpellsCases w cs us) : SpellsCases w ((none, b) :: cs) (k :: m :: o :: ts ++ c :: us)

/-- The blocks behind a `try` block. -/
inductive SpellsHandlers (w : Site) : List (Handler × List Src) → List Tok → Prop
  | nil : SpellsHandlers w [] []
  | catchAll (k o c : Tok) (b : List Src) (hs : List (Handler × List Src)) (ts us : List Tok) (hk : Word "catch" k)
      (ho : Mark .BRACKET_CURLY_OPEN o) (hc : Mark .BRACKET_CURLY_CLOSE c) (hb : SpellsList w b ts)
      (hr : SpellsHandlers w hs us) : SpellsHandlers w ((.catchAll, b) :: hs) (k :: o :: ts ++ c :: us)
  | catch (k p q o c : Tok) (d : Decl) (b : List Src) (hs : List (Handler × List Src)) (ds ts us : List Tok)
      (hk : Word "catch" k) (hp : Mark .PARENTHESIS_OPEN p) (hq : Mark .PARENTHESIS_CLOSE q)
      (ho : Mark .BRACKET_CURLY_OPEN o) (hc : Mark .BRACKET_CURLY_CLOSE c) (hd : DeclText d ds) (hb : SpellsList w b ts)
      (hr : SpellsHandlers w hs us) :
      SpellsHandlers w ((.catch d, b) :: hs) (k :: p :: ds ++ q :: o :: ts ++ c :: us)
  | fin (k o c : Tok) (b : List Src) (hs : List (Handler × List Src)) (ts us : List Tok) (hk : Word "finally" k)
      (ho : Mark .BRACKET_CURLY_OPEN o) (hc : Mark .BRACKET_CURLY_CLOSE c) (hb : SpellsList w b ts)
      (hr : SpellsHandlers w hs us) : SpellsHandlers w ((.fin, b) :: hs) (k :: o :: ts ++ c :: us)

end

/-! ## The syntax tree -/

/-- An expression where the method stands. -/
def typedAt (w : Site) (s : St) (e : Syn) : Option Expr := Expr.typed (w.at s) e

/-- An expression that may be missing. -/
def typedOpt (w : Site) (s : St) : Option Syn → Option (Option Expr)
  | none => some none
  | some e => (typedAt w s e).map some

/-- A declaration without its initial value: the type exists, the name is new in its scope. -/
def declare (w : Site) (s : St) (d : Decl) : Option (DeclNode × St) :=
  ((w.at s).lookup d.ty).bind fun y =>
    if y.kind = .type ∧ w.creatable y.ty = true then
      let const := d.const.getD false
      (s.define d.name (varSym w y.ty const)).map fun s => (⟨y.ty, d.name, const, d.ref.getD (!w.atomic y.ty)⟩, s)
    else none

/-- The initial value of a declared variable; atomic references need one. -/
def initial (w : Site) (s : St) (d : DeclNode) : Option Syn → Option (Option Expr)
  | none => if d.ref && w.atomic d.ty then none else some none
  | some e => (typedAt w s e).bind fun x => (Expr.typeOf w.env d.ty .ASSIGN x.ty).map fun _ => some x

/-- A simple statement. -/
def elabSimple (w : Site) (s : St) : Simple → Option (Node × St)
  | .expr e => (typedAt w s e).map fun x => (.expr x, s)
  | .decl d e => (declare w s d).bind fun r => (initial w r.2 r.1 e).map fun x => (.decl r.1 x, r.2)
  | .infer n m r e =>
    (typedAt w s e).bind fun x =>
      let const := m.getD false
      if (const = false ∧ isConst w x = true ∧ w.atomic x.ty = false) ∨ w.creatable x.ty = false then none
      else (s.define n (varSym w x.ty const)).map fun s => (.infer ⟨x.ty, n, const, r.getD false⟩ x, s)

/-- A simple statement that may be missing. -/
def elabOpt (w : Site) (s : St) : Option Simple → Option (Node × St)
  | none => some (.nop, s)
  | some i => elabSimple w s i

mutual

/-- The syntax tree of a statement and the state behind it.  A block has a scope of its own (`enter`, `leave`).  `allow`: the
statement stands in a loop or a `switch` statement. -/
def elabStmt (w : Site) (allow : Bool) (s : St) : Src → Option (Node × St)
  | .empty => some (.nop, s)
  | .simple i => elabSimple w s i
  | .block b => ((elabList w allow s.enter b).bind (leave false)).map fun r => (.block r.1, r.2)
  | .ifThen c t =>
    (typedAt w s c).bind fun x => (elabStmt w allow s t).map fun r => (.ite x r.1 .nop, r.2)
  | .ifElse c t e =>
    (typedAt w s c).bind fun x => (elabStmt w allow s t).bind fun r =>
      (elabStmt w allow r.2 e).map fun q => (.ite x r.1 q.1, q.2)
  | .while c b => (typedAt w s c).bind fun x => (elabStmt w true s b).map fun r => (.while x r.1, r.2)
  | .for i c p b =>
    (elabOpt w s.push i).bind fun i => (typedOpt w i.2 c).bind fun c => (elabOpt w i.2 p).bind fun p =>
      (elabStmt w true p.2 b).map fun b => (.for i.1 c p.1 b.1, b.2.pop)
  | .foreach d e b =>
    (declare w s.push d).bind fun r => (typedAt w r.2 e).bind fun x =>
      if w.iterates x = false then none
      else (elabStmt w true r.2 b).map fun b => (.foreach r.1 x b.1, b.2.pop)
  | .switch e cs =>
    (typedAt w s e).bind fun x => (elabCases w s [] none cs).bind fun r =>
      if w.env.isType x.ty = false then none else some (.switch x r.1.1 r.1.2, r.2)
  | .try b hs =>
    ((elabList w allow { s with thrown := [] }.enter b).bind (leave false)).bind fun r =>
      (elabHandlers w allow r.2 ⟨[], none⟩ hs).map fun c =>
        (.try r.1 c.1.catches c.1.fin,
          { c.2 with thrown := mergeTypes (if c.1.catches.isEmpty then [] else c.2.thrown) s.thrown })
  | .ret e =>
    (typedOpt w s e).bind fun x => if w.result = resultType x then some (.ret x, s.setFlow .ret) else none
  | .throw e => (typedOpt w s e).map fun x => (.throw x, { s with flow := .throw, thrown := afterThrow s.thrown x })
  | .brk => if allow then some (.brk, s.setFlow .brk) else none
  | .cont => if allow then some (.cont, s.setFlow .cont) else none
  | .assert c m => (typedAt w s c).bind fun x => (typedOpt w s m).map fun y => (.assert x y, s)
  | .print e => (typedAt w s e).map fun x => (.print x, s)
  | .exit e => (typedAt w s e).map fun x => (.exit x, s.setFlow .exit)
  | .delete e => (typedAt w s e).map fun x => (.delete x, s)

/-- Statements one after the other; each sees the names declared before it. -/
def elabList (w : Site) (allow : Bool) (s : St) : List Src → Option (List Node × St)
  | [] => some ([], s)
  | a :: b => (elabStmt w allow s a).bind fun r => (elabList w allow r.2 b).map fun q => (addNode r.1 q.1, q.2)

/-- The blocks of a `switch` statement; at most one `default`. -/
def elabCases (w : Site) (s : St) (acc : List (Expr × List Node)) (d : Option (List Node)) :
    List (Option Syn × List Src) → Option ((List (Expr × List Node) × Option (List Node)) × St)
  | [] => some ((acc, d), s)
  | (some e, b) :: cs =>
    (typedAt w s e).bind fun x => ((elabList w true s.enter b).bind (leave true)).bind fun r => elabCases w r.2 (acc ++ [(x, r.1)]) d cs
  | (none, b) :: cs =>
    if d.isSome then none else ((elabList w true s.enter b).bind (leave true)).bind fun r => elabCases w r.2 acc (some r.1) cs

/-- The blocks behind a `try` block; at most one `finally` block that is not empty. -/
def elabHandlers (w : Site) (allow : Bool) (s : St) (c : Clauses) : List (Handler × List Src) → Option (Clauses × St)
  | [] => some (c, s)
  | (.catchAll, b) :: hs =>
    ((elabList w allow { s.push with thrown := [] }.enter b).bind (leave false)).bind fun r =>
      elabHandlers w allow r.2.pop { c with catches := c.catches ++ [(none, r.1)] } hs
  | (.catch d, b) :: hs =>
    (declare w s.push d).bind fun q =>
      ((elabList w allow { q.2 with thrown := q.2.thrown.erase q.1.ty }.enter b).bind (leave false)).bind fun r =>
        elabHandlers w allow r.2.pop { c with catches := c.catches ++ [(some q.1, r.1)] } hs
  | (.fin, b) :: hs =>
    if c.fin.any (!·.isEmpty) then none
    else ((elabList w allow s.enter b).bind (leave false)).bind fun r => elabHandlers w allow r.2 { c with fin := some r.1 } hs

end

/-- The syntax tree of a method. -/
def elabMethod (w : Site) (throws : Bool) (params : List (Text × Sym)) (b : List Src) : Option (List Node) :=
  (parameters params ⟨[[]], .normal, []⟩).bind fun s =>
    (elabList w false s.enter b).bind fun r => if complete w throws r.2.pop then some r.1 else none

end Verif.Stmt
