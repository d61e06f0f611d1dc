import Verif.Decl.Spec

/-!
# Every declaration has a spelling

`printAll` writes declarations down; what it writes spells them, if their names are names and their words are words of the language.
-/

namespace Verif.Decl

open Verif.Str (Text)
open Verif.Lex (Tok Ty Cat)

/-! ## Printing -/

def tok (ty : Ty) (w : Text) : Tok := ⟨.none, ty, w, 1, decide (ty ∈ modifierTypes)⟩

def word (ty : Ty) (w : String) : Tok := tok ty w.toList

def printName (n : Text) : Tok := tok .IDENTIFIER n

def printVis : Vis → Tok
  | .priv => word .VISIBILITY "private"
  | .prot => word .VISIBILITY "protected"
  | .pub => word .VISIBILITY "public"
  | .designtime => word .VISIBILITY "Designtime"

def printFeature : Feature → Tok
  | .deprecated => word .LANGUAGE_FEATURE_STATE "deprecated"
  | .notImplemented => word .LANGUAGE_FEATURE_STATE "notimplemented"
  | .stable => word .LANGUAGE_FEATURE_STATE "stable"
  | .unstable => word .LANGUAGE_FEATURE_STATE "unstable"
  | .unspecified => word .LANGUAGE_FEATURE_STATE ""

def printLayout : Layout → Tok
  | .abstr => word .MEMORY_LAYOUT "abstract"
  | .fin => word .MEMORY_LAYOUT "final"
  | .over => word .MEMORY_LAYOUT "override"
  | .stat => word .MEMORY_LAYOUT "static"
  | .virt => word .MEMORY_LAYOUT "virtual"
  | .unspecified => word .MEMORY_LAYOUT ""

def printMut : Mut → Tok
  | .const => word .MUTABILITY "const"
  | .modify => word .MUTABILITY "modify"
  | .unknown => word .MUTABILITY ""

def printRef : Bool → Tok
  | true => word .ACCESS_MODE "ref"
  | false => word .ACCESS_MODE "val"

def printThrows : Bool → Tok
  | true => word .MODIFIER "throws"
  | false => word .IDENTIFIER "nothrow"

def printRelation : Relation → Tok
  | .extends => word .RESERVED_WORD "extends"
  | .implements => word .RESERVED_WORD "implements"
  | .replicates => word .RESERVED_WORD "replicates"

def printOpt {α : Type} (f : α → Tok) : Option α → List Tok
  | none => []
  | some a => [f a]

def printPath : List Text → List Tok
  | [] => []
  | [n] => [printName n]
  | n :: ns => printName n :: word .OPERATOR_SCOPE "." :: printPath ns

def printCommas {α : Type} (f : α → List Tok) : List α → List Tok
  | [] => []
  | [a] => f a
  | a :: as => f a ++ word .COMMA "," :: printCommas f as

def printArg : ArgSrc → List Tok
  | ⟨n, none⟩ => [printName n]
  | ⟨n, some b⟩ => [printName n, word .COLON ":", printName b]

def printArgs : List ArgSrc → List Tok
  | [] => []
  | as => word .COMPARE_LESS "<" :: (printCommas printArg as ++ [word .COMPARE_GREATER ">"])

def printType (d : TypeSrc) : List Tok := printPath d.path ++ (printArgs d.args ++ printOpt printMut d.mutab)

def printInit : Option InitSrc → List Tok
  | none => []
  | some ⟨false, ty, x⟩ => [word .ASSIGN "=", tok ty x]
  | some ⟨true, ty, x⟩ => [word .ASSIGN "=", word .MATH_SUBTRACT "-", tok ty x]

def printParam (p : ParamSrc) : List Tok :=
  printType p.type ++ (printOpt printName p.name ++ (printOpt printMut p.mutab ++ (printOpt printRef p.ref ++ printInit p.init)))

def printParent (p : Parent) : List Tok := printPath p.path ++ printArgs p.args

def printClauses : List Clause → List Tok
  | [] => []
  | c :: cs => printRelation c.1 :: (printCommas printParent c.2 ++ printClauses cs)

def opening : Tok := word .BRACKET_CURLY_OPEN "{"
def closing : Tok := word .BRACKET_CURLY_CLOSE "}"
def semicolon : Tok := word .SEMICOLON ";"

def printBody : Option (List Tok) → List Tok
  | none => [semicolon]
  | some b => opening :: (b ++ [closing])

mutual

def print : Item → List Tok
  | .object v f l ty ps body => printOpt printVis v ++ (printOpt printFeature f ++ (printOpt printLayout l ++
      word .RESERVED_WORD "object" :: (printType ty ++ (printClauses ps ++ opening :: (printAll body ++ [closing])))))
  | .forward v f l ty ps => printOpt printVis v ++ (printOpt printFeature f ++ (printOpt printLayout l ++
      word .RESERVED_WORD "object" :: (printType ty ++ (printClauses ps ++ [semicolon]))))
  | .enum v f ty es => printOpt printVis v ++ (printOpt printFeature f ++
      word .RESERVED_WORD "enum" :: (printType ty ++ opening :: (es ++ [closing])))
  | .interface v f ty ps body => printOpt printVis v ++ (printOpt printFeature f ++
      word .RESERVED_WORD "interface" :: (printType ty ++ (printClauses ps ++ opening :: (printAll body ++ [closing]))))
  | .library false p => word .RESERVED_WORD "import" :: (printPath p ++ [semicolon])
  | .library true p => word .RESERVED_WORD "import" :: word .IDENTIFIER "extension" :: (printPath p ++ [semicolon])
  | .space v f p body => printOpt printVis v ++ (printOpt printFeature f ++
      word .RESERVED_WORD "namespace" :: (printPath p ++ opening :: (printAll body ++ [closing])))
  | .member v l f ty n m r i => printOpt printVis v ++ (printOpt printLayout l ++ (printOpt printFeature f ++
      (printType ty ++ printName n :: (printOpt printMut m ++ (printOpt printRef r ++ (printInit i ++ [semicolon]))))))
  | .method v l f ty n ps m e b => printOpt printVis v ++ (printOpt printLayout l ++ (printOpt printFeature f ++
      (printType ty ++ printName n :: word .PARENTHESIS_OPEN "(" :: (printCommas printParam ps ++ word .PARENTHESIS_CLOSE ")" ::
        (printOpt printMut m ++ (printOpt printThrows e ++ printBody b))))))

/-- Write down declarations. -/
def printAll : List Item → List Tok
  | [] => []
  | i :: is => print i ++ printAll is

end

/-! ## What can be written -/

def FineName (n : Text) : Prop := n ∉ noNames
def FinePath (p : List Text) : Prop := p ≠ [] ∧ ∀ n ∈ p, FineName n
def FineArg (a : ArgSrc) : Prop := FineName a.name ∧ ∀ b, a.bound = some b → FineName b
def FineArgs (as : List ArgSrc) : Prop := ∀ a ∈ as, FineArg a
def FineVis (v : Option Vis) : Prop := v ≠ some .designtime
def FineFeature (f : Option Feature) : Prop := f ≠ some .unspecified
def FineLayout (l : Option Layout) : Prop := l ≠ some .unspecified
def FineMut (m : Option Mut) : Prop := m ≠ some .unknown
def FineType (d : TypeSrc) : Prop := FinePath d.path ∧ FineArgs d.args ∧ FineMut d.mutab

/-- A constant of the language. -/
def FineInit (i : Option InitSrc) : Prop := ∀ j, i = some j →
  j.ty ∈ [Ty.CONST_BOOLEAN, .CONST_DOUBLE, .CONST_FLOAT, .CONST_INTEGER, .CONST_LITERAL] ∨ j.ty = .IDENTIFIER ∧ j.text = "null".toList

def FineParam (p : ParamSrc) : Prop :=
  FineType p.type ∧ (∀ n, p.name = some n → FineName n) ∧ FineMut p.mutab ∧ FineInit p.init ∧ (p.name = none → p.mutab = none)

def FineParent (p : Parent) : Prop := FinePath p.path ∧ FineArgs p.args
def FineClauses (cs : List Clause) : Prop := ∀ c ∈ cs, c.2 ≠ [] ∧ ∀ p ∈ c.2, FineParent p
def FineBody (b : Option (List Tok)) : Prop := ∀ ts, b = some ts → Brackets.Nested .BRACKET_CURLY_OPEN .BRACKET_CURLY_CLOSE ts

mutual

/-- The names are names, and the words are words of the language. -/
def FineItem : Item → Prop
  | .object v f l ty ps body => FineVis v ∧ FineFeature f ∧ FineLayout l ∧ FineType ty ∧ FineClauses ps ∧ FineAll body
  | .forward v f l ty ps => FineVis v ∧ FineFeature f ∧ FineLayout l ∧ FineType ty ∧ FineClauses ps
  | .enum v f ty es => FineVis v ∧ FineFeature f ∧ FineType ty ∧ Brackets.Nested .BRACKET_CURLY_OPEN .BRACKET_CURLY_CLOSE es
  | .interface v f ty ps body => FineVis v ∧ FineFeature f ∧ FineType ty ∧ FineClauses ps ∧ FineAll body
  | .library _ p => FinePath p
  | .space v f p body => FineVis v ∧ FineFeature f ∧ FinePath p ∧ FineAll body
  | .member v l f ty n m _ i => FineVis v ∧ FineLayout l ∧ FineFeature f ∧ FineType ty ∧ FineName n ∧ FineMut m ∧ FineInit i
  | .method v l f ty n ps m _ b =>
    FineVis v ∧ FineLayout l ∧ FineFeature f ∧ FineType ty ∧ FineName n ∧ (∀ p ∈ ps, FineParam p) ∧ FineMut m ∧ FineBody b

def FineAll : List Item → Prop
  | [] => True
  | i :: is => FineItem i ∧ FineAll is

end

/-! ## What is written is a spelling -/

theorem is_word (ty : Ty) (w : String) : Is ty w (word ty w) := ⟨rfl, rfl, rfl⟩

theorem name_tok {n : Text} (h : FineName n) : NameTok n (printName n) := ⟨rfl, rfl, rfl, h⟩

theorem opt_print {α : Type} {P : α → Tok → Prop} {f : α → Tok} {o : Option α} (h : ∀ a, o = some a → P a (f a)) :
    Opt P o (printOpt f o) := by
  cases o with
  | none => rfl
  | some a => exact ⟨f a, rfl, h a rfl⟩

theorem vis_print {v : Option Vis} (h : FineVis v) : Opt VisTok v (printOpt printVis v) :=
  opt_print fun a e => by subst e; cases a <;> first | exact is_word _ _ | exact absurd rfl h

theorem feature_print {v : Option Feature} (h : FineFeature v) : Opt FeatureTok v (printOpt printFeature v) :=
  opt_print fun a e => by subst e; cases a <;> first | exact is_word _ _ | exact absurd rfl h

theorem layout_print {v : Option Layout} (h : FineLayout v) : Opt LayoutTok v (printOpt printLayout v) :=
  opt_print fun a e => by subst e; cases a <;> first | exact is_word _ _ | exact absurd rfl h

theorem mut_print {v : Option Mut} (h : FineMut v) : Opt MutTok v (printOpt printMut v) :=
  opt_print fun a e => by subst e; cases a <;> first | exact is_word _ _ | exact absurd rfl h

theorem ref_print (v : Option Bool) : Opt RefTok v (printOpt printRef v) :=
  opt_print fun a _ => by cases a <;> exact is_word _ _

theorem throws_print (v : Option Bool) : Opt ThrowsTok v (printOpt printThrows v) :=
  opt_print fun a _ => by cases a <;> exact is_word _ _

theorem path_print : ∀ {p : List Text}, FinePath p → Path p (printPath p)
  | [], h => absurd rfl h.1
  | [n], h => .one (name_tok (h.2 n (by simp)))
  | n :: m :: ns, h => .more (name_tok (h.2 n (by simp))) (is_word _ _) (path_print ⟨by simp, fun x hx => h.2 x (by simp [hx])⟩)

theorem commas_print {α : Type} {P : α → List Tok → Prop} {f : α → List Tok} : ∀ {as : List α}, as ≠ [] → (∀ a ∈ as, P a (f a)) →
    Commas P as (printCommas f as)
  | [], h, _ => absurd rfl h
  | [a], _, h => .one (h a (by simp))
  | a :: b :: as, _, h => .more (h a (by simp)) (is_word _ _) (commas_print (by simp) fun x hx => h x (by simp [hx]))

theorem arg_print {a : ArgSrc} (h : FineArg a) : ArgText a (printArg a) := by
  obtain ⟨n, b⟩ := a
  cases b with
  | none => exact .plain (name_tok h.1)
  | some b => exact .bound (name_tok h.1) (is_word _ _) (name_tok (h.2 b rfl))

theorem args_print {as : List ArgSrc} (h : FineArgs as) : ArgsText as (printArgs as) := by
  cases as with
  | nil => exact .none
  | cons a as => exact .some (is_word _ _) (commas_print (by simp) fun x hx => arg_print (h x hx)) (is_word _ _)

theorem type_print {d : TypeSrc} (h : FineType d) : TypeText d (printType d) := .mk (path_print h.1) (args_print h.2.1) (mut_print h.2.2)

theorem init_print {i : Option InitSrc} (h : FineInit i) : InitOpt i (printInit i) := by
  cases i with
  | none => exact .none
  | some j =>
    obtain ⟨neg, ty, x⟩ := j
    have : ConstTok ty x (tok ty x) := ⟨rfl, rfl, h _ rfl⟩
    cases neg with
    | false => exact .some (is_word _ _) (.plain this)
    | true => exact .some (is_word _ _) (.negative (is_word _ _) this)

theorem param_print {p : ParamSrc} (h : FineParam p) : ParamText p (printParam p) :=
  .mk (type_print h.1) (opt_print fun n e => name_tok (h.2.1 n e)) (mut_print h.2.2.1) (ref_print _) (init_print h.2.2.2.1) h.2.2.2.2

theorem params_print {ps : List ParamSrc} (h : ∀ p ∈ ps, FineParam p) : ParamsText ps (printCommas printParam ps) := by
  cases ps with
  | nil => exact .none
  | cons p ps => exact .some (commas_print (by simp) fun x hx => param_print (h x hx))

theorem clauses_print : ∀ {cs : List Clause}, FineClauses cs → ClausesText cs (printClauses cs)
  | [], _ => .nil
  | (r, ps) :: cs, h => by
    refine .cons (by cases r <;> exact is_word _ _) (commas_print (h (r, ps) (by simp)).1 fun p hp => ?_)
      (clauses_print fun c hc => h c (by simp [hc]))
    exact .mk (path_print ((h (r, ps) (by simp)).2 p hp).1) (args_print ((h (r, ps) (by simp)).2 p hp).2)

theorem body_print {b : Option (List Tok)} (h : FineBody b) : BodyText b (printBody b) := by
  cases b with
  | none => exact .none (is_word _ _)
  | some ts => exact .some (is_word _ _) (h ts rfl) (is_word _ _)

mutual

theorem print_spells : ∀ (i : Item), FineItem i → Spells i (print i)
  | .object v f l ty ps body, h => by
    simp only [FineItem] at h; simp only [print]
    exact .object (vis_print h.1) (feature_print h.2.1) (layout_print h.2.2.1) (is_word _ _) (type_print h.2.2.2.1) (clauses_print h.2.2.2.2.1)
      (is_word _ _) (printAll_spells body h.2.2.2.2.2) (is_word _ _)
  | .forward v f l ty ps, h => by
    simp only [FineItem] at h; simp only [print]
    exact .forward (vis_print h.1) (feature_print h.2.1) (layout_print h.2.2.1) (is_word _ _) (type_print h.2.2.2.1) (clauses_print h.2.2.2.2)
      (is_word _ _)
  | .enum v f ty es, h => by
    simp only [FineItem] at h; simp only [print]
    exact .enum (vis_print h.1) (feature_print h.2.1) (is_word _ _) (type_print h.2.2.1) (is_word _ _) h.2.2.2 (is_word _ _)
  | .interface v f ty ps body, h => by
    simp only [FineItem] at h; simp only [print]
    exact .interface (vis_print h.1) (feature_print h.2.1) (is_word _ _) (type_print h.2.2.1) (clauses_print h.2.2.2.1)
      (is_word _ _) (printAll_spells body h.2.2.2.2) (is_word _ _)
  | .library false p, h => by
    simp only [FineItem] at h; simp only [print]
    exact .library (is_word _ _) (path_print h) (is_word _ _)
  | .library true p, h => by
    simp only [FineItem] at h; simp only [print]
    exact .extension (is_word _ _) (is_word _ _) (path_print h) (is_word _ _)
  | .space v f p body, h => by
    simp only [FineItem] at h; simp only [print]
    exact .space (vis_print h.1) (feature_print h.2.1) (is_word _ _) (path_print h.2.2.1) (is_word _ _) (printAll_spells body h.2.2.2) (is_word _ _)
  | .member v l f ty n m r i, h => by
    simp only [FineItem] at h; simp only [print]
    exact .member (vis_print h.1) (layout_print h.2.1) (feature_print h.2.2.1) (type_print h.2.2.2.1) (name_tok h.2.2.2.2.1)
      (mut_print h.2.2.2.2.2.1) (ref_print r) (init_print h.2.2.2.2.2.2) (is_word _ _)
  | .method v l f ty n ps m e b, h => by
    simp only [FineItem] at h; simp only [print]
    exact .method (vis_print h.1) (layout_print h.2.1) (feature_print h.2.2.1) (type_print h.2.2.2.1) (name_tok h.2.2.2.2.1)
      (is_word _ _) (params_print h.2.2.2.2.2.1) (is_word _ _) (mut_print h.2.2.2.2.2.2.1) (throws_print e) (body_print h.2.2.2.2.2.2.2)

/-- Every list of declarations has a spelling. -/
theorem printAll_spells : ∀ (is : List Item), FineAll is → SpellsAll is (printAll is)
  | [], _ => by simp only [printAll]; exact .nil
  | i :: is, h => by
    simp only [FineAll] at h; simp only [printAll]
    exact .cons (print_spells i h.1) (printAll_spells is h.2)

end

end Verif.Decl
