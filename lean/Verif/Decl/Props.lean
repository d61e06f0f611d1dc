import Verif.Decl.Main
import Verif.Decl.Total
import Verif.Decl.Print

/-!
# C108: declarations are read as they are written
-/

namespace Verif.Decl

open Verif.Str (Text)
open Verif.Lex (Tok Ty Cat)
open Verif.Expr (Res)

/-! ## C108 -/

/-- C108, part: a file whose tokens spell the declarations `is` gives these declarations, with what was left out filled in, or is
rejected if one of them is not allowed where it stands; behind the end of the file nothing is read.  Missing: what `Regular` excludes,
see the `_refuted` theorems below. -/
theorem declarations_read_partial {is : List Item} {ts : List Tok} (h : SpellsAll is ts) (hr : RegularAll is) (rest : List Tok)
    (he : Stops rest) : analyse (ts ++ rest) = Res.ofOption ((meaningAll .space is).map (·, false)) rest := by
  unfold analyse
  exact generate_text h hr .space (fun h => nomatch h) _ (by simp only [fuel, List.length_append]; omega) rest he

/-- C108, part: every list of declarations that can be written down is read back. -/
theorem declarations_print_read_partial {is : List Item} (h : FineAll is) (hr : RegularAll is) :
    analyse (printAll is ++ [Lex.eof]) = Res.ofOption ((meaningAll .space is).map (·, false)) [Lex.eof] :=
  declarations_read_partial (printAll_spells is h) hr _ (.inr ⟨Lex.eof, [], rfl, rfl⟩)

/-- C108: the tokens of a file determine what it declares. -/
theorem declarations_unambiguous {is js : List Item} {ts : List Tok} (h : SpellsAll is ts) (h' : SpellsAll js ts) (hr : RegularAll is)
    (hr' : RegularAll js) : meaningAll .space is = meaningAll .space js := by
  have e := declarations_read_partial h hr [] (.inl rfl)
  rw [declarations_read_partial h' hr' [] (.inl rfl)] at e
  cases h1 : meaningAll .space is <;> cases h2 : meaningAll .space js <;> rw [h1, h2] at e <;> simp_all [Res.ofOption]

/-- C108: the reading of every file, well formed or not, comes to an end. -/
theorem analysis_ends (ts : List Tok) : analyse ts ≠ .noFuel := by
  have := (all_leave (fuel ts)).1 .space false ts (by simp [fuel])
  intro h
  unfold analyse at h
  rw [h] at this
  exact this

/-! ### Examples -/

def ty (p : String) (as : List ArgSrc := []) (m : Option Mut := none) : TypeSrc := ⟨[p.toList], as, m⟩

def sample : List Item :=
  [.library false ["System".toList, "Console".toList],
   .space (some .pub) none ["Shop".toList, "Goods".toList]
    [.enum (some .pub) none (ty "Kind") [printName "A".toList],
     .interface (some .pub) none (ty "IPriced") []
      [.method (some .pub) none none (ty "double") "price".toList [] (some .const) none none],
     .object (some .pub) none (some .abstr) (ty "Item" [⟨"T".toList, some "Object".toList⟩, ⟨"U".toList, none⟩])
      [(.extends, [⟨["Base".toList], [⟨"T".toList, none⟩]⟩, ⟨["Shop".toList, "Other".toList], []⟩]), (.implements, [⟨["IPriced".toList], []⟩])]
      [.member (some .prot) none none (ty "int") "mCount".toList none none (some ⟨true, .CONST_INTEGER, "1".toList⟩),
       .method (some .pub) none none (ty "void") "Constructor".toList
         [⟨ty "string", some "name".toList, some .const, none, none⟩, ⟨ty "Item", some "other".toList, none, some true, none⟩,
          ⟨ty "int", some "count".toList, none, none, some ⟨false, .CONST_INTEGER, "2".toList⟩⟩] none (some true)
         (some [printName "f".toList, opening, closing]),
       .method none (some .stat) (some .unstable) (ty "Item" [⟨"int".toList, none⟩]) "make".toList [] (some .modify) none
         (some [])]],
   .forward none none none (ty "Copy") [(.replicates, [⟨["Item".toList], [⟨"int".toList, none⟩]⟩])]]

/-- The text of the file. -/
def sampleText : String := "import System.Console; public namespace Shop.Goods { public enum Kind { A } public interface IPriced { \
public double price() const; } public abstract object Item<T: Object, U> extends Base<T>, Shop.Other implements IPriced { \
protected int mCount = -1; public void Constructor(string name const, Item other ref, int count = 2) throws { f { } } \
static unstable Item<int> make() modify { } } } object Copy replicates Item<int>;"

/-- What the analyser looks at. -/
def seen (t : Tok) : Ty × Text × Bool := (t.ty, t.content, t.optional)

/-- The tokenizer makes the tokens of the file out of its text. -/
example : (match Lex.tokenize sampleText.toList with | .ok ts => ts.map seen | _ => []) = (printAll sample ++ [Lex.eof]).map seen := by
  decide +kernel

theorem sample_fine : FineAll sample := by
  have n0 : Brackets.Nested .BRACKET_CURLY_OPEN .BRACKET_CURLY_CLOSE [] := .nil
  have n1 : Brackets.Nested .BRACKET_CURLY_OPEN .BRACKET_CURLY_CLOSE [printName "A".toList] := .other (by decide) (by decide) .nil
  have n2 : Brackets.Nested .BRACKET_CURLY_OPEN .BRACKET_CURLY_CLOSE [printName "f".toList, opening, closing] :=
    .other (by decide) (by decide) (.group (a := []) rfl rfl .nil .nil)
  simp only [sample, FineAll, FineItem, FineVis, FineFeature, FineLayout, FineType, FinePath, FineArgs, FineArg, FineMut, FineInit, FineParam,
    FineClauses, FineParent, FineBody, FineName, ty, List.forall_mem_cons, Option.some.injEq, forall_eq', reduceCtorEq, false_implies,
    implies_true, true_and, and_true, ne_eq, not_false_eq_true, List.not_mem_nil, n0, n1, n2]
  repeat' apply And.intro
  all_goals decide

theorem sample_regular : RegularAll sample := by
  simp only [sample, RegularAll, Regular, FirstReplicates]
  decide

example : FineAll sample ∧ RegularAll sample ∧ (meaningAll .space sample).isSome ∧ (printAll sample).length > 100 :=
  ⟨sample_fine, sample_regular, by decide +kernel, by decide +kernel⟩

/-- An error in a declaration is noticed: `static` is not allowed in a namespace. -/
example : FineAll [Item.member none (some .stat) none (ty "int") "i".toList none none none] ∧
    meaningAll .space [Item.member none (some .stat) none (ty "int") "i".toList none none none] = none := by
  refine ⟨?_, rfl⟩
  simp only [FineAll, FineItem, FineVis, FineFeature, FineLayout, FineType, FinePath, FineArgs, FineMut, FineInit, FineName, ty,
    List.forall_mem_cons, reduceCtorEq, false_implies, implies_true, and_true, ne_eq, not_false_eq_true, List.not_mem_nil, true_and]
  decide

/-! ### What is not read as it is written -/

/-- The claim for all declarations. -/
def ReadsAll : Prop := ∀ (is : List Item) (ts : List Tok), SpellsAll is ts →
  analyse ts = Res.ofOption ((meaningAll .space is).map (·, false)) []

theorem not_readsAll {is : List Item} (hf : FineAll is)
    (hne : analyse (printAll is) ≠ Res.ofOption ((meaningAll .space is).map (·, false)) []) : ¬ ReadsAll :=
  fun h => hne (h is _ (printAll_spells is hf))

/-- `public stable enum E { }`. -/
def stableEnum : List Item := [.enum (some .pub) (some .stable) (ty "E") []]

/-- C108 does not hold: an enumeration with a visibility and a feature state is an error. -/
theorem stable_enum_refuted : ¬ ReadsAll := by
  refine not_readsAll (is := stableEnum) ?_ ?_
  · have n0 : Brackets.Nested .BRACKET_CURLY_OPEN .BRACKET_CURLY_CLOSE [] := .nil
    simp only [stableEnum, FineAll, FineItem, FineVis, FineFeature, FineType, FinePath, FineArgs, FineMut, FineName, ty,
      List.forall_mem_cons, reduceCtorEq, false_implies, implies_true, and_true, ne_eq, not_false_eq_true, List.not_mem_nil, true_and, n0]
    decide
  · have h1 : (match analyse (printAll stableEnum) with | .error => true | _ => false) = true := by decide +kernel
    have h2 : (meaningAll .space stableEnum).isSome = true := by decide +kernel
    intro h
    rw [h] at h1
    cases h3 : meaningAll .space stableEnum with
    | none => rw [h3] at h2; cases h2
    | some x => rw [h3] at h1; cases h1

/-- `object A extends B replicates C;`. -/
def lateReplication : List Item := [.forward none none none (ty "A") [(.extends, [⟨["B".toList], []⟩]), (.replicates, [⟨["C".toList], []⟩])]]

/-- C108 does not hold: a replication behind other ancestors is accepted. -/
theorem late_replication_refuted : ¬ ReadsAll := by
  refine not_readsAll (is := lateReplication) ?_ ?_
  · simp only [lateReplication, FineAll, FineItem, FineVis, FineFeature, FineLayout, FineType, FinePath, FineArgs, FineMut, FineName, ty, FineClauses,
      FineParent, List.forall_mem_cons, reduceCtorEq, false_implies, implies_true, and_true, ne_eq, not_false_eq_true, List.not_mem_nil, true_and]
    decide
  · have h1 : (match analyse (printAll lateReplication) with | .ok _ _ => true | _ => false) = true := by decide +kernel
    have h2 : (meaningAll .space lateReplication).isNone = true := by decide +kernel
    intro h
    rw [h] at h1
    cases h3 : meaningAll .space lateReplication with
    | none => rw [h3] at h1; cases h1
    | some x => rw [h3] at h2; cases h2

/-- `interface I { interface J { } int f(); }`. -/
def nestedInterface : List Item := [.interface none none (ty "I") [] [.interface none none (ty "J") [] [],
  .method none none none (ty "int") "f".toList [] none none none]]

/-- C108 does not hold: behind an interface in an interface, methods need a body. -/
theorem nested_interface_refuted : ¬ ReadsAll := by
  refine not_readsAll (is := nestedInterface) ?_ ?_
  · simp only [nestedInterface, FineAll, FineItem, FineVis, FineFeature, FineLayout, FineType, FinePath, FineArgs, FineMut, FineName, ty, FineClauses,
      FineBody, List.forall_mem_cons, reduceCtorEq, false_implies, implies_true, and_true, ne_eq, not_false_eq_true, List.not_mem_nil, true_and]
    decide
  · have h1 : (match analyse (printAll nestedInterface) with | .error => true | _ => false) = true := by decide +kernel
    have h2 : (meaningAll .space nestedInterface).isSome = true := by decide +kernel
    intro h
    rw [h] at h1
    cases h3 : meaningAll .space nestedInterface with
    | none => rw [h3] at h2; cases h2
    | some x => rw [h3] at h1; cases h1

/-- `object A replicates B { int i; }`. -/
def replicationBody : List Item := [.object none none none (ty "A") [(.replicates, [⟨["B".toList], []⟩])]
  [.member none none none (ty "int") "i".toList none none none]]

/-- C108 does not hold: the body of a replication is read as declarations behind it. -/
theorem replication_body_refuted : ¬ ReadsAll := by
  refine not_readsAll (is := replicationBody) ?_ ?_
  · simp only [replicationBody, FineAll, FineItem, FineVis, FineFeature, FineLayout, FineType, FinePath, FineArgs, FineMut, FineName, ty, FineClauses,
      FineParent, FineInit, List.forall_mem_cons, reduceCtorEq, false_implies, implies_true, and_true, ne_eq, not_false_eq_true, List.not_mem_nil, true_and]
    decide
  · have h1 : (match analyse (printAll replicationBody) with | .ok _ [] => false | _ => true) = true := by decide +kernel
    have h2 : (meaningAll .space replicationBody).isSome = true := by decide +kernel
    intro h
    rw [h] at h1
    cases h3 : meaningAll .space replicationBody with
    | none => rw [h3] at h2; cases h2
    | some x => rw [h3] at h1; cases h1

/-! ### What is read although nothing is written that way -/

/-- No semicolon among the tokens. -/
def NoSemicolon (ts : List Tok) : Prop := ∀ t ∈ ts, t.ty ≠ .SEMICOLON

theorem NoSemicolon.append {a b : List Tok} (ha : NoSemicolon a) (hb : NoSemicolon b) : NoSemicolon (a ++ b) := by
  intro t ht
  rcases List.mem_append.1 ht with h | h
  · exact ha t h
  · exact hb t h

theorem NoSemicolon.cons {t : Tok} {b : List Tok} (h : t.ty ≠ .SEMICOLON) (hb : NoSemicolon b) : NoSemicolon (t :: b) :=
  NoSemicolon.append (a := [t]) (by intro u hu; cases List.mem_singleton.1 hu; exact h) hb

theorem NoSemicolon.nil : NoSemicolon [] := fun _ h => nomatch h

theorem Is.noSemicolon {k : Ty} {w : String} {t : Tok} (h : Is k w t) {b : List Tok} (hb : NoSemicolon b) (hk : k ≠ .SEMICOLON := by decide) :
    NoSemicolon (t :: b) := .cons (by rw [h.1]; exact hk) hb

theorem NameTok.noSemicolon {n : Text} {t : Tok} (h : NameTok n t) {b : List Tok} (hb : NoSemicolon b) : NoSemicolon (t :: b) :=
  .cons (by rw [h.1]; decide) hb

theorem Opt.noSemicolon {α : Type} {P : α → Tok → Prop} {o : Option α} {ts : List Tok} (h : Opt P o ts)
    (hP : ∀ a t, P a t → t.ty ≠ .SEMICOLON) : NoSemicolon ts := by
  cases o with
  | none => cases h; exact .nil
  | some a => obtain ⟨t, rfl, ht⟩ := h; exact .cons (hP a t ht) .nil

theorem Commas.noSemicolon {α : Type} {P : α → List Tok → Prop} {as : List α} {ts : List Tok} (h : Commas P as ts)
    (hP : ∀ a ts, P a ts → NoSemicolon ts) : NoSemicolon ts := by
  induction h with
  | one h => exact hP _ _ h
  | more h hc _ ih => exact (hP _ _ h).append (hc.noSemicolon ih)

theorem Path.noSemicolon {ns : List Text} {ts : List Tok} (h : Path ns ts) : NoSemicolon ts := by
  induction h with
  | one h => exact h.noSemicolon .nil
  | more h hd _ ih => exact h.noSemicolon (hd.noSemicolon ih)

theorem ArgsText.noSemicolon {as : List ArgSrc} {ts : List Tok} (h : ArgsText as ts) : NoSemicolon ts := by
  cases h with
  | none => exact .nil
  | some hl hc hg =>
    refine hl.noSemicolon ((hc.noSemicolon fun a ts h => ?_).append (hg.noSemicolon .nil))
    cases h with
    | plain h => exact h.noSemicolon .nil
    | bound h hc hb => exact h.noSemicolon (hc.noSemicolon (hb.noSemicolon .nil))

theorem ParamText.noSemicolon {p : ParamSrc} {ts : List Tok} (h : ParamText p ts) : NoSemicolon ts := by
  obtain ⟨⟨path, args, tm⟩, name, m, r, i⟩ := p
  cases h with
  | mk ht hn hm hr hi _ =>
    refine .append ?_ (.append (hn.noSemicolon fun _ _ h => by rw [h.1]; decide) (.append (hm.noSemicolon fun a t h => ?_)
      (.append (hr.noSemicolon fun a t h => ?_) ?_)))
    · cases ht with
      | mk hp ha hm =>
        refine hp.noSemicolon.append (ha.noSemicolon.append (hm.noSemicolon fun a t h => ?_))
        rw [(mutTok h).1]; decide
    · rw [(mutTok h).1]; decide
    · cases a <;> (rw [h.1]; decide)
    · cases hi with
      | none => exact .nil
      | some he hi =>
        have hc : ∀ {ty x t}, ConstTok ty x t → t.ty ≠ .SEMICOLON := by
          intro ty x t h e
          rw [h.1] at e
          subst e
          rcases h.2.2 with h | h
          · revert h; decide
          · exact absurd h.1 (by decide)
        refine he.noSemicolon ?_
        cases hi with
        | plain h => exact .cons (hc h) .nil
        | negative hneg h => exact Is.noSemicolon hneg (.cons (hc h) .nil)

/-- C108 does not hold: parameters are accepted that nothing is written as, such as `(int a; int b)`. -/
theorem parameter_separators_refuted : ¬ ∀ (ps : List Param) (ts : List Tok),
    parameters (word .PARENTHESIS_OPEN "(" :: (ts ++ [word .PARENTHESIS_CLOSE ")"])) = .ok ps [word .PARENTHESIS_CLOSE ")"] →
      ∃ src, ParamsText src ts := by
  intro h
  let ts := [printName "int".toList, printName "a".toList, semicolon, printName "int".toList, printName "b".toList]
  obtain ⟨src, hs⟩ := h
    [⟨"a".toList, ⟨"int".toList, [], .modify⟩, .modify, .unspecified, none⟩, ⟨"b".toList, ⟨"int".toList, [], .modify⟩, .modify, .unspecified, none⟩]
    ts (by rfl)
  have : NoSemicolon ts := by
    generalize ts = us at hs
    cases hs with
    | none => exact .nil
    | some hc => exact hc.noSemicolon fun _ _ h => h.noSemicolon
  exact this semicolon (by simp [ts]) rfl

/-- Neither are commas between parameters needed, nor is something behind them. -/
example : parameters [word .PARENTHESIS_OPEN "(", printName "int".toList, printName "a".toList, word .COMMA ",", word .PARENTHESIS_CLOSE ")"] =
    parameters [word .PARENTHESIS_OPEN "(", printName "int".toList, printName "a".toList, word .PARENTHESIS_CLOSE ")"] := by rfl

/-- `V<A B>` is `V<A, B>`, and `V<A.B>` is a type with the three arguments `A`, `.` and `B`. -/
example : typeDeclaration [printName "V".toList, word .COMPARE_LESS "<", printName "A".toList, printName "B".toList, word .COMPARE_GREATER ">", semicolon] =
      .ok ⟨"V".toList, [⟨"A".toList, []⟩, ⟨"B".toList, []⟩], .modify⟩ [semicolon] ∧
    typeDeclaration [printName "V".toList, word .COMPARE_LESS "<", printName "A".toList, word .OPERATOR_SCOPE ".", printName "B".toList,
        word .COMPARE_GREATER ">", semicolon] =
      .ok ⟨"V".toList, [⟨"A".toList, []⟩, ⟨".".toList, []⟩, ⟨"B".toList, []⟩], .modify⟩ [semicolon] := ⟨rfl, rfl⟩

end Verif.Decl
