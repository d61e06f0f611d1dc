import Verif.Stmt.Print
import Verif.Expr.Props

/-!
# C99: methods are read as they are written
-/

namespace Verif.Stmt

open Verif.Str (Text)
open Verif.Lex (Tok Ty Cat)
open Verif.Types (TName)
open Verif.Expr (Env Sym Kind Res Expr Syn)

/-! ## C99 -/

theorem Names.parameters {w : Site} {ps : List (Text × Sym)} (hp : ∀ p ∈ ps, NotType w p.1) {s s' : St} (hn : Names w s)
    (h : parameters ps s = some s') : Names w s' := by
  induction ps generalizing s with
  | nil => cases h; exact hn
  | cons p ps ih =>
    obtain ⟨n, y⟩ := p
    have hps : ∀ p ∈ ps, NotType w p.1 := fun p h => hp p (List.mem_cons_of_mem _ h)
    unfold Stmt.parameters at h
    split at h
    · exact ih hps hn h
    · obtain ⟨s₁, h₁, h⟩ := Option.bind_eq_some_iff.1 h
      exact ih hps (hn.define (hp (n, y) List.mem_cons_self) h₁) h

/-- C99, part: a method whose tokens spell the statements `b` gets the syntax tree of `b`, or is rejected if `b` has none.  Missing:
an `else` behind a branch that ends with a semicolon (`else_after_semicolon_refuted`), `break` and `continue` in a loop whose body is
no block (`jump_in_bare_loop_refuted`), and names of types as names of variables, which makes `T e` ambiguous. -/
theorem method_read_partial {w : Site} {throws : Bool} {params : List (Text × Sym)} {b : List Src} {ts : List Tok}
    (hs : SpellsList w b ts) (hf : FitsList w b) (hp : ∀ p ∈ params, NotType w p.1) :
    method w throws params ts = Res.ofOption (elabMethod w throws params b) [] := by
  unfold method elabMethod
  cases hq : parameters params ⟨[[]], .normal, []⟩ with
  | none => rfl
  | some s =>
    have h0 : Names w ⟨[[]], .normal, []⟩ := by
      intro sc hsc p hp
      cases List.mem_singleton.1 hsc
      cases hp
    have hn := (Names.parameters hp h0 hq).enter
    simp only [Option.bind_some]
    rw [hs.reads hf (fuel ts) false s.enter (by unfold fuel; omega) hn]
    cases elabList w false s.enter b with
    | none => rfl
    | some q =>
      simp only [Res.ofOption, Expr.bind_ok, Option.bind_some]
      by_cases hc : complete w throws q.2.pop = true
      · simp only [hc, if_true]
      · simp only [hc]; rfl

/-- C99, part: every method that can be printed is read back. -/
theorem method_print_read_partial {w : Site} {throws : Bool} {params : List (Text × Sym)} {b : List Src} (hb : FineList b)
    (hf : FitsList w b) (hp : ∀ p ∈ params, NotType w p.1) :
    method w throws params (printList b) = Res.ofOption (elabMethod w throws params b) [] :=
  method_read_partial (printList_spells w b hb) hf hp

/-- C99: the tokens of a method determine its syntax tree. -/
theorem spelling_unambiguous {w : Site} {throws : Bool} {params : List (Text × Sym)} {b b' : List Src} {ts : List Tok}
    (hs : SpellsList w b ts) (hs' : SpellsList w b' ts) (hf : FitsList w b) (hf' : FitsList w b') (hp : ∀ p ∈ params, NotType w p.1) :
    elabMethod w throws params b = elabMethod w throws params b' := by
  have h := method_read_partial (throws := throws) hs hf hp
  rw [method_read_partial hs' hf' hp] at h
  cases h1 : elabMethod w throws params b <;> cases h2 : elabMethod w throws params b' <;> rw [h1, h2] at h <;> simp_all [Res.ofOption]

/-! ### Examples -/

/-- A method with the names of `Expr.sample` around it, that returns an integer. -/
def sampleSite : Site where
  env := Expr.sample
  atomic t := t = .b .int32 || t = .b .bool
  creatable t := t = .b .int32 || t = .b .bool
  iterates _ := true
  constCall _ := false
  result := .b .int32

def nm (s : String) : Syn := .name s.toList

def intDecl (n : String) : Decl := ⟨"int".toList, n.toList, none, none⟩

def set (n : String) (e : Syn) : Src := .simple (.expr (.assign n.toList .ASSIGN e))

/-- `int n = i; while (a) { if (b) { n = n + i; } else { break; } } for (int q = n; c; q++) { print(q); } try { throw n; }
catch (int e) { n = e; } finally { ; } foreach (int r : n) n = r; switch (n) { case i: { break; } default: { return n; } }
assert(a); return n;` -/
def sampleBody : List Src :=
  [.simple (.decl (intDecl "n") (some (nm "i"))),
   .while (nm "a") (.block [.ifElse (nm "b") (.block [set "n" (.bin .arith .MATH_ADDITION (nm "n") (nm "i"))]) (.block [.brk])]),
   .for (some (.decl (intDecl "q") (some (nm "n")))) (some (nm "c")) (some (.expr (.incdec "q".toList .OPERATOR_INCREMENT)))
     (.block [.print (nm "q")]),
   .try [.throw (some (nm "n"))] [(.catch (intDecl "e"), [set "n" (nm "e")]), (.fin, [.empty])],
   .foreach (intDecl "r") (nm "n") (set "n" (nm "r")),
   .switch (nm "n") [(some (nm "i"), [.brk]), (none, [.ret (some (nm "n"))])],
   .assert (nm "a") none,
   .ret (some (nm "n"))]

theorem notType_sample {n : Text} (h : n ≠ "int".toList) : NotType sampleSite n := by
  intro y hy
  simp only [sampleSite, Expr.sample] at hy
  repeat' split at hy
  all_goals first | (cases hy; decide) | exact absurd ‹_› h | cases hy

theorem sample_fine : FineList sampleBody := by
  simp only [sampleBody, FineList, FineStmt, FineSimple, FineDecl, Fine, FineOpt, FineOptSimple, FineCases, FineHandlers, headFine,
    Expr.WellFormed, set, nm, intDecl, Option.some.injEq, forall_eq', reduceCtorEq, false_implies, implies_true, and_true, true_and]
  decide

theorem sample_fits : FitsList sampleSite sampleBody := by
  simp only [sampleBody, FitsList, Fits, FitsCases, FitsHandlers, LoopBody, isBlock, free, closed, optNames, Simple.names, set, intDecl,
    List.mem_singleton, forall_eq, List.not_mem_nil, false_implies, implies_true, and_true, true_and, true_or, or_true]
  exact ⟨notType_sample (by decide), notType_sample (by decide), notType_sample (by decide), notType_sample (by decide)⟩

example : FineList sampleBody ∧ FitsList sampleSite sampleBody ∧ (elabMethod sampleSite true [("p".toList, Expr.intVar)] sampleBody).isSome ∧
    (∀ p ∈ [("p".toList, Expr.intVar)], NotType sampleSite p.1) ∧ (printList sampleBody).length > 80 := by
  refine ⟨sample_fine, sample_fits, by decide +kernel, ?_, by decide +kernel⟩
  simp only [List.mem_singleton, forall_eq]
  exact notType_sample (by decide)

/-- The rest of the method is read, and an error in it is noticed: `r` is not known behind the loop. -/
example : FineList (sampleBody ++ [set "n" (nm "r")]) ∧ elabMethod sampleSite true [] (sampleBody ++ [set "n" (nm "r")]) = none := by
  refine ⟨?_, by rfl⟩
  have h1 : FineList [set "n" (nm "r")] := by
    simp only [FineList, FineStmt, FineSimple, headFine, Fine, Expr.WellFormed, set, nm, and_true]; decide
  have : ∀ a b, FineList a → FineList b → FineList (a ++ b) := by
    intro a b ha hb
    induction a with
    | nil => exact hb
    | cons s a ih => exact ⟨ha.1, ih ha.2⟩
  exact this _ _ sample_fine h1

/-! ### What is not read -/

/-- `if (a) i = j; else i = k;` -/
def elseBody : List Src := [.ifElse (nm "a") (set "i" (nm "j")) (set "i" (nm "k")), .ret (some (nm "i"))]

/-- C99 does not hold: behind a branch that ends with a semicolon, `else` is an error. -/
theorem else_after_semicolon_refuted :
    ¬ ∀ (w : Site) (throws : Bool) (params : List (Text × Sym)) (b : List Src) (ts : List Tok), SpellsList w b ts →
      (∀ p ∈ params, NotType w p.1) → method w throws params ts = Res.ofOption (elabMethod w throws params b) [] := by
  intro h
  have hf : FineList elseBody := by
    simp only [elseBody, FineList, FineStmt, FineSimple, headFine, Fine, FineOpt, Expr.WellFormed, set, nm, endsIf, and_true, true_and,
      Option.some.injEq, forall_eq', implies_true]
    decide
  have h1 := h sampleSite false [] elseBody _ (printList_spells _ _ hf) (fun _ h => nomatch h)
  have h2 : method sampleSite false [] (printList elseBody) = .error := by rfl
  have h3 : (elabMethod sampleSite false [] elseBody).isSome = true := by decide +kernel
  rw [h2] at h1
  cases h4 : elabMethod sampleSite false [] elseBody with
  | none => rw [h4] at h3; cases h3
  | some x => rw [h4] at h1; cases h1

/-- `while (a) break;` -/
def bareLoop : List Src := [.while (nm "a") .brk, .ret (some (nm "i"))]

/-- C99 does not hold: `break` is an error in a loop whose body is no block. -/
theorem jump_in_bare_loop_refuted :
    ¬ ∀ (w : Site) (throws : Bool) (params : List (Text × Sym)) (b : List Src) (ts : List Tok), SpellsList w b ts →
      (∀ p ∈ params, NotType w p.1) → method w throws params ts = Res.ofOption (elabMethod w throws params b) [] := by
  intro h
  have hf : FineList bareLoop := by
    simp only [bareLoop, FineList, FineStmt, FineOpt, Expr.WellFormed, nm, and_true, Option.some.injEq, forall_eq']
  have h1 := h sampleSite false [] bareLoop _ (printList_spells _ _ hf) (fun _ h => nomatch h)
  have h2 : method sampleSite false [] (printList bareLoop) = .error := by rfl
  have h3 : (elabMethod sampleSite false [] bareLoop).isSome = true := by decide +kernel
  rw [h2] at h1
  cases h4 : elabMethod sampleSite false [] bareLoop with
  | none => rw [h4] at h3; cases h3
  | some x => rw [h4] at h1; cases h1

end Verif.Stmt
