import Verif.Whole.File
import Verif.Interp.Hangs

/-! # The syntax trees of a program -/

namespace Verif.Whole

open Verif.Str (Text)
open Verif.Lex (Tok Ty)
open Verif.Types (TName)
open Verif.Calc (Num Cond Val value truth synNum synCond Setting IsInt IsFlag)
open Verif.Stmt (Src Site St Node elabStmt elabList elabSimple typedAt find)
open Verif.Interp (Value Prog)
open Verif.Interp.Sim (Never EvalHangs)
open Verif.Interp.Spec (State Eval findBlock)

/-! ## Variables at run time -/

/-- A value of a variable. -/
def scalar : Scalar → Value Val
  | .int i => .atom (.int ⟨.w32, i⟩)
  | .bool b => .atom (.bool b)
  | .text t => .atom (.str t)

/-- A value of this type. -/
def Good : Kind → Scalar → Prop
  | .int, .int i => (Calc.inRange i).isSome
  | .bool, .bool _ => True
  | .string, .text _ => True
  | _, _ => False

/-- A block holds these variables. -/
def Holds (g : List (Text × Kind)) (v : List (Text × Scalar)) (b : AMap Interp.Name (Value Val)) : Prop :=
  ∀ n, (g.lookup n = none ∧ v.lookup n = none ∧ b.find (String.ofList n) = none) ∨
    ∃ k s, g.lookup n = some k ∧ v.lookup n = some s ∧ Good k s ∧ b.find (String.ofList n) = some (scalar s)

/-- All blocks do. -/
inductive Match : Ctx → Vars → List (AMap Interp.Name (Value Val)) → Prop where
  | nil : Match [] [] []
  | cons {g : List (Text × Kind)} {v : List (Text × Scalar)} {b : AMap Interp.Name (Value Val)} {Γ : Ctx} {vs : Vars}
      {bs : List (AMap Interp.Name (Value Val))} : Holds g v b → Match Γ vs bs → Match (g :: Γ) (v :: vs) (b :: bs)

theorem Match.find {Γ : Ctx} {vs : Vars} {bs : List (AMap Interp.Name (Value Val))} (h : Match Γ vs bs) {n : Text} {k : Kind}
    (hk : kind Γ n = some k) : ∃ s j, get vs n = some s ∧ Good k s ∧ findBlock (String.ofList n) bs = some (j, scalar s) := by
  induction h with
  | nil => cases hk
  | @cons g v b Γ vs bs hh _ ih =>
    simp only [kind, List.findSome?_cons] at hk
    rcases hh n with ⟨h1, h2, h3⟩ | ⟨k', s, h1, h2, h3, h4⟩
    · rw [h1] at hk
      obtain ⟨s, j, i1, i2, i3⟩ := ih hk
      exact ⟨s, j + 1, by simp only [get, List.findSome?_cons, h2]; exact i1, i2, by simp [findBlock, h3, i3]⟩
    · rw [h1] at hk
      cases hk
      exact ⟨s, 0, by simp only [get, List.findSome?_cons, h2], h3, by simp [findBlock, h4]⟩

/-- The values of the variables. -/
def store (bs : List (AMap Interp.Name (Value Val))) (n : Text) : Option Val :=
  match findBlock (String.ofList n) bs with
  | some (_, .atom v) => some v
  | _ => none

theorem isTrue_truthy (v : Val) : Interp.Spec.truthy prim (.atom v) = Calc.isTrue v := rfl

theorem opOfText_opTexts {op : Ty} {o : String} (h : opTexts.lookup op = some o) : opOfText o = some op := by
  have : ∀ p ∈ opTexts, opOfText p.2 = some p.1 := by decide
  have hm : (op, o) ∈ opTexts := by
    obtain ⟨l₁, l₂, h1, h2⟩ := List.lookup_eq_some_iff.1 h
    rw [h1]; simp
  exact this _ hm

theorem out_bind {o : Calc.Out} {f : Val → Calc.Out} {v : Val} (h : o.bind f = .ok v) : ∃ u, o = .ok u ∧ f u = .ok v := by
  cases o with
  | ok u => exact ⟨u, rfl, h⟩
  | _ => cases h

theorem locate_sym {σ : State Val} {n : Text} {v : Val} (h : store σ.blocks n = some v) :
    ∃ w, σ.locate ⟨String.ofList n, []⟩ = some (w, .atom v) := by
  simp only [store] at h
  split at h
  · rename_i k v' he
    cases h
    exact ⟨.loc k, by simp [State.locate, State.members, State.name, he]⟩
  · cases h

/-- An expression without `!&` and `!|`. -/
def tame : Expr.Expr → Bool
  | .unary _ _ e => tame e
  | .not _ e => tame e
  | .binary _ l r _ => tame l && tame r
  | .boolean op l r => decide (op ≠ .NAND ∧ op ≠ .NOR) && (tame l && tame r)
  | .ternary c a b => tame c && (tame a && tame b)
  | _ => true

/-- What `Verif.Calc` evaluates, the interpreter does. -/
theorem eval_expr (G : Prog Val) (σ : State Val) : ∀ {e : Expr.Expr} {x : Interp.Expr Val} {v : Val}, tame e = true → expr e = some x →
    Calc.eval (store σ.blocks) e = .ok v → Eval prim G Never σ x (.val (.atom v)) σ
  | .lit l, x, v, ht, hx, he => by
    simp only [expr, Option.map_eq_some_iff] at hx
    obtain ⟨a, hx, rfl⟩ := hx
    simp only [Calc.eval] at he
    have : a = v := by
      cases l <;> simp_all [literal, Calc.literal]
    subst this
    exact .lit
  | .sym n y, x, v, ht, hx, he => by
    simp only [expr, Option.some.injEq] at hx
    subst hx
    simp only [Calc.eval] at he
    split at he
    · rename_i u hu
      cases he
      obtain ⟨w, hw⟩ := locate_sym hu
      exact .sym hw
    · cases he
  | .unary op false e, x, v, ht, hx, he => by
    simp only [expr, Option.bind_eq_some_iff, Option.map_eq_some_iff] at hx
    obtain ⟨o, ho, y, hy, rfl⟩ := hx
    obtain ⟨u, h1, h2⟩ := out_bind he
    exact .unary (eval_expr G σ (by simp_all [tame]) hy h1) (by simp [prim, opOfText_opTexts ho, h2, result])
  | .not _ e, x, v, ht, hx, he => by
    simp only [expr, Option.map_eq_some_iff] at hx
    obtain ⟨y, hy, rfl⟩ := hx
    obtain ⟨u, h1, h2⟩ := out_bind he
    have : opOfText "!" = some .OPERATOR_NOT := by decide
    exact .unary (eval_expr G σ (by simp_all [tame]) hy h1) (by simp [prim, this, h2, result])
  | .binary op l r t, x, v, ht, hx, he => by
    simp only [expr, Option.bind_eq_some_iff, Option.map_eq_some_iff] at hx
    obtain ⟨o, ho, y, hy, z, hz, rfl⟩ := hx
    obtain ⟨u, h1, he⟩ := out_bind he
    obtain ⟨u', h2, he⟩ := out_bind he
    exact .binary (eval_expr G σ (by simp_all [tame]) hy h1) (eval_expr G σ (by simp_all [tame]) hz h2) (by simp [prim, opOfText_opTexts ho, he, result])
  | .ternary c a b, x, v, ht, hx, he => by
    simp only [expr, Option.bind_eq_some_iff, Option.map_eq_some_iff] at hx
    obtain ⟨y, hy, z, hz, u, hu, rfl⟩ := hx
    obtain ⟨w, h1, he⟩ := out_bind he
    cases hw : Calc.isTrue w with
    | true =>
      simp only [hw, if_true] at he
      exact .ternaryT (eval_expr G σ (by simp_all [tame]) hy h1) hw (eval_expr G σ (by simp_all [tame]) hz he)
    | false =>
      simp only [hw] at he
      exact .ternaryF (eval_expr G σ (by simp_all [tame]) hy h1) hw (eval_expr G σ (by simp_all [tame]) hu he)
  | .boolean op l r, x, v, ht, hx, he => by
    simp only [expr] at hx
    obtain ⟨a, h1, he⟩ := out_bind he
    split at hx
    · rename_i c hc
      simp only [Option.bind_eq_some_iff, Option.map_eq_some_iff] at hx
      obtain ⟨y, hy, z, hz, rfl⟩ := hx
      have hn : Calc.early op (Calc.isTrue a) = none := by
        cases op <;> first | rfl | cases hc
      rw [hn] at he
      obtain ⟨b, h2, he⟩ := out_bind he
      have hl : Calc.late op a b = Calc.compare op a b := by
        cases op <;> first | rfl | cases hc
      rw [hl] at he
      have hop : cmpTy c = op := by
        cases op <;> first | cases hc <;> rfl | cases hc
      have hb : ∃ d, v = .bool d := by
        cases a <;> cases b <;> cases op <;> simp [Calc.compare, Calc.compareText] at he <;> exact ⟨_, he.symm⟩
      obtain ⟨d, rfl⟩ := hb
      refine .compare (b := d) (eval_expr G σ (by simp_all [tame]) hy h1) (eval_expr G σ (by simp_all [tame]) hz h2) (.prim nofun ?_)
      simp only [prim, comparison, hop, he]
    · rename_i hc
      simp only [Option.bind_eq_some_iff, Option.map_eq_some_iff] at hx
      obtain ⟨o, ho, y, hy, z, hz, rfl⟩ := hx
      have hop : op ≠ .NAND ∧ op ≠ .NOR := by simp [tame] at ht; exact ht.1
      have ho : (op = .AND ∧ o = .and) ∨ (op = .OR ∧ o = .or) := by
        cases op <;> first | cases ho <;> simp_all | cases ho
      rcases ho with ⟨rfl, rfl⟩ | ⟨rfl, rfl⟩
      · cases hb : Calc.isTrue a with
        | false =>
          have : Calc.early .AND false = some false := rfl
          rw [hb, this] at he
          cases he
          exact .boolShort (eval_expr G σ (by simp_all [tame]) hy h1) (fun x => by rw [isTrue_truthy, hb]; rfl)
        | true =>
          have : Calc.early .AND true = none := rfl
          rw [hb, this] at he
          obtain ⟨b, h2, he⟩ := out_bind he
          cases he
          have := Eval.bool (P := prim) (G := G) (U := Never) (op := .and) (eval_expr G σ (by simp_all [tame]) hy h1)
            (by rw [isTrue_truthy, hb]; decide) (eval_expr G σ (by simp_all [tame]) hz h2) nofun nofun
          exact this
      · cases hb : Calc.isTrue a with
        | true =>
          have : Calc.early .OR true = some true := rfl
          rw [hb, this] at he
          cases he
          exact .boolShort (eval_expr G σ (by simp_all [tame]) hy h1) (fun x => by rw [isTrue_truthy, hb]; rfl)
        | false =>
          have : Calc.early .OR false = none := rfl
          rw [hb, this] at he
          obtain ⟨b, h2, he⟩ := out_bind he
          cases he
          have := Eval.bool (P := prim) (G := G) (U := Never) (op := .or) (eval_expr G σ (by simp_all [tame]) hy h1)
            (by rw [isTrue_truthy, hb]; decide) (eval_expr G σ (by simp_all [tame]) hz h2) nofun nofun
          exact this
  | .unary _ true _, _, _, _, _, he => by simp [Calc.eval] at he
  | .call _ _ _, _, _, _, _, he => by simp [Calc.eval] at he
  | .assign _ _ _ _, _, _, _, _, he => by simp [Calc.eval] at he
  | .opCall _ _ _ _, _, _, _, _, he => by simp [Calc.eval] at he
  | .cast _ _, _, _, _, _, he => by simp [Calc.eval] at he
  | .is _ _, _, _, _, _, he => by simp [Calc.eval] at he
  | .validate _, _, _, _, _, he => by simp [Calc.eval] at he

theorem out_undefined {o : Calc.Out} {f : Val → Calc.Out} (h : o.bind f = .undefined) : o = .undefined ∨ ∃ u, o = .ok u ∧ f u = .undefined := by
  cases o with
  | ok u => exact .inr ⟨u, rfl, h⟩
  | undefined => exact .inl rfl
  | _ => cases h

/-- Where `Verif.Calc` finds no value, the interpreter fails. -/
theorem eval_fails (G : Prog Val) (σ : State Val) (k : Nat) : ∀ {e : Expr.Expr} {x : Interp.Expr Val}, tame e = true → expr e = some x →
    Calc.eval (store σ.blocks) e = .undefined → EvalHangs prim G true k σ x
  | .lit l, x, ht, hx, he => by
    simp only [Calc.eval] at he
    cases l <;> simp [Calc.literal] at he
  | .sym n y, x, ht, hx, he => by
    simp only [Calc.eval] at he
    split at he <;> cases he
  | .unary op false e, x, ht, hx, he => by
    simp only [expr, Option.bind_eq_some_iff, Option.map_eq_some_iff] at hx
    obtain ⟨o, ho, y, hy, rfl⟩ := hx
    rcases out_undefined he with h1 | ⟨u, h1, h2⟩
    · exact Interp.Sim.hangs_unary (eval_fails G σ k (by simp_all [tame]) hy h1)
    · exact Interp.Sim.hangs_unaryFail (Interp.Sim.eval_refines (eval_expr G σ (by simp_all [tame]) hy h1))
        (by simp [prim, opOfText_opTexts ho, h2, result])
  | .not _ e, x, ht, hx, he => by
    simp only [expr, Option.map_eq_some_iff] at hx
    obtain ⟨y, hy, rfl⟩ := hx
    have : opOfText "!" = some .OPERATOR_NOT := by decide
    rcases out_undefined he with h1 | ⟨u, h1, h2⟩
    · exact Interp.Sim.hangs_unary (eval_fails G σ k (by simp_all [tame]) hy h1)
    · exact Interp.Sim.hangs_unaryFail (Interp.Sim.eval_refines (eval_expr G σ (by simp_all [tame]) hy h1))
        (by simp [prim, this, h2, result])
  | .binary op l r t, x, ht, hx, he => by
    simp only [expr, Option.bind_eq_some_iff, Option.map_eq_some_iff] at hx
    obtain ⟨o, ho, y, hy, z, hz, rfl⟩ := hx
    rcases out_undefined he with h1 | ⟨u, h1, he⟩
    · exact Interp.Sim.hangs_binaryL (eval_fails G σ k (by simp_all [tame]) hy h1)
    have hl := Interp.Sim.eval_refines (eval_expr G σ (by simp_all [tame]) hy h1)
    rcases out_undefined he with h2 | ⟨u', h2, he⟩
    · exact Interp.Sim.hangs_binaryR hl (eval_fails G σ k (by simp_all [tame]) hz h2)
    · exact Interp.Sim.hangs_binaryFail hl (Interp.Sim.eval_refines (eval_expr G σ (by simp_all [tame]) hz h2))
        (by simp [prim, opOfText_opTexts ho, he, result])
  | .ternary c a b, x, ht, hx, he => by
    simp only [expr, Option.bind_eq_some_iff, Option.map_eq_some_iff] at hx
    obtain ⟨y, hy, z, hz, u, hu, rfl⟩ := hx
    rcases out_undefined he with h1 | ⟨w, h1, he⟩
    · exact Interp.Sim.hangs_ternary (eval_fails G σ k (by simp_all [tame]) hy h1)
    have hl := Interp.Sim.eval_refines (eval_expr G σ (by simp_all [tame]) hy h1)
    cases hw : Calc.isTrue w with
    | true =>
      simp only [hw, if_true] at he
      exact Interp.Sim.hangs_ternaryT hl hw (eval_fails G σ k (by simp_all [tame]) hz he)
    | false =>
      simp only [hw] at he
      exact Interp.Sim.hangs_ternaryF hl hw (eval_fails G σ k (by simp_all [tame]) hu he)
  | .boolean op l r, x, ht, hx, he => by
    simp only [expr] at hx
    rcases out_undefined he with h1 | ⟨a, h1, he⟩
    · split at hx
      · simp only [Option.bind_eq_some_iff, Option.map_eq_some_iff] at hx
        obtain ⟨y, hy, z, hz, rfl⟩ := hx
        exact Interp.Sim.hangs_compareL (eval_fails G σ k (by simp_all [tame]) hy h1)
      · simp only [Option.bind_eq_some_iff, Option.map_eq_some_iff] at hx
        obtain ⟨o, ho, y, hy, z, hz, rfl⟩ := hx
        exact Interp.Sim.hangs_boolL (eval_fails G σ k (by simp_all [tame]) hy h1)
    split at he
    · cases he
    · rename_i hn
      have hr : Calc.eval (store σ.blocks) r = .undefined := by
        rcases out_undefined he with h2 | ⟨b, -, he⟩
        · exact h2
        · cases op <;> simp [Calc.late] at he <;> cases a <;> cases b <;> simp [Calc.compare, Calc.compareText] at he
      split at hx
      · simp only [Option.bind_eq_some_iff, Option.map_eq_some_iff] at hx
        obtain ⟨y, hy, z, hz, rfl⟩ := hx
        exact Interp.Sim.hangs_compareR (Interp.Sim.eval_refines (eval_expr G σ (by simp_all [tame]) hy h1))
          (eval_fails G σ k (by simp_all [tame]) hz hr)
      · simp only [Option.bind_eq_some_iff, Option.map_eq_some_iff] at hx
        obtain ⟨o, ho, y, hy, z, hz, rfl⟩ := hx
        have hop : op ≠ .NAND ∧ op ≠ .NOR := by simp [tame] at ht; exact ht.1
        have ho : (op = .AND ∧ o = .and) ∨ (op = .OR ∧ o = .or) := by
          cases op <;> first | cases ho <;> simp_all | cases ho
        refine Interp.Sim.hangs_boolR (Interp.Sim.eval_refines (eval_expr G σ (by simp_all [tame]) hy h1)) ?_
          (eval_fails G σ k (by simp_all [tame]) hz hr)
        show Interp.BoolOp.short o (Calc.isTrue a) = none
        rcases ho with ⟨rfl, rfl⟩ | ⟨rfl, rfl⟩ <;> cases hb : Calc.isTrue a <;> rw [hb] at hn <;> first | rfl | cases hn
  | .unary _ true _, _, _, _, he => by simp [Calc.eval] at he
  | .call _ _ _, _, _, _, he => by simp [Calc.eval] at he
  | .assign _ _ _ _, _, _, _, he => by simp [Calc.eval] at he
  | .opCall _ _ _ _, _, _, _, he => by simp [Calc.eval] at he
  | .cast _ _, _, _, _, he => by simp [Calc.eval] at he
  | .is _ _, _, _, _, he => by simp [Calc.eval] at he
  | .validate _, _, _, _, he => by simp [Calc.eval] at he

/-! ## Trees -/

/-- No class has methods. -/
def Classless (env : Expr.Env) : Prop := ∀ t f args, env.classMethod t f args = none

theorem no_operator {env : Expr.Env} (h : Classless env) (o : Expr.Expr) (op : Ty) (args : List Expr.Expr) :
    Expr.callOperator env o op args = none := by
  rw [Expr.callOperator, h]

theorem num_expr {env : Expr.Env} (hc : Classless env) : ∀ {a : Num} {e : Expr.Expr}, (∀ k ∈ a.nums, k < 2 ^ 31) →
    Expr.typed env (synNum a) = some e → tame e = true ∧ ∃ x, expr e = some x
  | .num k, e, hk, h => by
    have hk := hk k (by simp [Num.nums])
    have : Expr.literal .CONST_INTEGER (Str.natDigits k) = some (.int32 k) := by
      simp only [Expr.literal]
      rw [Expr.stringToInt_digits (Str.natDigits_isDigit k) (Str.natDigits_ne_nil k), Str.digitsVal_natDigits]
      have : Str.clamp64 k = k := by unfold Str.clamp64; omega
      rw [this, if_pos (by omega)]
    simp only [synNum, Expr.typed, this, Option.map_some, Option.some.injEq] at h
    subst h
    exact ⟨rfl, _, rfl⟩
  | .var n, e, _, h => by
    simp only [synNum, Expr.typed, Option.map_eq_some_iff] at h
    obtain ⟨y, -, rfl⟩ := h
    exact ⟨rfl, _, rfl⟩
  | .neg a, e, hk, h => by
    simp only [synNum, Expr.typed, Option.bind_eq_some_iff] at h
    obtain ⟨y, hy, h⟩ := h
    obtain ⟨i1, x, i2⟩ := num_expr hc (fun k h => hk k (by simpa [Num.nums] using h)) hy
    simp only [Expr.buildPrefix, reduceCtorEq, if_false] at h
    split at h
    · cases h
      have ho : opTexts.lookup .MATH_SUBTRACT = some "-" := rfl
      exact ⟨i1, .unary "-" x, by simp [expr, i2, ho]⟩
    · cases h
  | .bin op a b, e, hk, h => by
    simp only [synNum, Expr.typed, Option.bind_eq_some_iff] at h
    obtain ⟨y, hy, z, hz, h⟩ := h
    obtain ⟨i1, x, i2⟩ := num_expr hc (fun k h => hk k (by simp [Num.nums, h])) hy
    obtain ⟨j1, w, j2⟩ := num_expr hc (fun k h => hk k (by simp [Num.nums, h])) hz
    have hb : Expr.build env (Calc.opLvl op) (Calc.opTy op) y z = Expr.buildArith env (Calc.opTy op) y z := by cases op <;> rfl
    rw [hb] at h
    simp only [Expr.buildArith, no_operator hc] at h
    split at h
    · cases h
    · split at h
      · cases h
        obtain ⟨o, ho⟩ : ∃ o, opTexts.lookup (Calc.opTy op) = some o := by cases op <;> exact ⟨_, rfl⟩
        exact ⟨by simp [tame, i1, j1], .binary o x w, by simp [expr, i2, j2, ho]⟩
      · split at h <;> cases h

theorem cond_expr {env : Expr.Env} (hc : Classless env) : ∀ {c : Cond} {e : Expr.Expr}, (∀ k ∈ c.nums, k < 2 ^ 31) →
    Expr.typed env (synCond c) = some e → tame e = true ∧ ∃ x, expr e = some x
  | .flag n, e, _, h => by
    simp only [synCond, Expr.typed, Option.map_eq_some_iff] at h
    obtain ⟨y, -, rfl⟩ := h
    exact ⟨rfl, _, rfl⟩
  | .const b, e, _, h => by
    simp only [synCond, Expr.typed, Option.map_eq_some_iff] at h
    obtain ⟨y, hy, rfl⟩ := h
    cases hy
    exact ⟨rfl, _, rfl⟩
  | .cmp r a b, e, hk, h => by
    simp only [synCond, Expr.typed, Option.bind_eq_some_iff] at h
    obtain ⟨y, hy, z, hz, h⟩ := h
    obtain ⟨i1, x, i2⟩ := num_expr hc (fun k h => hk k (by simp [Cond.nums, h])) hy
    obtain ⟨j1, w, j2⟩ := num_expr hc (fun k h => hk k (by simp [Cond.nums, h])) hz
    simp only [Expr.build, Expr.buildCondition, Expr.buildCompare, hc _ _ _] at h
    split at h
    · cases h
    · split at h
      · cases h
      · cases r <;> simp [Calc.relTy, Calc.relTok, Calc.tok, Expr.compareOp] at h <;> subst h <;>
          simp [tame, expr, i1, i2, j1, j2, cmpOf]
  | .not c, e, hk, h => by
    simp only [synCond, Expr.typed, Option.bind_eq_some_iff] at h
    obtain ⟨y, hy, h⟩ := h
    obtain ⟨i1, x, i2⟩ := cond_expr hc (fun k h => hk k (by simpa [Cond.nums] using h)) hy
    simp only [Expr.buildPrefix, if_true, Option.some.injEq] at h
    subst h
    exact ⟨i1, .unary "!" x, by simp [expr, i2]⟩
  | .and c d, e, hk, h => by
    simp only [synCond, Expr.typed, Option.bind_eq_some_iff] at h
    obtain ⟨y, hy, z, hz, h⟩ := h
    obtain ⟨i1, x, i2⟩ := cond_expr hc (fun k h => hk k (by simp [Cond.nums, h])) hy
    obtain ⟨j1, w, j2⟩ := cond_expr hc (fun k h => hk k (by simp [Cond.nums, h])) hz
    simp only [Expr.build, Option.some.injEq] at h
    subst h
    exact ⟨by simp [tame, i1, j1], .bool .and x w, by simp [expr, i2, j2, cmpOf, boolOf]⟩
  | .or c d, e, hk, h => by
    simp only [synCond, Expr.typed, Option.bind_eq_some_iff] at h
    obtain ⟨y, hy, z, hz, h⟩ := h
    obtain ⟨i1, x, i2⟩ := cond_expr hc (fun k h => hk k (by simp [Cond.nums, h])) hy
    obtain ⟨j1, w, j2⟩ := cond_expr hc (fun k h => hk k (by simp [Cond.nums, h])) hz
    simp only [Expr.build, Option.some.injEq] at h
    subst h
    exact ⟨by simp [tame, i1, j1], .bool .or x w, by simp [expr, i2, j2, cmpOf, boolOf]⟩

/-- The type of a variable. -/
def Kind.ty : Kind → TName
  | .int => .b .int32
  | .bool => .b .bool
  | .string => .b .string

/-- The parser knows these variables, and no others that are not usable. -/
structure Known (Γ : Ctx) (scopes : List (List (Text × Expr.Sym))) : Prop where
  vars : ∀ n k, kind Γ n = some k → find scopes n = some ⟨.var, k.ty, true, false⟩
  head : ∀ g Γ', Γ = g :: Γ' → ∃ h t, scopes = h :: t ∧ ∀ n, g.lookup n = none → h.lookup n = none
  usable : ∀ n y, find scopes n = some y → Usable n

theorem Known.push {Γ : Ctx} {scopes : List (List (Text × Expr.Sym))} (h : Known Γ scopes) : Known ([] :: Γ) ([] :: scopes) :=
  ⟨h.vars, fun _ _ e => by cases e; exact ⟨[], scopes, rfl, fun _ _ => rfl⟩, h.usable⟩

/-- The expression computes the number, and fails if there is none. -/
structure NumCode (Γ : Ctx) (a : Num) (x : Interp.Expr Val) : Prop where
  ok : ∀ G σ vs i, Match Γ vs σ.blocks → value (ints vs) a = some i →
    Eval prim G Never σ x (.val (scalar (.int i))) σ ∧ (Calc.inRange i).isSome
  bad : ∀ G σ vs k, Match Γ vs σ.blocks → value (ints vs) a = none → EvalHangs prim G true k σ x

/-- The expression computes the truth value, and fails if there is none. -/
structure CondCode (Γ : Ctx) (c : Cond) (x : Interp.Expr Val) : Prop where
  ok : ∀ G σ vs b, Match Γ vs σ.blocks → truth (ints vs) (flags vs) c = some b → Eval prim G Never σ x (.val (scalar (.bool b))) σ
  bad : ∀ G σ vs k, Match Γ vs σ.blocks → truth (ints vs) (flags vs) c = none → EvalHangs prim G true k σ x

theorem site_setting (hs : List Header) (h : Header) (s : St) : Setting ((site hs h).at s) :=
  ⟨⟨[], nofun, by simp [Site.at, site, env, Types.initTypes]⟩, by
    show isType (.b .int32) = true
    decide, fun _ _ => rfl⟩

theorem site_classless (hs : List Header) (h : Header) (s : St) : Classless ((site hs h).at s) := fun _ _ _ => rfl

theorem known_lookup {hs : List Header} {h : Header} {Γ : Ctx} {s : St} (hk : Known Γ s.scopes) {n : Text} {k : Kind}
    (hn : kind Γ n = some k) : ((site hs h).at s).lookup n = some ⟨.var, k.ty, true, false⟩ := by
  simp [Site.at, hk.vars n k hn]

theorem match_int {hs : List Header} {h : Header} {Γ : Ctx} {s : St} (hk : Known Γ s.scopes) {vs : Vars}
    {bs : List (AMap Interp.Name (Value Val))} (hm : Match Γ vs bs) {n : Text} (hn : kind Γ n = some .int) :
    IsInt ((site hs h).at s) (store bs) (ints vs) n := by
  obtain ⟨v, j, h1, h2, h3⟩ := hm.find hn
  cases v with
  | int i =>
    exact ⟨⟨false, known_lookup hk hn⟩, by simp [store, h3, scalar, ints, h1], by simpa [ints, h1, Good] using h2⟩
  | bool b => cases h2
  | text t => cases h2

theorem match_flag {hs : List Header} {h : Header} {Γ : Ctx} {s : St} (hk : Known Γ s.scopes) {vs : Vars}
    {bs : List (AMap Interp.Name (Value Val))} (hm : Match Γ vs bs) {n : Text} (hn : kind Γ n = some .bool) :
    IsFlag ((site hs h).at s) (store bs) (flags vs) n := by
  obtain ⟨v, j, h1, h2, h3⟩ := hm.find hn
  cases v with
  | bool b => exact ⟨⟨false, known_lookup hk hn⟩, by simp [store, h3, scalar, flags, h1]⟩
  | int b => cases h2
  | text t => cases h2

/-- The value of a variable for a text. -/
theorem match_text {Γ : Ctx} {vs : Vars} {bs : List (AMap Interp.Name (Value Val))} (hm : Match Γ vs bs) {n : Text}
    (hn : kind Γ n = some .string) : store bs n = some (.str (texts vs n)) := by
  obtain ⟨v, j, h1, h2, h3⟩ := hm.find hn
  cases v with
  | text t => simp [store, h3, scalar, texts, h1]
  | int i => cases h2
  | bool b => cases h2

theorem num_tree {hs : List Header} {h : Header} {Γ : Ctx} {s : St} (hk : Known Γ s.scopes) {a : Num} (hf : NumFits Γ a) :
    ∃ e x, typedAt (site hs h) s (synNum a) = some e ∧ e.ty = .b .int32 ∧ expr e = some x ∧ NumCode Γ a x := by
  obtain ⟨e, h1, h2, -⟩ := Calc.num_eval (store := fun _ => some (.int ⟨.w32, 0⟩)) (σ := fun _ => 0) (site_setting hs h s) a
    (fun n hn => ⟨⟨false, known_lookup hk (hf.1 n hn)⟩, rfl, rfl⟩) hf.2
  obtain ⟨ht, x, hx⟩ := num_expr (site_classless hs h s) hf.2 h1
  have heval : ∀ (σ : State Val) vs, Match Γ vs σ.blocks → Calc.eval (store σ.blocks) e = Calc.numOut (value (ints vs) a) := by
    intro σ vs hm
    obtain ⟨e', h1', -, -, h3⟩ := Calc.num_eval (store := store σ.blocks) (σ := ints vs) (site_setting hs h s) a
      (fun n hn => match_int hk hm (hf.1 n hn)) hf.2
    rw [h1] at h1'
    cases h1'
    exact h3
  refine ⟨e, x, h1, h2, hx, fun G σ vs i hm hv => ?_, fun G σ vs k hm hv => eval_fails G σ k ht hx (by rw [heval σ vs hm, hv]; rfl)⟩
  refine ⟨eval_expr G σ ht hx (by rw [heval σ vs hm, hv]; rfl), ?_⟩
  have := Calc.value_range (env := (site hs h).at s) (store := store σ.blocks) (fun n hn => match_int hk hm (hf.1 n hn)) hf.2 i hv
  rw [Calc.inRange_iff.2 ⟨rfl, this⟩]
  rfl

theorem cond_tree {hs : List Header} {h : Header} {Γ : Ctx} {s : St} (hk : Known Γ s.scopes) {c : Cond} (hf : CondFits Γ c) :
    ∃ e x, typedAt (site hs h) s (synCond c) = some e ∧ e.ty = .b .bool ∧ expr e = some x ∧ CondCode Γ c x := by
  obtain ⟨hi, hb, hn⟩ := hf
  let st : Text → Option Val := fun n => if kind Γ n = some .int then some (.int ⟨.w32, 0⟩) else some (.bool false)
  obtain ⟨e, h1, h2, -⟩ := Calc.cond_eval (store := st) (σ := fun _ => 0) (φ := fun _ => false) (site_setting hs h s) c
    (fun n h => ⟨⟨false, known_lookup hk (hi n h)⟩, by simp [st, hi n h], rfl⟩)
    (fun n h => ⟨⟨false, known_lookup hk (hb n h)⟩, by simp [st, hb n h]⟩) hn
  obtain ⟨ht, x, hx⟩ := cond_expr (site_classless hs h s) hn h1
  have heval : ∀ (σ : State Val) vs, Match Γ vs σ.blocks → Calc.eval (store σ.blocks) e = Calc.condOut (truth (ints vs) (flags vs) c) := by
    intro σ vs hm
    obtain ⟨e', h1', -, h3⟩ := Calc.cond_eval (store := store σ.blocks) (σ := ints vs) (φ := flags vs) (site_setting hs h s) c
      (fun n h => match_int hk hm (hi n h)) (fun n h => match_flag hk hm (hb n h)) hn
    rw [h1] at h1'
    cases h1'
    exact h3
  exact ⟨e, x, h1, h2, hx, fun G σ vs b hm hv => eval_expr G σ ht hx (by rw [heval σ vs hm, hv]; rfl),
    fun G σ vs k hm hv => eval_fails G σ k ht hx (by rw [heval σ vs hm, hv]; rfl)⟩

/-- The expression computes the text, and fails if there is none. -/
structure TextCode (Γ : Ctx) (T : Vars → Option Text) (x : Interp.Expr Val) : Prop where
  ok : ∀ G σ vs u, Match Γ vs σ.blocks → T vs = some u → Eval prim G Never σ x (.val (.atom (.str u))) σ
  bad : ∀ G σ vs k, Match Γ vs σ.blocks → T vs = none → EvalHangs prim G true k σ x

theorem plus_type {env : Expr.Env} (hs : Setting env) : ∀ t ∈ [Types.BT.int32, .bool, .string],
    Expr.typeOf env (.b .string) .MATH_ADDITION (.b t) = some (.b .string) := by
  intro t ht
  simp only [List.mem_cons, List.not_mem_nil, or_false] at ht
  simp only [Expr.typeOf, Expr.opOf]
  rcases ht with rfl | rfl | rfl <;> rw [Calc.table_type hs (t := .string) (by decide +kernel)]

/-- A text and one more part. -/
theorem plus_tree {hs : List Header} {h : Header} {s : St} {a b : Expr.Syn} {e f : Expr.Expr} (he : typedAt (site hs h) s a = some e)
    (hty : e.ty = .b .string) (hn : e.isSym = true → e.atomicSym = true) (hf : typedAt (site hs h) s b = some f) (hft : f.ty ∈ [TName.b .int32, .b .bool, .b .string]) :
    typedAt (site hs h) s (.bin .arith .MATH_ADDITION a b) = some (.binary .MATH_ADDITION e f (.b .string)) := by
  have : Expr.typeOf ((site hs h).at s) e.ty .MATH_ADDITION f.ty = some (.b .string) := by
    rw [hty]
    simp only [List.mem_cons, List.not_mem_nil, or_false] at hft
    rcases hft with e | e | e <;> (rw [e]; exact plus_type (site_setting hs h s) _ (by simp))
  simp only [typedAt] at he hf ⊢
  simp [Expr.typed, he, hf, Expr.build, Expr.buildArith, this]
  exact fun h1 h2 => by rw [hn h1] at h2; cases h2

theorem opOfText_plus : opOfText "+" = some .MATH_ADDITION := by decide

/-- What is printed, part by part. -/
theorem parts_tree {hs : List Header} {h : Header} {Γ : Ctx} {s : St} (hk : Known Γ s.scopes) : ∀ (ps : List Part),
    (∀ x ∈ ps, PartFits Γ x) → ∀ {a : Expr.Syn} {e : Expr.Expr} {x : Interp.Expr Val} {T : Vars → Option Text},
      typedAt (site hs h) s a = some e → e.ty = .b .string → (e.isSym = true → e.atomicSym = true) → expr e = some x → TextCode Γ T x →
      ∃ e' x', typedAt (site hs h) s (ps.foldl (fun s x => .bin .arith .MATH_ADDITION s (synPart x)) a) = some e' ∧
        e'.ty = .b .string ∧ expr e' = some x' ∧
        TextCode Γ (fun vs => ps.foldl (fun acc x => acc.bind fun u => (x.text? vs).map (u ++ ·)) (T vs)) x'
  | [], _, a, e, x, T, h1, h2, _, h4, h5 => ⟨e, x, h1, h2, h4, h5⟩
  | p :: ps, hp, a, e, x, T, h1, h2, h3, h4, h5 => by
    obtain ⟨f, y, j1, j2, j3, j4, j5⟩ : ∃ f y, typedAt (site hs h) s (synPart p) = some f ∧ f.ty ∈ [TName.b .int32, .b .bool, .b .string] ∧
        expr f = some y ∧
        (∀ G σ vs w, Match Γ vs σ.blocks → p.text? vs = some w →
          ∃ v : Val, v.text = w ∧ Eval prim G Never σ y (.val (.atom v)) σ) ∧
        ∀ G σ vs k, Match Γ vs σ.blocks → p.text? vs = none → EvalHangs prim G true k σ y := by
      cases p with
      | num a =>
        obtain ⟨f, y, i1, i2, i3, i4⟩ := num_tree (hs := hs) (h := h) hk (hp _ List.mem_cons_self)
        refine ⟨f, y, i1, by simp [i2], i3, ?_, ?_⟩
        · intro G σ vs w hm hw
          simp only [Part.text?, Option.map_eq_some_iff] at hw
          obtain ⟨i, hi, rfl⟩ := hw
          exact ⟨.int ⟨.w32, i⟩, rfl, (i4.ok G σ vs i hm hi).1⟩
        · intro G σ vs k hm hw
          simp only [Part.text?, Option.map_eq_none_iff] at hw
          exact i4.bad G σ vs k hm hw
      | truth c =>
        obtain ⟨f, y, i1, i2, i3, i4⟩ := cond_tree (hs := hs) (h := h) hk (hp _ List.mem_cons_self)
        refine ⟨f, y, i1, by simp [i2], i3, ?_, ?_⟩
        · intro G σ vs w hm hw
          simp only [Part.text?, Option.map_eq_some_iff] at hw
          obtain ⟨i, hi, rfl⟩ := hw
          exact ⟨.bool i, rfl, i4.ok G σ vs i hm hi⟩
        · intro G σ vs k hm hw
          simp only [Part.text?, Option.map_eq_none_iff] at hw
          exact i4.bad G σ vs k hm hw
      | text t =>
        refine ⟨.lit (.string t), .lit (.str t), rfl, by simp [Expr.Expr.ty, Expr.Lit.ty], rfl, ?_, ?_⟩
        · intro G σ vs w hm hw
          cases hw
          exact ⟨.str t, rfl, .lit⟩
        · intro G σ vs k hm hw
          cases hw
      | var n =>
        obtain ⟨x, hx⟩ : ∃ x, expr (.sym n ⟨.var, .b .string, true, false⟩) = some x := ⟨_, rfl⟩
        refine ⟨.sym n ⟨.var, .b .string, true, false⟩, x, ?_, by simp [Expr.Expr.ty], hx, ?_, ?_⟩
        · have := known_lookup (hs := hs) (h := h) hk (hp (.var n) List.mem_cons_self)
          simp [typedAt, synPart, Calc.synNum, Expr.typed, this, Kind.ty]
        · intro G σ vs w hm hw
          cases hw
          exact ⟨.str (texts vs n), rfl, eval_expr G σ rfl hx (by simp [Calc.eval, match_text hm (hp (.var n) List.mem_cons_self)])⟩
        · intro G σ vs k hm hw
          cases hw
    refine parts_tree hk ps (fun q hq => hp q (List.mem_cons_of_mem _ hq)) (T := fun vs => (T vs).bind fun u => (p.text? vs).map (u ++ ·))
      (plus_tree h1 h2 h3 j1 j2) rfl nofun (x := .binary "+" x y) (by simp [expr, show opTexts.lookup .MATH_ADDITION = some "+" from rfl, h4, j3]) ⟨?_, ?_⟩
    · intro G σ vs u hm hu
      simp only [Option.bind_eq_some_iff, Option.map_eq_some_iff] at hu
      obtain ⟨t, ht, w, hw, rfl⟩ := hu
      obtain ⟨v, rfl, hv⟩ := j4 G σ vs w hm hw
      exact .binary (h5.ok G σ vs t hm ht) hv (by simp [prim, opOfText_plus, Calc.binary, result])
    · intro G σ vs k hm hu
      simp only [Option.bind_eq_none_iff, Option.map_eq_none_iff] at hu
      cases ht : T vs with
      | none => exact Interp.Sim.hangs_binaryL (h5.bad G σ vs k hm ht)
      | some t => exact Interp.Sim.hangs_binaryR (Interp.Sim.eval_refines (h5.ok G σ vs t hm ht)) (j5 G σ vs k hm (hu t ht))

theorem told_tree {hs : List Header} {h : Header} {Γ : Ctx} {s : St} (hk : Known Γ s.scopes) {t : Start} (ht : StartFits Γ t)
    {ps : List Part} (hp : ∀ x ∈ ps, PartFits Γ x) : ∃ e x, typedAt (site hs h) s (synTold t ps) = some e ∧ e.ty = .b .string ∧
      expr e = some x ∧ TextCode Γ (fun vs => told vs t ps) x := by
  cases t with
  | text t =>
    exact parts_tree hk ps hp (e := .lit (.string t)) (x := .lit (.str t)) (T := fun _ => some t) rfl rfl nofun rfl
      ⟨fun G σ vs u hm hu => by cases hu; exact .lit, fun G σ vs k hm hu => by cases hu⟩
  | var n =>
    obtain ⟨x, hx⟩ : ∃ x, expr (.sym n ⟨.var, .b .string, true, false⟩) = some x := ⟨_, rfl⟩
    have hl := known_lookup (hs := hs) (h := h) hk (k := .string) ht
    exact parts_tree hk ps hp (e := .sym n ⟨.var, .b .string, true, false⟩) (x := x) (T := fun vs => some (texts vs n))
      (by simp [typedAt, synStart, Calc.synNum, Expr.typed, hl, Kind.ty]) rfl (fun _ => rfl) hx
      ⟨fun G σ vs u hm hu => by cases hu; exact eval_expr G σ rfl hx (by simp [Calc.eval, match_text hm ht]), fun G σ vs k hm hu => by cases hu⟩

/-! ## Code -/

/-- The expressions compute the arguments. -/
inductive ArgsCode (Γ : Ctx) : List Num → List (Interp.Expr Val) → Prop where
  | nil : ArgsCode Γ [] []
  | cons {a : Num} {as : List Num} {x : Interp.Expr Val} {xs : List (Interp.Expr Val)} : NumCode Γ a x → ArgsCode Γ as xs →
      ArgsCode Γ (a :: as) (x :: xs)

/-- The expression changes the variable. -/
inductive ChangeCode (Γ : Ctx) : Change → Interp.Expr Val → Prop where
  | to {d : Change} {x : Interp.Expr Val} : NumCode Γ d.num x → ChangeCode Γ d (.assign ⟨String.ofList d.name, []⟩ x)
  | step (up : Bool) (n : Text) : ChangeCode Γ (.step up n) (.incr (if up then "++" else "--") ⟨String.ofList n, []⟩)

/-- The statement uses the result of a function so. -/
inductive UseCode : Ctx → Use → Interp.Expr Val → Ctx → Interp.Stmt Val → Prop where
  | set {Γ : Ctx} {n : Text} {x : Interp.Expr Val} : UseCode Γ (.set n) x Γ (.expr (.assign ⟨String.ofList n, []⟩ x))
  | new {Γ : Ctx} {g : List (Text × Kind)} {n : Text} {x : Interp.Expr Val} :
      UseCode (g :: Γ) (.new n) x (((n, .int) :: g) :: Γ) (.decl "int" (String.ofList n) (some x))
  | print {Γ : Ctx} {x : Interp.Expr Val} : UseCode Γ .print x Γ (.print x)
  | ret {Γ : Ctx} {x : Interp.Expr Val} : UseCode Γ .ret x Γ (.ret (some x))

/-- The statements of commands: their expressions compute the right values. -/
inductive Code : Ctx → List Cmd → List (Interp.Stmt Val) → Prop where
  | nil {Γ : Ctx} : Code Γ [] []
  | int {Γ : Ctx} {g : List (Text × Kind)} {n : Text} {a : Num} {cs : List Cmd} {x : Interp.Expr Val} {b : List (Interp.Stmt Val)} :
      NumCode (((n, .int) :: g) :: Γ) a x → Code (((n, .int) :: g) :: Γ) cs b →
      Code (g :: Γ) (.int n a :: cs) (.decl "int" (String.ofList n) (some x) :: b)
  | bool {Γ : Ctx} {g : List (Text × Kind)} {n : Text} {c : Cond} {cs : List Cmd} {x : Interp.Expr Val}
      {b : List (Interp.Stmt Val)} : CondCode (((n, .bool) :: g) :: Γ) c x → Code (((n, .bool) :: g) :: Γ) cs b →
      Code (g :: Γ) (.bool n c :: cs) (.decl "bool" (String.ofList n) (some x) :: b)
  | set {Γ : Ctx} {d : Change} {cs : List Cmd} {x : Interp.Expr Val} {b : List (Interp.Stmt Val)} : ChangeCode Γ d x → Code Γ cs b →
      Code Γ (.set d :: cs) (.expr x :: b)
  | fresh {Γ : Ctx} {g : List (Text × Kind)} {k : Kind} {n : Text} {cs : List Cmd} {b : List (Interp.Stmt Val)} :
      Code (((n, k) :: g) :: Γ) cs b → Code (g :: Γ) (.fresh k n :: cs) (.decl (String.ofList k.word) (String.ofList n) none :: b)
  | text {Γ : Ctx} {g : List (Text × Kind)} {n : Text} {t : Start} {ps : List Part} {cs : List Cmd} {x : Interp.Expr Val}
      {b : List (Interp.Stmt Val)} : TextCode (((n, .string) :: g) :: Γ) (fun vs => told vs t ps) x →
      Code (((n, .string) :: g) :: Γ) cs b → Code (g :: Γ) (.text n t ps :: cs) (.decl "string" (String.ofList n) (some x) :: b)
  | write {Γ : Ctx} {n : Text} {t : Start} {ps : List Part} {cs : List Cmd} {x : Interp.Expr Val} {b : List (Interp.Stmt Val)} :
      TextCode Γ (fun vs => told vs t ps) x → Code Γ cs b →
      Code Γ (.write n t ps :: cs) (.expr (.assign ⟨String.ofList n, []⟩ x) :: b)
  | check {Γ : Ctx} {c : Cond} {cs : List Cmd} {x : Interp.Expr Val} {b : List (Interp.Stmt Val)} : CondCode Γ c x → Code Γ cs b →
      Code Γ (.check c :: cs) (.assert x none :: b)
  | mark {Γ : Ctx} {n : Text} {c : Cond} {cs : List Cmd} {x : Interp.Expr Val} {b : List (Interp.Stmt Val)} : CondCode Γ c x →
      Code Γ cs b → Code Γ (.mark n c :: cs) (.expr (.assign ⟨String.ofList n, []⟩ x) :: b)
  | call {Γ Γ' : Ctx} {u : Use} {f : Text} {args : List Num} {cs : List Cmd} {xs : List (Interp.Expr Val)} {y : Interp.Stmt Val}
      {b : List (Interp.Stmt Val)} : ArgsCode Γ' args xs → UseCode Γ u (.call [] (String.ofList f) xs) Γ' y → Code Γ' cs b →
      Code Γ (.call u f args :: cs) (y :: b)
  | act {Γ : Ctx} {f : Text} {args : List Num} {cs : List Cmd} {xs : List (Interp.Expr Val)} {b : List (Interp.Stmt Val)} :
      ArgsCode Γ args xs → Code Γ cs b → Code Γ (.act f args :: cs) (.expr (.call [] (String.ofList f) xs) :: b)
  | print {Γ : Ctx} {a : Num} {cs : List Cmd} {x : Interp.Expr Val} {b : List (Interp.Stmt Val)} : NumCode Γ a x → Code Γ cs b →
      Code Γ (.print a :: cs) (.print x :: b)
  | say {Γ : Ctx} {t : Start} {ps : List Part} {cs : List Cmd} {x : Interp.Expr Val} {b : List (Interp.Stmt Val)} :
      TextCode Γ (fun vs => told vs t ps) x → Code Γ cs b → Code Γ (.say t ps :: cs) (.print x :: b)
  | when {Γ : Ctx} {c : Cond} {t cs : List Cmd} {x : Interp.Expr Val} {bt b : List (Interp.Stmt Val)} : CondCode Γ c x →
      Code ([] :: Γ) t bt → Code Γ cs b → Code Γ (.when c t :: cs) (.ite x (.block bt) .nop :: b)
  | choose {Γ : Ctx} {c : Cond} {t e cs : List Cmd} {x : Interp.Expr Val} {bt be b : List (Interp.Stmt Val)} : CondCode Γ c x →
      Code ([] :: Γ) t bt → Code ([] :: Γ) e be → Code Γ cs b → Code Γ (.choose c t e :: cs) (.ite x (.block bt) (.block be) :: b)
  | chain {Γ : Ctx} {c : Cond} {d : Cmd} {t cs : List Cmd} {x : Interp.Expr Val} {y : Interp.Stmt Val} {bt b : List (Interp.Stmt Val)} :
      CondCode Γ c x → Code ([] :: Γ) t bt → Code Γ [d] [y] → Code Γ cs b → Code Γ (.chain c t d :: cs) (.ite x (.block bt) y :: b)
  | pick {Γ : Ctx} {a : Num} {as : List (Option Num × List Cmd)} {cs : List Cmd} {x : Interp.Expr Val} {db b : List (Interp.Stmt Val)}
      {xs : List ((Num × List Cmd) × Interp.Expr Val × List (Interp.Stmt Val))} : NumCode Γ a x → labelled as = xs.map (·.1) →
      (∀ y ∈ xs, NumCode Γ y.1.1 y.2.1) → (∀ y ∈ xs, Code ([] :: Γ) y.1.2 y.2.2) → Code ([] :: Γ) (otherwise as) db → Code Γ cs b →
      Code Γ (.pick a as :: cs) (.switch x (xs.map (·.2)) db :: b)
  | loop {Γ : Ctx} {c : Cond} {t cs : List Cmd} {x : Interp.Expr Val} {bt b : List (Interp.Stmt Val)} : CondCode Γ c x →
      Code ([] :: Γ) t bt → Code Γ cs b → Code Γ (.loop c t :: cs) (.while x (.block bt) :: b)
  | count {Γ : Ctx} {n : Text} {a : Num} {d : Change} {c : Cond} {t cs : List Cmd} {x y z : Interp.Expr Val} {bt b : List (Interp.Stmt Val)} :
      NumCode ([(n, .int)] :: Γ) a x → CondCode ([(n, .int)] :: Γ) c y → ChangeCode ([(n, .int)] :: Γ) d z →
      Code ([] :: [(n, .int)] :: Γ) t bt → Code Γ cs b → Code Γ (.count n a c d t :: cs)
        (.for (.decl "int" (String.ofList n) (some x)) (some y) (.expr z) (.block bt) :: b)
  | block {Γ : Ctx} {t cs : List Cmd} {bt b : List (Interp.Stmt Val)} : Code ([] :: Γ) t bt → Code Γ cs b →
      Code Γ (.block t :: cs) (.block bt :: b)
  | brk {Γ : Ctx} {cs : List Cmd} {b : List (Interp.Stmt Val)} : Code Γ cs b → Code Γ (.brk :: cs) (.brk :: b)
  | cont {Γ : Ctx} {cs : List Cmd} {b : List (Interp.Stmt Val)} : Code Γ cs b → Code Γ (.cont :: cs) (.cont :: b)
  | ret {Γ : Ctx} {a : Num} {cs : List Cmd} {x : Interp.Expr Val} {b : List (Interp.Stmt Val)} : NumCode Γ a x → Code Γ cs b →
      Code Γ (.ret a :: cs) (.ret (some x) :: b)
  | leave {Γ : Ctx} {cs : List Cmd} {b : List (Interp.Stmt Val)} : Code Γ cs b → Code Γ (.leave :: cs) (.ret none :: b)

/-! ## Functions -/

theorem find_only {α : Type} {p : α → Bool} {x : α} : ∀ {l : List α}, x ∈ l → p x = true → (∀ y ∈ l, p y = true → y = x) →
    l.find? p = some x
  | y :: l, hx, hp, hu => by
    rw [List.find?_cons]
    cases hy : p y with
    | true => rw [hu y List.mem_cons_self hy]
    | false =>
      refine find_only ?_ hp fun z hz => hu z (List.mem_cons_of_mem _ hz)
      rcases List.mem_cons.1 hx with rfl | h
      · rw [hp] at hy; cases hy
      · exact h

theorem same_name {α : Type} (f : α → Text) : ∀ {l : List α}, (l.map f).Nodup → ∀ {x y : α}, x ∈ l → y ∈ l → f x = f y → x = y
  | [], _, _, _, h, _, _ => nomatch h
  | a :: l, hd, x, y, hx, hy, e => by
    rw [List.map_cons, List.nodup_cons] at hd
    rcases List.mem_cons.1 hx with rfl | hx' <;> rcases List.mem_cons.1 hy with rfl | hy'
    · rfl
    · refine absurd ?_ hd.1
      rw [e]
      exact List.mem_map_of_mem hy'
    · refine absurd ?_ hd.1
      rw [← e]
      exact List.mem_map_of_mem hx'
    · exact same_name f hd.2 hx' hy' e

theorem valid_ints : ∀ n : Nat, Scope.isSignatureValid.go (List.replicate n ⟨"int", false⟩) (List.replicate n "int") = true
  | 0 => rfl
  | n + 1 => by
    simp only [List.replicate_succ, Scope.isSignatureValid.go]
    simp [valid_ints n]

theorem signature_valid (f : Fun) (b : List Tok) :
    Scope.isSignatureValid (headerOf f b).signature (List.replicate f.params.length "int") = true := by
  have : (headerOf f b).signature = List.replicate f.params.length ⟨"int", false⟩ := by
    simp only [Header.signature, headerOf, List.map_map]
    rw [List.eq_replicate_iff]
    refine ⟨by simp, fun p hp => ?_⟩
    obtain ⟨n, -, rfl⟩ := List.mem_map.1 hp
    rfl
  rw [this, Scope.isSignatureValid, if_neg (by simp), valid_ints]

theorem Headers.mem {p : Program} {hs : List Header} (h : Headers p hs) {g : Fun} (hg : g ∈ p) :
    ∃ ms b, headerOf g b ∈ hs ∧ Writes g.body ms ∧ Named ms ∧ Toks b ms := by
  induction h with
  | nil => cases hg
  | cons h1 h2 h3 _ ih =>
    rcases List.mem_cons.1 hg with rfl | hg
    · exact ⟨_, _, List.mem_cons_self, h1, h2, h3⟩
    · obtain ⟨ms, b, i1, i2⟩ := ih hg
      exact ⟨ms, b, List.mem_cons_of_mem _ i1, i2⟩

theorem typeText_int : String.ofList (typeText (.b .int32)) = "int" := by decide

theorem applicable_fun {p : Program} {hs : List Header} (h : Headers p hs) (hd : (p.map Fun.name).Nodup) {g : Fun} (hg : g ∈ p) :
    ∃ b, applicable hs g.name (List.replicate g.params.length (.b .int32)) = some (headerOf g b) := by
  obtain ⟨ms, b, h1, -⟩ := h.mem hg
  refine ⟨b, find_only h1 ?_ fun y hy hp => ?_⟩
  · simp only [List.map_replicate, typeText_int, signature_valid, Bool.and_true]
    simp [headerOf]
  · refine same_name Header.name (h.map ▸ hd) hy h1 ?_
    simp only [Bool.and_eq_true, decide_eq_true_eq] at hp
    exact hp.1

theorem usable_global {n : Text} (h : Usable n) (hs : List Header) :
    global hs n = (hs.find? (·.name = n)).map fun h => ⟨.func, h.ty, false, false⟩ := by
  have h1 : typeNames.lookup n = none := by
    rw [List.lookup_eq_none_iff]
    intro q hq
    have : ∀ q ∈ typeNames, q.1 ∈ taken := by decide
    have := this q hq
    simp only [bne_iff_ne, ne_eq]
    intro e
    exact h.2 (e ▸ this)
  have h2 : n ≠ "null".toList := fun e => h.2 (e ▸ by decide)
  simp only [global, h1, if_neg h2]

/-! ## From commands to code -/

theorem assign_int {env : Expr.Env} (hs : Setting env) : Expr.typeOf env (.b .int32) .ASSIGN (.b .int32) = some (.b .int32) := by
  simp only [Expr.typeOf, Expr.opOf]; rw [Calc.table_type hs (t := .int32) (by decide +kernel)]

theorem assign_bool {env : Expr.Env} (hs : Setting env) : Expr.typeOf env (.b .bool) .ASSIGN (.b .bool) = some (.b .bool) := by
  simp only [Expr.typeOf, Expr.opOf]; rw [Calc.table_type hs (t := .bool) (by decide +kernel)]

theorem assign_string {env : Expr.Env} (hs : Setting env) : Expr.typeOf env (.b .string) .ASSIGN (.b .string) = some (.b .string) := by
  simp only [Expr.typeOf, Expr.opOf]; rw [Calc.table_type hs (t := .string) (by decide +kernel)]

theorem assign_type {hs : List Header} {h : Header} (s : St) (k : Kind) :
    Expr.typeOf ((site hs h).at s) k.ty .ASSIGN k.ty = some k.ty := by
  cases k
  · exact assign_int (site_setting hs h s)
  · exact assign_bool (site_setting hs h s)
  · exact assign_string (site_setting hs h s)

theorem assign_type' {hs : List Header} {h : Header} (k : Kind) : Expr.typeOf (site hs h).env k.ty .ASSIGN k.ty = some k.ty := by
  have : Setting (site hs h).env := ⟨⟨[], nofun, by simp [site, env, Types.initTypes]⟩, by
    show isType (.b .int32) = true
    decide, fun _ _ => rfl⟩
  cases k
  · exact assign_int this
  · exact assign_bool this
  · exact assign_string this

theorem build_assign {hs : List Header} {h : Header} (s : St) (n : Text) (k : Kind) {e : Expr.Expr} (he : e.ty = k.ty) :
    Expr.buildAssign ((site hs h).at s) n ⟨.var, k.ty, true, false⟩ .ASSIGN e = some (.assign n ⟨.var, k.ty, true, false⟩ e k.ty) := by
  simp [Expr.buildAssign, Expr.compound, he, assign_type]

theorem Known.no_type {Γ : Ctx} {scopes : List (List (Text × Expr.Sym))} (h : Known Γ scopes) {n : Text} (hn : n ∈ taken) :
    find scopes n = none := by
  cases e : find scopes n with
  | none => rfl
  | some y => exact absurd hn (h.usable n y e).2

theorem Known.add {g : List (Text × Kind)} {Γ : Ctx} {hd : List (Text × Expr.Sym)} {tl : List (List (Text × Expr.Sym))}
    (h : Known (g :: Γ) (hd :: tl)) {n : Text} (hn : Usable n) (k : Kind) :
    Known (((n, k) :: g) :: Γ) (((n, ⟨.var, k.ty, true, false⟩) :: hd) :: tl) := by
  obtain ⟨h1, h2, h3⟩ := h
  obtain ⟨hd', tl', e, h2⟩ := h2 g Γ rfl
  cases e
  refine ⟨fun m j hm => ?_, fun g' Γ' e => ?_, fun m y hm => ?_⟩
  · simp only [kind, List.findSome?_cons, List.lookup_cons, find] at hm ⊢
    cases e : m == n with
    | true => rw [e] at hm; cases hm; rfl
    | false =>
      rw [e] at hm
      exact h1 m j hm
  · cases e
    refine ⟨_, tl, rfl, fun m hm => ?_⟩
    simp only [List.lookup_cons] at hm ⊢
    cases e : m == n with
    | true => rw [e] at hm; cases hm
    | false =>
      rw [e] at hm
      exact h2 m hm
  · simp only [find, List.findSome?_cons, List.lookup_cons] at hm
    cases e : m == n with
    | true => rw [beq_iff_eq] at e; exact e ▸ hn
    | false =>
      rw [e] at hm
      exact h3 m y hm

theorem declare_var {hs : List Header} {h : Header} {g : List (Text × Kind)} {Γ : Ctx} {s : St} (hk : Known (g :: Γ) s.scopes) {n : Text}
    (hn : Usable n) (hg : g.lookup n = none) (k : Kind) (ty : Text) (ht : typeNames.lookup ty = some k.ty) (htk : ty ∈ taken) :
    ∃ s', Stmt.declare (site hs h) s ⟨ty, n, none, none⟩ = some (⟨k.ty, n, false, false⟩, s') ∧ Known (((n, k) :: g) :: Γ) s'.scopes ∧
      s'.scopes.tail = s.scopes.tail ∧ s'.flow = s.flow ∧ s'.thrown = s.thrown := by
  obtain ⟨hd, tl, he, hl⟩ := hk.head g Γ rfl
  have ha : atomic k.ty = true := by cases k <;> decide
  have hc : isType k.ty = true := by cases k <;> decide
  have hx : ((site hs h).at s).lookup ty = some ⟨.type, k.ty, atomic k.ty, false⟩ := by
    simp [Site.at, hk.no_type htk, site, env, global, ht]
  refine ⟨{ s with scopes := ((n, ⟨.var, k.ty, true, false⟩) :: hd) :: tl }, ?_, ?_, by simp [he], rfl, rfl⟩
  · simp only [Stmt.declare, hx, Option.bind_some]
    rw [if_pos ⟨trivial, hc⟩]
    simp [St.define, he, hl n hg, Stmt.varSym, site, ha]
  · exact Known.add (he ▸ hk) hn k

/-- Formulas see no difference when a variable they do not use is declared. -/
theorem NumFits.add {g : List (Text × Kind)} {Γ : Ctx} {n : Text} {k : Kind} {a : Num} (h : NumFits (g :: Γ) a) (hn : n ∉ a.vars) :
    NumFits (((n, k) :: g) :: Γ) a := by
  refine ⟨fun m hm => ?_, h.2⟩
  have := h.1 m hm
  simp only [kind, List.findSome?_cons, List.lookup_cons] at this ⊢
  rw [show (m == n) = false by simpa using fun e : m = n => hn (e ▸ hm)]
  exact this

theorem CondFits.add {g : List (Text × Kind)} {Γ : Ctx} {n : Text} {k : Kind} {c : Cond} (h : CondFits (g :: Γ) c)
    (hn : n ∉ c.vars ++ c.flags) : CondFits (((n, k) :: g) :: Γ) c := by
  have aux : ∀ m j, m ∈ c.vars ++ c.flags → kind (g :: Γ) m = some j → kind (((n, k) :: g) :: Γ) m = some j := by
    intro m j hm hk
    simp only [kind, List.findSome?_cons, List.lookup_cons] at hk ⊢
    rw [show (m == n) = false by simpa using fun e : m = n => hn (e ▸ hm)]
    exact hk
  exact ⟨fun m hm => aux m _ (by simp [hm]) (h.1 m hm), fun m hm => aux m _ (by simp [hm]) (h.2.1 m hm), h.2.2⟩

theorem StartFits.add {g : List (Text × Kind)} {Γ : Ctx} {n : Text} {k : Kind} {t : Start} (h : StartFits (g :: Γ) t)
    (hn : n ∉ t.vars) : StartFits (((n, k) :: g) :: Γ) t := by
  cases t with
  | text t => trivial
  | var m =>
    simp only [StartFits, kind, List.findSome?_cons, List.lookup_cons] at h ⊢
    rw [show (m == n) = false by simpa using fun e : m = n => hn (by simp [e, Start.vars])]
    exact h

theorem PartFits.add {g : List (Text × Kind)} {Γ : Ctx} {n : Text} {k : Kind} {x : Part} (h : PartFits (g :: Γ) x)
    (hn : n ∉ x.vars) : PartFits (((n, k) :: g) :: Γ) x := by
  cases x with
  | num a => exact NumFits.add h hn
  | truth c => exact CondFits.add h hn
  | text t => trivial
  | var m => exact StartFits.add (t := .var m) h hn

theorem args_tree {hs : List Header} {h : Header} {Γ : Ctx} {s : St} (hk : Known Γ s.scopes) : ∀ {as : List Num},
    (∀ a ∈ as, NumFits Γ a) → ∃ es xs, Expr.typedList ((site hs h).at s) (as.map synNum) = some es ∧
      es.map Expr.Expr.ty = List.replicate as.length (.b .int32) ∧ exprs es = some xs ∧ ArgsCode Γ as xs
  | [], _ => ⟨[], [], rfl, rfl, rfl, .nil⟩
  | a :: as, hf => by
    obtain ⟨e, x, h1, h2, h3, h4⟩ := num_tree (hs := hs) (h := h) hk (hf a List.mem_cons_self)
    obtain ⟨es, xs, i1, i2, i3, i4⟩ := args_tree (hs := hs) (h := h) hk fun b hb => hf b (List.mem_cons_of_mem _ hb)
    rw [typedAt] at h1
    exact ⟨e :: es, x :: xs, by simp [Expr.typedList, h1, i1], by simp [h2, i2, List.replicate_succ], by simp [exprs, h3, i3], .cons h4 i4⟩

/-- The result of the elaboration of commands. -/
def Becomes (hs : List Header) (h : Header) (l : Bool) (s : St) (Γ : Ctx) (cs : List Cmd) : Prop :=
  ∃ ns s' b, elabList (site hs h) l s (srcs cs) = some (ns, s') ∧ stmts ns = some b ∧ Code Γ cs b ∧
    s'.scopes.tail = s.scopes.tail ∧ s'.thrown = s.thrown ∧ ((∃ cs' c, cs = cs' ++ [c] ∧ c.gives) → s'.flow = .ret) ∧
    ((∃ d, cs = [d] ∧ d.isIf = true) → s'.scopes = s.scopes) ∧ (Ends cs → s'.flow ≠ .normal)

theorem Becomes.cons {hs : List Header} {h : Header} {l : Bool} {s s₁ : St} {Γ Γ' : Ctx} {c : Cmd} {cs : List Cmd} {n : Node}
    {y : Interp.Stmt Val} (h1 : elabStmt (site hs h) l s (src c) = some (n, s₁)) (hy : stmt n = some y) (hn : n ≠ .nop)
    (hc : ∀ b, Code Γ' cs b → Code Γ (c :: cs) (y :: b)) (ht : s₁.scopes.tail = s.scopes.tail) (he : s₁.thrown = s.thrown)
    (hr : c.gives → s₁.flow = .ret) (h2 : Becomes hs h l s₁ Γ' cs) (hif : c.isIf = true → s₁.scopes = s.scopes := by exact nofun)
    (hv : c.leaves = true → s₁.flow ≠ .normal := by exact nofun) :
    Becomes hs h l s Γ (c :: cs) := by
  obtain ⟨ns, s', b, i1, i2, i3, i4, i5, i6, -, i7⟩ := h2
  have ha : Stmt.addNode n ns = n :: ns := by
    cases n <;> first | rfl | exact absurd rfl hn
  refine ⟨n :: ns, s', y :: b, ?_, by simp [stmts, hy, i2], hc b i3, i4.trans ht, i5.trans he, ?_, ?_, ?_⟩
  · simp [srcs, elabList, h1, i1, ha]
  · rintro ⟨cs', a, e, ha⟩
    cases cs' with
    | nil =>
      cases e
      simp only [srcs, elabList, Option.some.injEq, Prod.mk.injEq] at i1
      rw [← i1.2]
      exact hr ha
    | cons c' cs' =>
      cases e
      exact i6 ⟨cs', a, rfl, ha⟩
  · rintro ⟨d, e, hd⟩
    cases e
    simp only [srcs, elabList, Option.some.injEq, Prod.mk.injEq] at i1
    rw [← i1.2]
    exact hif hd
  · rintro ⟨cs', a, e, ha⟩
    cases cs' with
    | nil =>
      cases e
      simp only [srcs, elabList, Option.some.injEq, Prod.mk.injEq] at i1
      rw [← i1.2]
      exact hv ha
    | cons c' cs' =>
      cases e
      exact i7 ⟨cs', a, rfl, ha⟩

/-- An `if` alone. -/
theorem Becomes.one {hs : List Header} {h : Header} {l : Bool} {s : St} {Γ : Ctx} {d : Cmd} (hb : Becomes hs h l s Γ [d])
    (hd : d.isIf = true) : ∃ n s' y, elabStmt (site hs h) l s (src d) = some (n, s') ∧ stmt n = some y ∧ Code Γ [d] [y] ∧
      s'.scopes = s.scopes ∧ s'.thrown = s.thrown := by
  obtain ⟨ns, s', b, i1, i2, i3, -, i5, -, i6, -⟩ := hb
  simp only [srcs, elabList, Option.bind_eq_some_iff] at i1
  obtain ⟨⟨n, s₁⟩, h1, i1⟩ := i1
  simp only [Option.map_some, Option.some.injEq, Prod.mk.injEq] at i1
  obtain ⟨rfl, rfl⟩ := i1
  by_cases hn : n = .nop
  · subst hn
    cases i2
    cases i3
  · have ha : Stmt.addNode n [] = [n] := by
      cases n <;> first | rfl | exact absurd rfl hn
    rw [ha] at i2
    simp only [stmts, Option.bind_eq_some_iff] at i2
    obtain ⟨y, hy, i2⟩ := i2
    simp only [Option.map_some, Option.some.injEq] at i2
    subst i2
    exact ⟨n, _, y, h1, hy, i3, i6 ⟨d, rfl, hd⟩, i5⟩

/-- An `if` and what follows. -/
theorem Fits.more {p : Program} {r : Give} {l : Around} {Γ : Ctx} {d : Cmd} {cs : List Cmd} (hd : d.isIf = true) (h : Fits p r l Γ [d])
    (hf : Fits p r l Γ cs) : Fits p r l Γ (d :: cs) := by
  cases h <;> first | (cases hd; done) | skip
  · rename_i h1 h2 _; exact .when h1 h2 hf
  · rename_i h1 h2 h3 _; exact .choose h1 h2 h3 hf
  · rename_i h3 h1 h2 h4 _; exact .chain h1 h2 h3 h4 hf

/-- An `if` and what follows. -/
theorem Code.more {Γ : Ctx} {d : Cmd} {y : Interp.Stmt Val} {cs : List Cmd} {b : List (Interp.Stmt Val)} (hd : d.isIf = true)
    (h : Code Γ [d] [y]) (hb : Code Γ cs b) : Code Γ (d :: cs) (y :: b) := by
  cases h <;> first | (cases hd; done) | skip
  · rename_i h1 h2 _; exact .when h1 h2 hb
  · rename_i h1 h2 h3 _; exact .choose h1 h2 h3 hb
  · rename_i h1 h2 h3 _; exact .chain h1 h2 h3 hb

/-- A block. -/
theorem Becomes.block {hs : List Header} {h : Header} {l : Bool} {s : St} {Γ : Ctx} {t : List Cmd}
    (ht : Becomes hs h l s.enter ([] :: Γ) t) : ∃ ns s' b, elabStmt (site hs h) l s (.block (srcs t)) = some (.block ns, s') ∧
      stmt (.block ns) = some (.block b) ∧ Code ([] :: Γ) t b ∧ s'.scopes = s.scopes ∧ s'.thrown = s.thrown := by
  obtain ⟨ns, s', b, i1, i2, i3, i4, i5, -, -, -⟩ := ht
  refine ⟨ns, s'.pop, b, by simp [elabStmt, i1, Stmt.leave], by simp [stmt, i2], i3, ?_, i5⟩
  simpa [St.pop, St.enter, St.push] using i4

theorem Known.enter {Γ : Ctx} {s : St} (h : Known Γ s.scopes) : Known ([] :: Γ) s.enter.scopes := h.push

theorem Known.begin {Γ : Ctx} {s : St} (h : Known Γ s.scopes) : Known ([] :: Γ) s.push.scopes := h.push

/-- Is the command in a loop? -/
def Around.loops : Around → Bool
  | .nothing => false
  | _ => true

/-- The type of the results of a function. -/
def Give.allows : Give → Types.TName → Prop
  | .number, t => t = .b .int32
  | .nothing, t => t = .b .void
  | .never, _ => True

/-- `n = a`. -/
theorem assign_tree {hs : List Header} {h : Header} {Γ : Ctx} {s : St} (hk : Known Γ s.scopes) {n : Text} (hn : kind Γ n = some .int)
    {a : Num} (ha : NumFits Γ a) : ∃ e x, typedAt (site hs h) s (.assign n .ASSIGN (synNum a)) = some e ∧
      expr e = some (.assign ⟨String.ofList n, []⟩ x) ∧ NumCode Γ a x := by
  obtain ⟨e, x, j1, j2, j3, j4⟩ := num_tree (hs := hs) (h := h) hk ha
  refine ⟨.assign n ⟨.var, .b .int32, true, false⟩ e (.b .int32), x, ?_, by simp [expr, j3], j4⟩
  rw [typedAt] at j1
  simp only [typedAt, Expr.typed, known_lookup hk hn, j1, Option.bind_some, build_assign s n .int j2]
  rfl

/-- `n += a`. -/
theorem compound_tree {hs : List Header} {h : Header} {Γ : Ctx} {s : St} (hk : Known Γ s.scopes) {n : Text} (hn : kind Γ n = some .int)
    {op : Ints.Op} {a : Num} (ha : NumFits Γ (.bin op (.var n) a)) :
    ∃ e x, typedAt (site hs h) s (.assign n (changeTy op) (synNum a)) = some e ∧
      expr e = some (.assign ⟨String.ofList n, []⟩ x) ∧ NumCode Γ (.bin op (.var n) a) x := by
  obtain ⟨e, x, j1, j2, j3, j4⟩ := num_tree (hs := hs) (h := h) hk ha
  refine ⟨.assign n ⟨.var, .b .int32, true, false⟩ e (.b .int32), x, ?_, by simp [expr, j3], j4⟩
  simp only [typedAt, synNum, Expr.typed, known_lookup hk hn, Option.map_some, Option.bind_some, Option.bind_eq_some_iff] at j1
  obtain ⟨z, hz, j1⟩ := j1
  have hb : ∀ y : Expr.Expr, Expr.build ((site hs h).at s) (Calc.opLvl op) (Calc.opTy op) y z =
      Expr.buildArith ((site hs h).at s) (Calc.opTy op) y z := fun y => by cases op <;> rfl
  rw [hb] at j1
  have hop : changeTy op ≠ .ASSIGN ∧ Expr.assignedOp (changeTy op) = some (Calc.opTy op) := by cases op <;> exact ⟨nofun, rfl⟩
  have hc : Expr.compound ((site hs h).at s) n ⟨.var, .b .int32, true, false⟩ (changeTy op) z = some e := by
    simp only [Expr.buildArith, no_operator (site_classless hs h s)] at j1
    simp only [Expr.compound, if_neg hop.1, hop.2]
    split at j1
    · cases j1
    · rename_i t ht
      have ht : Expr.typeOf ((site hs h).at s) (.b .int32) (Calc.opTy op) z.ty = some t := ht
      simp only [ht, if_true]
      split at j1
      · exact j1
      · rename_i h1; exact absurd rfl h1
  have hass := assign_int (site_setting hs h s)
  simp only [typedAt, Expr.typed, known_lookup hk hn, hz, Option.bind_some, Expr.buildAssign, Kind.ty, hc, j2, hass]
  simp

/-- `n = a`, `n += a`, `n++`. -/
theorem change_tree {hs : List Header} {h : Header} {Γ : Ctx} {s : St} (hk : Known Γ s.scopes) : ∀ {d : Change}, kind Γ d.name = some .int →
    NumFits Γ d.num → ∃ e x, typedAt (site hs h) s (synChange d) = some e ∧ expr e = some x ∧ ChangeCode Γ d x
  | .to n a, hn, ha => by
    obtain ⟨e, x, h1, h2, h3⟩ := assign_tree (hs := hs) (h := h) hk hn ha
    exact ⟨e, _, h1, h2, .to (d := .to n a) h3⟩
  | .by n op a, hn, ha => by
    obtain ⟨e, x, h1, h2, h3⟩ := compound_tree (hs := hs) (h := h) hk hn ha
    exact ⟨e, _, h1, h2, .to (d := .by n op a) h3⟩
  | .step up n, hn, ha => by
    refine ⟨.unary (if up then .OPERATOR_INCREMENT else .OPERATOR_DECREMENT) true (.sym n ⟨.var, .b .int32, true, false⟩), _, ?_, ?_,
      .step up n⟩
    · have hn : kind Γ n = some .int := hn
      simp only [typedAt, synChange, Expr.typed, known_lookup hk hn, Option.bind_some, Expr.buildIncDec, Kind.ty]
      simp
    · cases up <;> rfl

/-- `int n = a`. -/
theorem decl_tree {hs : List Header} {h : Header} {Γ : Ctx} {g : List (Text × Kind)} {s : St} (hk : Known (g :: Γ) s.scopes) {n : Text}
    (hn : Usable n) (hg : g.lookup n = none) {a : Num} (ha : NumFits (g :: Γ) a) (hv : n ∉ a.vars) :
    ∃ e x s', elabSimple (site hs h) s (.decl ⟨"int".toList, n, none, none⟩ (some (synNum a))) =
        some (.decl ⟨.b .int32, n, false, false⟩ (some e), s') ∧
      stmt (.decl ⟨.b .int32, n, false, false⟩ (some e)) = some (.decl "int" (String.ofList n) (some x)) ∧
      NumCode (((n, .int) :: g) :: Γ) a x ∧ Known (((n, .int) :: g) :: Γ) s'.scopes ∧ s'.scopes.tail = s.scopes.tail ∧
      s'.thrown = s.thrown := by
  obtain ⟨s', i1, i2, i3, i4, i5⟩ := declare_var (hs := hs) (h := h) hk hn hg .int "int".toList (by decide) (by decide)
  obtain ⟨e, x, j1, j2, j3, j4⟩ := num_tree (hs := hs) (h := h) i2 (ha.add hv)
  refine ⟨e, x, s', ?_, by simp [stmt, plain, exprOpt, j3, typeText_int], j4, i2, i3, i5⟩
  simp only [elabSimple, i1, Option.bind_some, Stmt.initial, j1, j2]
  have := assign_type' (hs := hs) (h := h) .int
  simp only [Kind.ty] at this ⊢
  simp [this]

/-- `f(args)`. -/
theorem call_tree {p : Program} {hs : List Header} (hh : Headers p hs) (hd : (p.map Fun.name).Nodup) (hu : ∀ f ∈ p, Usable f.name)
    {h : Header} {Γ : Ctx} {s : St} (hk : Known Γ s.scopes) {g : Fun} (hg : g ∈ p) {args : List Num}
    (hlen : args.length = g.params.length) (ha : ∀ a ∈ args, NumFits Γ a) :
    ∃ es xs, typedAt (site hs h) s (.call g.name (args.map synNum)) = some (.call g.name es g.ty) ∧ exprs es = some xs ∧
      ArgsCode Γ args xs := by
  obtain ⟨es, xs, j1, j2, j3, j4⟩ := args_tree (hs := hs) (h := h) hk ha
  obtain ⟨b, hb⟩ := applicable_fun hh hd hg
  have hty : (headerOf g b).ty = g.ty := rfl
  obtain ⟨y, hy⟩ : ∃ y, ((site hs h).at s).lookup g.name = some y := by
    obtain ⟨ms, b', hm, -⟩ := hh.mem hg
    cases hf : find s.scopes g.name with
    | some y => exact ⟨y, by simp [Site.at, hf]⟩
    | none =>
      have : (hs.find? (·.name = g.name)).isSome := by
        rw [List.find?_isSome]
        exact ⟨_, hm, by simp [headerOf]⟩
      obtain ⟨q, hq⟩ := Option.isSome_iff_exists.1 this
      exact ⟨⟨.func, q.ty, false, false⟩, by simp only [Site.at, hf, site, env, usable_global (hu g hg), hq, Option.map_some, Option.none_or]⟩
  refine ⟨es, xs, ?_, j3, j4⟩
  simp only [typedAt, Expr.typed, hy, j1, Option.bind_some, Expr.buildCall]
  have : ((site hs h).at s).method g.name (es.map Expr.Expr.ty) = some g.ty := by
    show (applicable hs g.name (es.map Expr.Expr.ty)).map Header.ty = _
    rw [j2, hlen, hb, Option.map_some, hty]
  rw [this]

/-- The blocks of a `switch`. -/
theorem arms_tree {hs : List Header} {h : Header} {Γ : Ctx} : ∀ (as : List (Option Num × List Cmd)) (s : St) (acc : List (Expr.Expr × List Node))
    (d : Option (List Node)), Known Γ s.scopes → (∀ x ∈ as, ∀ b, x.1 = some b → NumFits Γ b) →
    (∀ x ∈ as, ∀ s, Known ([] :: Γ) s.scopes → Becomes hs h true s ([] :: Γ) x.2) → (∀ x ∈ as, Ends x.2) →
    (as.filter (·.1.isNone)).length + d.toList.length ≤ 1 →
    ∃ (ns : List (Expr.Expr × List Node)) (d' : Option (List Node)) (s' : St)
      (xs : List ((Num × List Cmd) × Interp.Expr Val × List (Interp.Stmt Val))), Stmt.elabCases (site hs h) s acc d (srcArms as) = some ((acc ++ ns, d'), s') ∧ s'.scopes = s.scopes ∧ s'.thrown = s.thrown ∧
      stmtCases ns = some (xs.map (·.2)) ∧ labelled as = xs.map (·.1) ∧ (∀ y ∈ xs, NumCode Γ y.1.1 y.2.1) ∧
      (∀ y ∈ xs, Code ([] :: Γ) y.1.2 y.2.2) ∧ (d.isSome → d' = d) ∧
      (d = none → ∃ db, stmtsOpt d' = some db ∧ Code ([] :: Γ) (otherwise as) db)
  | [], s, acc, d, _, _, _, _, _ => ⟨[], d, s, [], by simp [srcArms, Stmt.elabCases], rfl, rfl, rfl, rfl, nofun, nofun, fun _ => rfl,
      fun e => ⟨[], by simp [e, stmtsOpt], .nil⟩⟩
  | (some a, b) :: as, s, acc, d, hk, hn, hb, he, hl => by
    obtain ⟨e, x, j1, -, j3, j4⟩ := num_tree (hs := hs) (h := h) hk (hn _ List.mem_cons_self a rfl)
    obtain ⟨ms, s₁, c, i1, i2, i3, i4, i5, -, -, i6⟩ := hb _ List.mem_cons_self s.enter hk.enter
    have hsc : s₁.pop.scopes = s.scopes := by simpa [St.pop, St.enter, St.push] using i4
    obtain ⟨ns, d', s', xs, k1, k2, k3, k4, k5, k6, k7, k8, k9⟩ := arms_tree as s₁.pop (acc ++ [(e, ms)]) d (hsc ▸ hk)
      (fun x hx => hn x (List.mem_cons_of_mem _ hx)) (fun x hx => hb x (List.mem_cons_of_mem _ hx))
      (fun x hx => he x (List.mem_cons_of_mem _ hx)) (by simpa using hl)
    refine ⟨(e, ms) :: ns, d', s', ((a, b), x, c) :: xs, ?_, k2.trans hsc, k3.trans i5, by simp [stmtCases, j3, i2, k4],
      by simpa [labelled] using k5, ?_, ?_, k8, by simpa [otherwise] using k9⟩
    · have hf := i6 (he _ List.mem_cons_self)
      simp only [srcArms, Stmt.elabCases, j1, Option.bind_some, i1, Stmt.leave, hf, and_false, if_false, k1]
      simp
    · intro y hy
      rcases List.mem_cons.1 hy with rfl | hy
      · exact j4
      · exact k6 y hy
    · intro y hy
      rcases List.mem_cons.1 hy with rfl | hy
      · exact i3
      · exact k7 y hy
  | (none, b) :: as, s, acc, none, hk, hn, hb, he, hl => by
    obtain ⟨ms, s₁, c, i1, i2, i3, i4, i5, -, -, i6⟩ := hb _ List.mem_cons_self s.enter hk.enter
    have hsc : s₁.pop.scopes = s.scopes := by simpa [St.pop, St.enter, St.push] using i4
    obtain ⟨ns, d', s', xs, k1, k2, k3, k4, k5, k6, k7, k8, k9⟩ := arms_tree as s₁.pop acc (some ms) (hsc ▸ hk)
      (fun x hx => hn x (List.mem_cons_of_mem _ hx)) (fun x hx => hb x (List.mem_cons_of_mem _ hx))
      (fun x hx => he x (List.mem_cons_of_mem _ hx)) (by simpa using hl)
    refine ⟨ns, d', s', xs, ?_, k2.trans hsc, k3.trans i5, k4, by simpa [labelled] using k5, k6, k7, nofun, fun _ => ⟨c, ?_, ?_⟩⟩
    · have hf := i6 (he _ List.mem_cons_self)
      simp only [srcArms, Stmt.elabCases, i1, Option.bind_some, Stmt.leave, hf, and_false, if_false, k1, Option.isSome_none, Bool.false_eq_true]
    · rw [k8 rfl]; exact i2
    · simpa [otherwise] using i3
  | (none, b) :: as, s, acc, some d, _, _, _, _, hl => by
    exfalso
    simp at hl

theorem becomes {p : Program} {hs : List Header} (hh : Headers p hs) (hd : (p.map Fun.name).Nodup) (hu : ∀ f ∈ p, Usable f.name)
    {h : Header} {r : Give} {l : Around} {Γ : Ctx} {cs : List Cmd} (hf : Fits p r l Γ cs) :
    r.allows h.ty → ∀ s, Known Γ s.scopes → Becomes hs h l.loops s Γ cs := by
  induction hf with
  | nil => exact fun _ s hk => ⟨[], s, [], rfl, rfl, .nil, rfl, rfl, fun ⟨cs', a, e, _⟩ => (by cases cs' <;> cases e), fun _ => rfl,
      fun ⟨cs', a, e, _⟩ => (by cases cs' <;> cases e)⟩
  | @int r l Γ g n a cs hn hg ha hv _ ih =>
    intro hr s hk
    obtain ⟨e, x, s', i1, i2, i3, i4, i5, i6⟩ := decl_tree (hs := hs) (h := h) hk hn hg ha hv
    exact .cons (by rw [src, elabStmt]; exact i1) i2 nofun (fun b => .int i3) i5 i6 False.elim (ih hr s' i4)
  | @bool r l Γ g n c cs hn hg ha hv _ ih =>
    intro hr s hk
    obtain ⟨s', i1, i2, i3, i4, i5⟩ := declare_var (hs := hs) (h := h) hk hn hg .bool "bool".toList (by decide) (by decide)
    obtain ⟨e, x, j1, j2, j3, j4⟩ := cond_tree (hs := hs) (h := h) i2 (ha.add hv)
    refine .cons (n := .decl ⟨.b .bool, n, false, false⟩ (some e)) (y := .decl "bool" (String.ofList n) (some x)) ?_ ?_ nofun
      (fun b => .bool j4) i3 i5 False.elim (ih hr s' i2)
    · simp only [src, elabStmt, elabSimple, i1, Option.bind_some, Stmt.initial, j1, j2]
      have := assign_type' (hs := hs) (h := h) .bool
      simp only [Kind.ty] at this ⊢
      simp [this]
    · have : String.ofList (typeText (.b .bool)) = "bool" := by decide
      simp [stmt, plain, exprOpt, j3, this]
  | @set r l Γ d cs hn ha _ ih =>
    intro hr s hk
    obtain ⟨e, x, i1, i2, i3⟩ := change_tree (hs := hs) (h := h) hk hn ha
    exact .cons (n := .expr e) (s₁ := s) (y := .expr x) (by simp [src, elabStmt, elabSimple, i1])
      (by simp [stmt, i2]) nofun (fun b => .set i3) rfl rfl False.elim (ih hr s hk)
  | @fresh r l Γ g k n cs hn hg _ ih =>
    intro hr s hk
    obtain ⟨s', i1, i2, i3, i4, i5⟩ := declare_var (hs := hs) (h := h) hk hn hg k k.word (by cases k <;> decide) (by cases k <;> decide)
    refine .cons (n := .decl ⟨k.ty, n, false, false⟩ none) (y := .decl (String.ofList k.word) (String.ofList n) none) ?_ ?_ nofun
      (fun b => .fresh) i3 i5 False.elim (ih hr s' i2)
    · simp only [src, elabStmt, elabSimple, i1, Option.bind_some, Stmt.initial]
      simp
    · have : String.ofList (typeText k.ty) = String.ofList k.word := by cases k <;> decide
      have hp : plain k.ty = true := by cases k <;> rfl
      simp [stmt, hp, exprOpt, this]
  | @text r l Γ g n t ps cs hn hg hs' hp hv _ ih =>
    intro hr s hk
    simp only [List.mem_append, List.mem_flatMap, not_or, not_exists, not_and] at hv
    obtain ⟨s', i1, i2, i3, i4, i5⟩ := declare_var (hs := hs) (h := h) hk hn hg .string "string".toList (by decide) (by decide)
    obtain ⟨e, x, j1, j2, j3, j4⟩ := told_tree (hs := hs) (h := h) i2 (hs'.add hv.1) fun y hy => (hp y hy).add (hv.2 y hy)
    refine .cons (n := .decl ⟨.b .string, n, false, false⟩ (some e)) (y := .decl "string" (String.ofList n) (some x)) ?_ ?_ nofun
      (fun b => .text j4) i3 i5 False.elim (ih hr s' i2)
    · simp only [src, elabStmt, elabSimple, i1, Option.bind_some, Stmt.initial, j1, j2]
      have := assign_type' (hs := hs) (h := h) .string
      simp only [Kind.ty] at this ⊢
      simp [this]
    · have : String.ofList (typeText (.b .string)) = "string" := by decide
      simp [stmt, plain, exprOpt, j3, this]
  | @write r l Γ n t ps cs hn hs' hp _ ih =>
    intro hr s hk
    obtain ⟨e, x, j1, j2, j3, j4⟩ := told_tree (hs := hs) (h := h) hk hs' hp
    refine .cons (n := .expr (.assign n ⟨.var, .b .string, true, false⟩ e (.b .string))) (s₁ := s)
      (y := .expr (.assign ⟨String.ofList n, []⟩ x)) ?_ ?_ nofun
      (fun b => .write j4) rfl rfl False.elim (ih hr s hk)
    · rw [typedAt] at j1
      simp only [src, elabStmt, elabSimple, typedAt, Expr.typed, known_lookup hk hn, j1, Option.bind_some, build_assign s n .string j2]
      rfl
    · simp [stmt, expr, j3]
  | @check r l Γ c cs ha _ ih =>
    intro hr s hk
    obtain ⟨e, x, j1, j2, j3, j4⟩ := cond_tree (hs := hs) (h := h) hk ha
    exact .cons (n := .assert e none) (s₁ := s) (y := .assert x none) (by simp [src, elabStmt, Stmt.typedOpt, j1])
      (by simp [stmt, exprOpt, j3]) nofun (fun b => .check j4) rfl rfl False.elim (ih hr s hk)
  | @mark r l Γ n c cs hn ha _ ih =>
    intro hr s hk
    obtain ⟨e, x, j1, j2, j3, j4⟩ := cond_tree (hs := hs) (h := h) hk ha
    refine .cons (n := .expr (.assign n ⟨.var, .b .bool, true, false⟩ e (.b .bool))) (s₁ := s)
      (y := .expr (.assign ⟨String.ofList n, []⟩ x)) ?_ ?_ nofun
      (fun b => .mark j4) rfl rfl False.elim (ih hr s hk)
    · rw [typedAt] at j1
      simp only [src, elabStmt, elabSimple, typedAt, Expr.typed, known_lookup hk hn, j1, Option.bind_some, build_assign s n .bool j2]
      rfl
    · simp [stmt, expr, j3]
  | @call r l Γ Γ' u g args cs hus hg hvd hlen ha _ ih =>
    intro hr s hk
    have hty : g.ty = .b .int32 := by simp [Fun.ty, hvd]
    cases hus with
    | @set _ _ _ n hn =>
      obtain ⟨es, xs, j1, j3, j4⟩ := call_tree hh hd hu (h := h) hk hg hlen ha
      rw [typedAt, hty] at j1
      refine .cons (n := .expr (.assign n ⟨.var, .b .int32, true, false⟩ (.call g.name es (.b .int32)) (.b .int32))) (s₁ := s)
        (y := .expr (.assign ⟨String.ofList n, []⟩ (.call [] (String.ofList g.name) xs))) ?_ ?_ nofun
        (fun b => .call j4 .set) rfl rfl False.elim (ih hr s hk)
      · simp only [src, elabStmt, elabSimple, typedAt]
        rw [Expr.typed, known_lookup hk hn]
        simp only [j1, Option.bind_some]
        have := build_assign (hs := hs) (h := h) s n .int (e := .call g.name es (.b .int32)) rfl
        rw [this]
        rfl
      · simp [stmt, expr, j3]
    | @new _ Γ g₀ _ n hn hl hv =>
      obtain ⟨s', i1, i2, i3, i4, i5⟩ := declare_var (hs := hs) (h := h) hk hn hl .int "int".toList (by decide) (by decide)
      obtain ⟨es, xs, j1, j3, j4⟩ := call_tree hh hd hu (h := h) i2 hg hlen fun a h => (ha a h).add (hv a h)
      rw [hty] at j1
      refine .cons (n := .decl ⟨.b .int32, n, false, false⟩ (some (.call g.name es (.b .int32)))) (s₁ := s')
        (y := .decl "int" (String.ofList n) (some (.call [] (String.ofList g.name) xs))) ?_ ?_ nofun
        (fun b => .call j4 .new) i3 i5 False.elim (ih hr s' i2)
      · simp only [src, elabStmt, elabSimple, i1, Option.bind_some, Stmt.initial, j1]
        have := assign_type' (hs := hs) (h := h) .int
        simp only [Kind.ty, Expr.Expr.ty] at this ⊢
        simp [this]
      · simp [stmt, plain, exprOpt, expr, j3, typeText_int]
    | print =>
      obtain ⟨es, xs, j1, j3, j4⟩ := call_tree hh hd hu (h := h) hk hg hlen ha
      exact .cons (n := .print (.call g.name es g.ty)) (s₁ := s) (y := .print (.call [] (String.ofList g.name) xs))
        (by simp [src, elabStmt, j1]) (by simp [stmt, expr, j3]) nofun (fun b => .call j4 .print) rfl rfl False.elim (ih hr s hk)
    | ret =>
      obtain ⟨es, xs, j1, j3, j4⟩ := call_tree hh hd hu (h := h) hk hg hlen ha
      refine .cons (n := .ret (some (.call g.name es g.ty))) (s₁ := s.setFlow .ret) (y := .ret (some (.call [] (String.ofList g.name) xs)))
        ?_ (by simp [stmt, exprOpt, expr, j3]) nofun (fun b => .call j4 .ret) rfl rfl (fun _ => rfl) (ih hr _ hk)
        (hv := fun _ => nofun)
      have hr : (site hs h).result = Stmt.resultType (some (.call g.name es g.ty)) := (show h.ty = _ from hr).trans hty.symm
      simp only [src, elabStmt, Stmt.typedOpt, j1, Option.map_some, Option.bind_some, if_pos hr]
  | @act r l Γ g args cs hg hlen ha _ ih =>
    intro hr s hk
    obtain ⟨es, xs, j1, j3, j4⟩ := call_tree hh hd hu (h := h) hk hg hlen ha
    exact .cons (n := .expr (.call g.name es g.ty)) (s₁ := s) (y := .expr (.call [] (String.ofList g.name) xs))
      (by simp [src, elabStmt, elabSimple, j1]) (by simp [stmt, expr, j3]) nofun (fun b => .act j4) rfl rfl
      False.elim (ih hr s hk)
  | @count r l Γ n a d c t cs hn ha hv hc hm hst _ _ ihb ih =>
    intro hr s hk
    obtain ⟨e, x, s', i1, i2, i3, i4, i5, i6⟩ := decl_tree (hs := hs) (h := h) hk.begin hn rfl (a := a) ⟨ha.1, ha.2⟩ hv
    obtain ⟨e', y, j1, j2, j3, j4⟩ := cond_tree (hs := hs) (h := h) i4 hc
    obtain ⟨e'', z, k1, k2, k3⟩ := change_tree (hs := hs) (h := h) i4 hm hst
    obtain ⟨ns, s'', b, q1, q2, q3, q4, q5⟩ := (ihb trivial s'.enter i4.enter).block
    have hsc : s''.pop.scopes = s.scopes := by
      show s''.scopes.tail = s.scopes
      rw [q4, i5]; rfl
    refine .cons (n := .for (.decl ⟨.b .int32, n, false, false⟩ (some e)) (some e') (.expr e'') (.block ns)) (s₁ := s''.pop)
      (y := .for (.decl "int" (String.ofList n) (some x)) (some y) (.expr z) (.block b)) ?_ ?_ nofun
      (fun b => .count i3 j4 k3 q3) (by rw [hsc]) (q5.trans i6) False.elim (ih hr _ (hsc ▸ hk))
    · rw [src, elabStmt]
      simp only [Stmt.elabOpt, i1, Option.bind_some, Stmt.typedOpt, j1, Option.map_some]
      simp only [elabSimple, k1, Option.map_some, Option.bind_some, show elabStmt (site hs h) true s' (.block (srcs t)) = _ from q1]
    · rw [stmt, i2, q2]
      simp [exprOpt, j3, stmt, k2]
  | print ha _ ih =>
    intro hr s hk
    obtain ⟨e, x, j1, j2, j3, j4⟩ := num_tree (hs := hs) (h := h) hk ha
    exact .cons (n := .print e) (s₁ := s) (y := .print x) (by simp [src, elabStmt, j1]) (by simp [stmt, j3]) nofun
      (fun b => .print j4) rfl rfl False.elim (ih hr s hk)
  | @say r l Γ t ps cs hs' ha _ ih =>
    intro hr s hk
    obtain ⟨e, x, j1, -, j2, j3⟩ := told_tree (hs := hs) (h := h) hk hs' ha
    exact .cons (n := .print e) (s₁ := s) (y := .print x) (by simp [src, elabStmt, j1]) (by simp [stmt, j2]) nofun
      (fun b => .say j3) rfl rfl False.elim (ih hr s hk)
  | «when» hc _ _ iht ih =>
    intro hr s hk
    obtain ⟨e, x, j1, j2, j3, j4⟩ := cond_tree (hs := hs) (h := h) hk hc
    obtain ⟨ns, s', b, i1, i2, i3, i4, i5⟩ := (iht hr s.enter hk.enter).block
    exact .cons (n := .ite e (.block ns) .nop) (s₁ := s') (y := .ite x (.block b) .nop) (by rw [src, elabStmt, j1]; simp only [Option.bind_some, i1]; rfl)
      (by simp only [stmt] at i2 ⊢; simp only [j3, i2]; rfl) nofun (fun b => .when j4 i3) (by rw [i4]) i5 False.elim
      (ih hr s' (i4 ▸ hk)) fun _ => i4
  | choose hc _ _ _ iht ihe ih =>
    intro hr s hk
    obtain ⟨e, x, j1, j2, j3, j4⟩ := cond_tree (hs := hs) (h := h) hk hc
    obtain ⟨ns, s', b, i1, i2, i3, i4, i5⟩ := (iht hr s.enter hk.enter).block
    have hk' : Known _ s'.scopes := i4 ▸ hk
    obtain ⟨ms, s'', d, k1, k2, k3, k4, k5⟩ := (ihe hr s'.enter hk'.enter).block
    exact .cons (n := .ite e (.block ns) (.block ms)) (s₁ := s'') (y := .ite x (.block b) (.block d)) (by rw [src, elabStmt, j1]; simp only [Option.bind_some, i1, k1]; rfl)
      (by simp only [stmt] at i2 k2 ⊢; simp only [j3, i2, k2]; rfl) nofun (fun b => .choose j4 i3 k3) (by rw [k4, i4]) (k5.trans i5)
      False.elim (ih hr s'' (k4 ▸ i4 ▸ hk)) fun _ => k4.trans i4
  | chain hc _ hd _ _ iht ihe ih =>
    intro hr s hk
    obtain ⟨e, x, j1, j2, j3, j4⟩ := cond_tree (hs := hs) (h := h) hk hc
    obtain ⟨ns, s', b, i1, i2, i3, i4, i5⟩ := (iht hr s.enter hk.enter).block
    have hk' : Known _ s'.scopes := i4 ▸ hk
    obtain ⟨m, s'', y, k1, k2, k3, k4, k5⟩ := (ihe hr s' hk').one hd
    exact .cons (n := .ite e (.block ns) m) (s₁ := s'') (y := .ite x (.block b) y) (by rw [src, elabStmt, j1]; simp only [Option.bind_some, i1, k1]; rfl)
      (by simp only [stmt] at i2 k2 ⊢; simp only [j3, i2, k2]; rfl) nofun (fun b => .chain j4 i3 k3) (by rw [k4, i4]) (k5.trans i5)
      False.elim (ih hr s'' (k4 ▸ i4 ▸ hk)) fun _ => k4.trans i4
  | @pick r l Γ a as cs ha hn _ he _ hd' _ iht ih =>
    intro hr s hk
    obtain ⟨e, x, j1, j2, j3, j4⟩ := num_tree (hs := hs) (h := h) hk ha
    obtain ⟨ns, d', s', xs, k1, k2, k3, k4, k5, k6, k7, -, k9⟩ := arms_tree as s [] none hk hn (fun x hx s hk => iht x hx hr s hk) he (by simpa using hd')
    obtain ⟨db, q1, q2⟩ := k9 rfl
    have hty : (site hs h).env.isType e.ty = true := by
      rw [j2]
      show isType (.b .int32) = true
      decide
    refine .cons (n := .switch e ns d') (s₁ := s') (y := .switch x (xs.map (·.2)) db) ?_ (by simp [stmt, j3, k4, q1]) nofun
      (fun b => .pick j4 k5 k6 k7 q2) (by rw [k2]) k3 False.elim (ih hr s' (k2 ▸ hk))
    simp only [src, elabStmt, j1, Option.bind_some, k1, hty, List.nil_append]
    rfl
  | loop hc _ _ iht ih =>
    intro hr s hk
    obtain ⟨e, x, j1, j2, j3, j4⟩ := cond_tree (hs := hs) (h := h) hk hc
    obtain ⟨ns, s', b, i1, i2, i3, i4, i5⟩ := (iht hr s.enter hk.enter).block
    have i1 : elabStmt (site hs h) true s _ = _ := i1
    exact .cons (n := .while e (.block ns)) (s₁ := s') (y := .while x (.block b)) (by rw [src, elabStmt, j1]; simp only [Option.bind_some, i1]; rfl)
      (by simp only [stmt] at i2 ⊢; simp only [j3, i2]; rfl) nofun (fun b => .loop j4 i3) (by rw [i4]) i5 False.elim
      (ih hr s' (i4 ▸ hk))
  | block _ _ iht ih =>
    intro hr s hk
    obtain ⟨ns, s', b, i1, i2, i3, i4, i5⟩ := (iht hr s.enter hk.enter).block
    exact .cons (s₁ := s') (by simpa only [src] using i1) i2 nofun (fun b => .block i3) (by rw [i4]) i5 False.elim
      (ih hr s' (i4 ▸ hk))
  | @brk r l Γ cs hl _ ih =>
    intro hr s hk
    have ha : l.loops = true := by rcases hl with rfl | rfl <;> rfl
    exact .cons (n := .brk) (s₁ := s.setFlow .brk) (y := .brk) (by simp [src, elabStmt, ha]) rfl nofun (fun b => .brk) rfl rfl False.elim
      (ih hr _ hk) (hv := fun _ => nofun)
  | @cont r l Γ cs hl _ ih =>
    intro hr s hk
    have ha : l.loops = true := by rcases hl with rfl | rfl <;> rfl
    exact .cons (n := .cont) (s₁ := s.setFlow .cont) (y := .cont) (by simp [src, elabStmt, ha]) rfl nofun (fun b => .cont) rfl rfl False.elim
      (ih hr _ hk)
  | leave _ ih =>
    intro hr s hk
    have hr' : (site hs h).result = Stmt.resultType none := hr
    exact .cons (n := .ret none) (s₁ := s.setFlow .ret) (y := .ret none)
      (by simp only [src, elabStmt, Stmt.typedOpt, Option.bind_some, if_pos hr']) rfl nofun (fun b => .leave) rfl rfl (fun _ => rfl)
      (ih hr _ hk) (hv := fun _ => nofun)
  | ret ha _ ih =>
    intro hr s hk
    obtain ⟨e, x, j1, j2, j3, j4⟩ := num_tree (hs := hs) (h := h) hk ha
    refine .cons (n := .ret (some e)) (s₁ := s.setFlow .ret) (y := .ret (some x)) ?_ (by simp [stmt, exprOpt, j3]) nofun
      (fun b => .ret j4) rfl rfl (fun _ => rfl) (ih hr _ hk) (hv := fun _ => nofun)
    have hr : (site hs h).result = Stmt.resultType (some e) := (show h.ty = _ from hr).trans j2.symm
    simp only [src, elabStmt, Stmt.typedOpt, j1, Option.map_some, Option.bind_some, if_pos hr]

/-! ## The functions of a program -/

theorem parameters_defined : ∀ (ns : List Text) (s : St) (hd : List (Text × Expr.Sym)) (tl : List (List (Text × Expr.Sym))),
    s.scopes = hd :: tl → ns.Nodup → (∀ n ∈ ns, n ≠ [] ∧ hd.lookup n = none) →
    Stmt.parameters (ns.map fun n => (n, ⟨.var, .b .int32, true, false⟩)) s =
      some { s with scopes := ((ns.map fun n => (n, (⟨.var, .b .int32, true, false⟩ : Expr.Sym))).reverse ++ hd) :: tl }
  | [], s, hd, tl, he, _, _ => by
    obtain ⟨sc, f, t⟩ := s
    cases he
    rfl
  | n :: ns, s, hd, tl, he, hnd, hn => by
    rw [List.nodup_cons] at hnd
    have h1 := hn n List.mem_cons_self
    simp only [List.map_cons, Stmt.parameters, if_neg h1.1, St.define, he, h1.2, Option.isSome_none, Bool.false_eq_true, if_false,
      Option.bind_some]
    rw [parameters_defined ns _ ((n, ⟨.var, .b .int32, true, false⟩) :: hd) tl rfl hnd.2]
    · simp
    · intro m hm
      refine ⟨(hn m (List.mem_cons_of_mem _ hm)).1, ?_⟩
      rw [List.lookup_cons, show (m == n) = false by simpa using fun e : m = n => hnd.1 (e ▸ hm)]
      exact (hn m (List.mem_cons_of_mem _ hm)).2

theorem lookup_keys {α β : Type} [BEq α] [LawfulBEq α] (v : β) : ∀ (ns : List α) (n : α), (ns.map (·, v)).lookup n = if ns.contains n then some v else none
  | [], n => by simp
  | m :: ns, n => by
    rw [List.map_cons, List.lookup_cons, List.contains_cons, lookup_keys v ns n]
    cases n == m <;> simp

theorem known_params {ns : List Text} (hu : ∀ n ∈ ns, Usable n) :
    Known [ns.map (·, .int)] [[], (ns.map fun n => (n, (⟨.var, .b .int32, true, false⟩ : Expr.Sym))).reverse ++ []] := by
  have hr : (ns.map fun n => (n, (⟨.var, .b .int32, true, false⟩ : Expr.Sym))).reverse = ns.reverse.map (·, ⟨.var, .b .int32, true, false⟩) := by
    simp
  have hl : ∀ n, find [[], (ns.map fun n => (n, (⟨.var, .b .int32, true, false⟩ : Expr.Sym))).reverse ++ []] n =
      if n ∈ ns then some ⟨.var, .b .int32, true, false⟩ else none := by
    intro n
    simp only [find, List.findSome?_cons, List.lookup_nil, List.append_nil, hr, lookup_keys]
    by_cases h : n ∈ ns <;> simp [h]
  refine ⟨fun n k hk => ?_, fun g Γ e => ?_, fun n y h => ?_⟩
  · simp only [kind, List.findSome?_cons, lookup_keys] at hk
    rw [hl]
    by_cases h : n ∈ ns
    · simp only [List.contains_eq_mem, h, decide_true, if_true, Option.some.injEq] at hk
      subst hk
      simp [h, Kind.ty]
    · simp [h] at hk
  · cases e
    exact ⟨[], _, rfl, fun _ _ => rfl⟩
  · rw [hl] at h
    by_cases hn : n ∈ ns
    · exact hu n hn
    · rw [if_neg hn] at h; cases h

theorem usable_not_type {hs : List Header} {h : Header} : ∀ n, Usable n → Stmt.NotType (site hs h) n := by
  intro n hn y hy
  have hy : global hs n = some y := hy
  rw [usable_global hn, Option.map_eq_some_iff] at hy
  obtain ⟨q, -, rfl⟩ := hy
  nofun

/-- The tree of a function is its code. -/
theorem fun_tree {p : Program} {hs : List Header} (hp : WellFormed p) (hh : Headers p hs) {f : Fun} (hf : f ∈ p) {ms : List Mark}
    {b : List Tok} (hw : Writes f.body ms) (hn : Named ms) (ht : Toks b ms) :
    ∃ code, tree hs (headerOf f b) = .ok code ∧ Code [f.params.map (·, .int)] f.body code := by
  have ff := hp.funs f hf
  have hr : f.give.allows (headerOf f b).ty := by
    cases hv : f.isVoid <;> simp [Fun.give, Give.allows, headerOf, Fun.ty, hv]
  have hsym : (headerOf f b).symbols = f.params.map fun n => (n, ⟨.var, .b .int32, true, false⟩) := by
    have : atomic (.b .int32) = true := by decide
    simp [Header.symbols, headerOf, this]
  have hpar := parameters_defined f.params ⟨[[]], .normal, []⟩ [] [] rfl ff.distinct (fun n h => ⟨(ff.params n h).1.1, rfl⟩)
  obtain ⟨ns, s', code, h1, h2, h3, h4, h5, h6⟩ := becomes hh hp.distinct (fun g hg => (hp.funs g hg).name) ff.body hr
    (St.enter ⟨[(f.params.map fun n => (n, (⟨.var, .b .int32, true, false⟩ : Expr.Sym))).reverse ++ []], .normal, []⟩)
    (known_params ff.params)
  refine ⟨code, ?_, h3⟩
  have he : Stmt.elabMethod (site hs (headerOf f b)) false (headerOf f b).symbols (srcs f.body) = some ns := by
    have h1 : elabList (site hs (headerOf f b)) false _ _ = _ := h1
    simp only [Stmt.elabMethod, hsym, hpar, Option.bind_some, h1]
    have : Stmt.complete (site hs (headerOf f b)) false s'.pop = true := by
      have h5 : s'.thrown = [] := h5
      simp only [Stmt.complete, St.pop, h5, List.isEmpty_nil, Bool.or_true, Bool.true_and]
      cases hv : f.isVoid with
      | true => simp [site, headerOf, Fun.ty, hv]
      | false =>
        simp [h6.1 (ff.result hv)]
    rw [if_pos this]
  have hm := Stmt.method_read_partial (w := site hs (headerOf f b)) (throws := false) (params := (headerOf f b).symbols)
    (writes_spells _ hw hn b ht) (srcs_fit _ ff.body usable_not_type) (fun q hq => by
      rw [hsym] at hq
      obtain ⟨n, hn, rfl⟩ := List.mem_map.1 hq
      exact usable_not_type n (ff.params n hn))
  rw [he] at hm
  have hm : Stmt.method (site hs (headerOf f b)) (headerOf f b).throws (headerOf f b).symbols (headerOf f b).body = .ok ns [] := hm
  simp only [tree, hm, Load.ofRes, Load.bind, h2, Load.ofOption]

/-- The functions of a program and their code. -/
inductive Coded : Program → Loaded → Prop where
  | nil : Coded [] []
  | cons {f : Fun} {p : Program} {b : List Tok} {code : List (Interp.Stmt Val)} {l : Loaded} :
      Code [f.params.map (·, .int)] f.body code → Coded p l → Coded (f :: p) ((headerOf f b, code) :: l)

theorem program_trees {p q : Program} {hs gs : List Header} (hp : WellFormed p) (hh : Headers p hs) (hg : Headers q gs)
    (hq : ∀ f ∈ q, f ∈ p) : ∃ l, trees hs gs = .ok l ∧ Coded q l := by
  induction hg with
  | nil => exact ⟨[], rfl, .nil⟩
  | @cons f q ms b gs h1 h2 h3 _ ih =>
    obtain ⟨code, i1, i2⟩ := fun_tree hp hh (hq _ List.mem_cons_self) h1 h2 h3
    obtain ⟨l, j1, j2⟩ := ih fun f hf => hq f (List.mem_cons_of_mem _ hf)
    exact ⟨(headerOf f b, code) :: l, by simp [trees, i1, j1, Load.bind], .cons i2 j2⟩

/-- A written program is loaded. -/
theorem program_loads {p : Program} {ms : List Mark} {text : Text} (hp : WellFormed p) (hw : WritesProgram p ms) (hl : Laid ms text) :
    ∃ l, load text = .ok l ∧ Coded p l := by
  obtain ⟨ts, ds, b, hs, h1, h0, h2, h3, h4⟩ := file_reads hp hw hl
  obtain ⟨l, i1, i2⟩ := program_trees hp h4 h4 fun _ h => h
  refine ⟨l, ?_, i2⟩
  simp only [load, h1, h0, h2, Load.bind, h3, Load.ofOption, definable_distinct (h4.map ▸ hp.distinct), i1, if_true]

end Verif.Whole
