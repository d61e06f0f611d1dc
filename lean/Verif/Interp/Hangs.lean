import Verif.Interp.Props

/-!
# Executions without an end

`Refine` shows that the interpreter ends as the reference semantics says.  This module is about the other executions: those that
fail, and those that go on forever.  `Hangs true k f` says that `f` fails, `Hangs false k f` that it has not ended after `k` steps.
-/

namespace Verif
namespace Interp
namespace Sim

open Spec (State Place Comp)

variable {A : Type} {α β : Type} {P : Prim A} {G : Prog A} {bad : Bool} {k : Nat} {σ σ₁ : State A}

/-- `f` fails, or has not ended after `k` steps. -/
def Hangs (bad : Bool) (k : Nat) (f : Nat → Res A α) : Prop :=
  match bad with
  | true => Ends f .fatal
  | false => f k = .fuel

theorem Hangs.step {f g : Nat → Res A α} (h : ∀ n, f (n + 1) = g n) (hg : Hangs bad k g) : Hangs bad (k + 1) f := by
  cases bad with
  | true => exact Ends.step h hg
  | false => exact (h k).trans hg

theorem Hangs.congr {f g : Nat → Res A α} (h : ∀ n, f n = g n) (hg : Hangs bad k g) : Hangs bad k f := by
  rw [show f = g from funext h]; exact hg

theorem Hangs.less {f : Nat → Res A α} (hm : ∀ n, Le (f n) (f (n + 1))) (h : Hangs bad (k + 1) f) : Hangs bad k f := by
  cases bad with
  | true => exact h
  | false =>
    rcases hm k with h' | h'
    · exact h'
    · exact h'.trans h

theorem fuel_or {f : Nat → Res A α} (hm : ∀ n, Le (f n) (f (n + 1))) {r : Res A α} (he : Ends f r) (n : Nat) : f n = .fuel ∨ f n = r := by
  by_cases h : f n = .fuel
  · exact .inl h
  · exact .inr ((Ends.of_eq hm rfl h).unique he)

theorem Hangs.left {f : Nat → Res A α} {K : Nat → α → St A → Res A β} (h : Hangs bad k f) : Hangs bad k fun n => (f n).bind (K n) := by
  cases bad with
  | true => exact Ends.via h (h := fun _ => .fatal) (fun n hn => by simp only [hn, Res.bind]) (.const fun _ => rfl)
  | false =>
    have h : f k = .fuel := h
    simp only [Hangs, h, Res.bind]

theorem Hangs.tryLeft {f : Nat → Res A α} {K : Nat → α → St A → Res A Unit} (h : Hangs bad k f) :
    Hangs bad k fun n => (f n).tryControl (K n) := by
  cases bad with
  | true => exact Ends.via h (h := fun _ => .fatal) (fun n hn => by simp only [hn, Res.tryControl]) (.const fun _ => rfl)
  | false =>
    have h : f k = .fuel := h
    simp only [Hangs, h, Res.tryControl]

theorem Hangs.after {f : Nat → Res A α} {K : Nat → α → St A → Res A β} {a : α} {s : St A} (hm : ∀ n, Le (f n) (f (n + 1)))
    (he : Ends f (.ok a s)) (h : Hangs bad k fun n => K n a s) : Hangs bad k fun n => (f n).bind (K n) := by
  cases bad with
  | true => exact he.bind_ok h
  | false =>
    rcases fuel_or hm he k with h' | h' <;> simp only [Hangs, h', Res.bind]
    exact h

theorem Hangs.tryAfter {f : Nat → Res A α} {K : Nat → α → St A → Res A Unit} {a : α} {s : St A} (hm : ∀ n, Le (f n) (f (n + 1)))
    (he : Ends f (.ok a s)) (h : Hangs bad k fun n => K n a s) : Hangs bad k fun n => (f n).tryControl (K n) := by
  cases bad with
  | true => exact he.try_ok h
  | false =>
    rcases fuel_or hm he k with h' | h' <;> simp only [Hangs, h', Res.tryControl]
    exact h

/-! ## Of every kind of code -/

variable (P G)

def EvalHangs (bad : Bool) (k : Nat) (σ : State A) (e : Expr A) : Prop :=
  ∀ pre stk s, Rel pre stk σ s → s.cf = .normal → Hangs bad k fun n => eval P G n e s

def ArgsHangs (bad : Bool) (k : Nat) (σ : State A) (es : List (Expr A)) : Prop :=
  ∀ pre stk s, Rel pre stk σ s → s.cf = .normal → Hangs bad k fun n => evalArgs P G n es s

def ListHangs (bad : Bool) (k : Nat) (σ : State A) (b : List (Stmt A)) : Prop :=
  ∀ pre stk s, Rel pre stk σ s → s.cf = .normal → Hangs bad k fun n => execList P G n b s

def ExecHangs (bad : Bool) (k : Nat) (σ : State A) (st : Stmt A) : Prop :=
  ∀ pre stk s, Rel pre stk σ s → s.cf = .normal → Hangs bad k fun n => exec P G n st s

def WhileHangs (bad : Bool) (k : Nat) (σ : State A) (c : Expr A) (b : Stmt A) : Prop :=
  ∀ pre stk s, Rel pre stk σ s → s.cf = .normal → Hangs bad k fun n => execWhile P G n c b s

def ForHangs (bad : Bool) (k : Nat) (σ : State A) (c : Expr A) (iter b : Stmt A) : Prop :=
  ∀ pre stk s, Rel pre stk σ s → s.cf = .normal → Hangs bad k fun n => execFor P G n (some c) iter b s

variable {P G}

theorem eval_less {e : Expr A} (h : EvalHangs P G bad (k + 1) σ e) : EvalHangs P G bad k σ e :=
  fun pre stk s hr hc => (h pre stk s hr hc).less fun n => (monoAt P G n).eval e s

theorem exec_less {st : Stmt A} (h : ExecHangs P G bad (k + 1) σ st) : ExecHangs P G bad k σ st :=
  fun pre stk s hr hc => (h pre stk s hr hc).less fun n => (monoAt P G n).exec st s

theorem list_less {b : List (Stmt A)} (h : ListHangs P G bad (k + 1) σ b) : ListHangs P G bad k σ b :=
  fun pre stk s hr hc => (h pre stk s hr hc).less fun n => (monoAt P G n).execList b s

theorem while_less {c : Expr A} {b : Stmt A} (h : WhileHangs P G bad (k + 1) σ c b) : WhileHangs P G bad k σ c b :=
  fun pre stk s hr hc => (h pre stk s hr hc).less fun n => (monoAt P G n).execWhile c b s

theorem for_less {c : Expr A} {iter b : Stmt A} (h : ForHangs P G bad (k + 1) σ c iter b) : ForHangs P G bad k σ c iter b :=
  fun pre stk s hr hc => (h pre stk s hr hc).less fun n => (monoAt P G n).execFor (some c) iter b s

theorem args_less {es : List (Expr A)} (h : ArgsHangs P G bad (k + 1) σ es) : ArgsHangs P G bad k σ es :=
  fun pre stk s hr hc => (h pre stk s hr hc).less fun n => (monoAt P G n).evalArgs es s

/-! ## Expressions -/

theorem hangs_unary {op : Name} {e : Expr A} (h : EvalHangs P G bad k σ e) : EvalHangs P G bad k σ (.unary op e) :=
  eval_less fun pre stk s hr hc =>
    ((h pre stk s hr hc).left (K := fun _ v s => ofOption s (P.unary op v))).step fun n => by rw [eval]

theorem hangs_unaryFail {op : Name} {e : Expr A} {v : Value A} (h : EvalOk P G σ e (.val v) σ₁) (hu : P.unary op v = none) :
    EvalHangs P G true k σ (.unary op e) := eval_less fun pre stk s hr hc => by
  obtain ⟨s₁, he, hc₁, hr₁, -⟩ := h pre stk s hr hc
  exact (Hangs.after (K := fun _ v s => ofOption s (P.unary op v)) (fun n => (monoAt P G n).eval e s) he
    (show Hangs true k _ from Ends.const fun n => by simp only [hu, ofOption])).step fun n => by rw [eval]

/-- The rest of a binary expression. -/
def binaryK (P : Prim A) (G : Prog A) (op : Name) (r : Expr A) (n : Nat) (v : Value A) (s : St A) : Res A (Value A) :=
  (eval P G n r s).bind fun w s => ofOption s (P.binary op v w)

theorem hangs_binaryL {op : Name} {l r : Expr A} (h : EvalHangs P G bad k σ l) : EvalHangs P G bad k σ (.binary op l r) :=
  eval_less fun pre stk s hr hc => ((h pre stk s hr hc).left (K := binaryK P G op r)).step fun n => by rw [eval]; rfl

theorem hangs_binaryR {op : Name} {l r : Expr A} {v : Value A} (hl : EvalOk P G σ l (.val v) σ₁) (h : EvalHangs P G bad k σ₁ r) :
    EvalHangs P G bad k σ (.binary op l r) := eval_less fun pre stk s hr hc => by
  obtain ⟨s₁, he, hc₁, hr₁, -⟩ := hl pre stk s hr hc
  exact (Hangs.after (K := binaryK P G op r) (fun n => (monoAt P G n).eval l s) he
    ((h pre stk s₁ hr₁ hc₁).left (K := fun _ w s => ofOption s (P.binary op v w)))).step fun n => by rw [eval]; rfl

theorem hangs_binaryFail {op : Name} {l r : Expr A} {v w : Value A} {σ₂ : State A} (hl : EvalOk P G σ l (.val v) σ₁)
    (hr' : EvalOk P G σ₁ r (.val w) σ₂) (hb : P.binary op v w = none) : EvalHangs P G true k σ (.binary op l r) :=
  eval_less fun pre stk s hr hc => by
  obtain ⟨s₁, he, hc₁, hr₁, -⟩ := hl pre stk s hr hc
  obtain ⟨s₂, he₂, hc₂, hr₂, -⟩ := hr' pre stk s₁ hr₁ hc₁
  exact (Hangs.after (K := binaryK P G op r) (fun n => (monoAt P G n).eval l s) he
    (Hangs.after (K := fun _ w s => ofOption s (P.binary op v w)) (fun n => (monoAt P G n).eval r s₁) he₂
      (show Hangs true k _ from Ends.const fun n => by simp only [hb, ofOption]))).step fun n => by rw [eval]; rfl

theorem hangs_compareL {c : Cmp} {l r : Expr A} (h : EvalHangs P G bad k σ l) : EvalHangs P G bad k σ (.compare c l r) :=
  eval_less fun pre stk s hr hc => ((h pre stk s hr hc).left (K := compareK P G c r)).step fun n => by rw [eval]; rfl

theorem hangs_compareR {c : Cmp} {l r : Expr A} {v : Value A} (hl : EvalOk P G σ l (.val v) σ₁) (h : EvalHangs P G bad k σ₁ r) :
    EvalHangs P G bad k σ (.compare c l r) := eval_less fun pre stk s hr hc => by
  obtain ⟨s₁, he, hc₁, hr₁, -⟩ := hl pre stk s hr hc
  exact (Hangs.after (K := compareK P G c r) (fun n => (monoAt P G n).eval l s) he
    ((h pre stk s₁ hr₁ hc₁).left (K := fun n w s => (compareVals P G n c v w s).bind fun b s => .ok (P.bool b) s))).step
      fun n => by rw [eval]; rfl

theorem hangs_boolL {op : BoolOp} {l r : Expr A} (h : EvalHangs P G bad k σ l) : EvalHangs P G bad k σ (.bool op l r) :=
  eval_less fun pre stk s hr hc => ((h pre stk s hr hc).left (K := boolK P G op r)).step fun n => by rw [eval]; rfl

theorem hangs_boolR {op : BoolOp} {l r : Expr A} {v : Value A} (hl : EvalOk P G σ l (.val v) σ₁) (hs : op.short (isTrue P v) = none)
    (h : EvalHangs P G bad k σ₁ r) : EvalHangs P G bad k σ (.bool op l r) := eval_less fun pre stk s hr hc => by
  obtain ⟨s₁, he, hc₁, hr₁, -⟩ := hl pre stk s hr hc
  refine (Hangs.after (K := boolK P G op r) (fun n => (monoAt P G n).eval l s) he ?_).step fun n => by rw [eval]; rfl
  exact ((h pre stk s₁ hr₁ hc₁).left (K := fun _ w s => .ok (P.bool (op.result (isTrue P v) (isTrue P w))) s)).congr
    fun n => by simp only [boolK, hs]

/-- The rest of a conditional expression. -/
def ternaryK (P : Prim A) (G : Prog A) (t e : Expr A) (n : Nat) (v : Value A) (s : St A) : Res A (Value A) :=
  if isTrue P v then eval P G n t s else eval P G n e s

theorem hangs_ternary {c t e : Expr A} (h : EvalHangs P G bad k σ c) : EvalHangs P G bad k σ (.ternary c t e) :=
  eval_less fun pre stk s hr hc => ((h pre stk s hr hc).left (K := ternaryK P G t e)).step fun n => by rw [eval]; rfl

theorem hangs_ternaryT {c t e : Expr A} {v : Value A} (hc' : EvalOk P G σ c (.val v) σ₁) (hv : isTrue P v = true)
    (h : EvalHangs P G bad k σ₁ t) : EvalHangs P G bad k σ (.ternary c t e) := eval_less fun pre stk s hr hc => by
  obtain ⟨s₁, he, hc₁, hr₁, -⟩ := hc' pre stk s hr hc
  refine (Hangs.after (K := ternaryK P G t e) (fun n => (monoAt P G n).eval c s) he ?_).step fun n => by rw [eval]; rfl
  exact (h pre stk s₁ hr₁ hc₁).congr fun n => by simp only [ternaryK, hv, if_true]

theorem hangs_ternaryF {c t e : Expr A} {v : Value A} (hc' : EvalOk P G σ c (.val v) σ₁) (hv : isTrue P v = false)
    (h : EvalHangs P G bad k σ₁ e) : EvalHangs P G bad k σ (.ternary c t e) := eval_less fun pre stk s hr hc => by
  obtain ⟨s₁, he, hc₁, hr₁, -⟩ := hc' pre stk s hr hc
  refine (Hangs.after (K := ternaryK P G t e) (fun n => (monoAt P G n).eval c s) he ?_).step fun n => by rw [eval]; rfl
  exact (h pre stk s₁ hr₁ hc₁).congr fun n => by simp only [ternaryK, hv, Bool.false_eq_true, if_false]

theorem hangs_assign {p : Path} {e : Expr A} {w : Place} {old : Value A} (hl : σ.locate p = some (w, old))
    (h : EvalHangs P G bad k σ e) : EvalHangs P G bad k σ (.assign p e) := eval_less fun pre stk s hr hc => by
  have h := h pre stk s hr hc
  refine Hangs.step (g := fun n => match eval P G n e s with
    | .ok v s => assignTo s (sref (ids stk) w) p.last (P.assign old v)
    | .raise c s => .ok .null { s with cf := c }
    | r => r) (fun n => by simp only [eval, lvalue_ok hr hl, Res.bind]; rfl) ?_
  cases bad with
  | true => exact Ends.via h (h := fun _ => .fatal) (fun n hn => by simp only [hn]) (.const fun _ => rfl)
  | false =>
    have h : eval P G k e s = .fuel := h
    simp only [Hangs, h]

theorem hangs_incrFail {op : Name} {p : Path} {w : Place} {old : Value A} (hl : σ.locate p = some (w, old)) (hu : P.unary op old = none) :
    EvalHangs P G true k σ (.incr op p) := eval_less fun pre stk s hr hc =>
  Hangs.step (g := fun _ => .fatal) (fun n => by simp only [eval, lvalue_ok hr hl, Res.bind, assignTo, hu])
    (show Hangs true k _ from Ends.const fun _ => rfl)

theorem hangs_argsHead {e : Expr A} {es : List (Expr A)} (h : EvalHangs P G bad k σ e) : ArgsHangs P G bad k σ (e :: es) :=
  args_less fun pre stk s hr hc => ((h pre stk s hr hc).left (K := argsK P G es)).step fun n => by rw [evalArgs]; rfl

theorem hangs_argsTail {e : Expr A} {es : List (Expr A)} {v : Value A} (he : EvalOk P G σ e (.val v) σ₁) (h : ArgsHangs P G bad k σ₁ es) :
    ArgsHangs P G bad k σ (e :: es) := args_less fun pre stk s hr hc => by
  obtain ⟨s₁, he, hc₁, hr₁, -⟩ := he pre stk s hr hc
  exact (Hangs.after (K := argsK P G es) (fun n => (monoAt P G n).eval e s) he
    ((h pre stk s₁ hr₁ hc₁).left (K := fun _ vs s => .ok (v :: vs) s))).step fun n => by rw [evalArgs]; rfl

theorem hangs_callArgs {path : List Name} {f : Name} {args : List (Expr A)} (h : ArgsHangs P G bad k σ args) :
    EvalHangs P G bad k σ (.call path f args) := eval_less fun pre stk s hr hc =>
  ((h pre stk s hr hc).left (K := fun n vs s => call P G n path f vs s)).step fun n => by rw [eval]

theorem hangs_run {m : Method A} {self : Option (Name × Nat)} {vs : List (Value A)} {b : List (Stmt A)} {s : St A} (hb : m.code = .body b)
    (h : ListHangs P G bad k { σ with blocks := [Spec.parameters self m vs], self := self, rv := .null } b) (hd : Data σ s) (hi : Idle s)
    (hc : s.cf = .normal) : Hangs bad (k + 1) fun n => run P G n m self vs s := by
  rw [parameters_eq] at h
  have h := h s.frames [(s.next, false)] (pushFrame s self m vs) (pushFrame_rel hd hi self m vs) hc
  refine Hangs.step (g := fun n => match execList P G n b (pushFrame s self m vs) with
      | .ok _ s₂ =>
        let v := if m.isVoid then .null else returnValue s₂
        (popFrame s₂).bind fun _ s₃ => .ok v (dropAlias s.next s₃)
      | .raise c s₂ => .raise c (dropAlias s.next s₂)
      | .fatal => .fatal
      | .ub => .ub
      | .fuel => .fuel) (fun n => by simp only [run, hb]; rfl) ?_
  cases bad with
  | true => exact Ends.via h (h := fun _ => .fatal) (fun n hn => by simp only [hn]) (.const fun _ => rfl)
  | false =>
    have h : execList P G k b (pushFrame s self m vs) = .fuel := h
    simp only [Hangs, h]

theorem hangs_call {path : List Name} {f : Name} {args : List (Expr A)} {vs : List (Value A)} {m : Bound A} {b : List (Stmt A)}
    (ha : ArgsOk P G σ args (.val vs) σ₁) (hm : σ₁.callee G path f vs = some m) (hb : m.1.code = .body b)
    (h : ListHangs P G bad k { σ₁ with blocks := [Spec.parameters m.2 m.1 vs], self := m.2, rv := .null } b) :
    EvalHangs P G bad k σ (.call path f args) := by
  refine eval_less (eval_less (eval_less fun pre stk s hr hc => ?_))
  obtain ⟨s₁, he, hc₁, hr₁, -⟩ := ha pre stk s hr hc
  refine (Hangs.after (K := fun n vs s => call P G n path f vs s) (fun n => (monoAt P G n).evalArgs args s) he ?_).step fun n => by rw [eval]
  refine Hangs.step (g := fun n => (run P G n m.1 m.2 vs s₁).bind afterCall)
    (fun n => by rw [call_found P G ((hr₁.resolveCall path f vs).1 m hm), invoke_body ⟨b, hb⟩]) ?_
  exact Hangs.left (K := fun _ => afterCall) (hangs_run hb h hr₁.data hr₁.idle hc₁)

/-! ## Statements -/

theorem hangs_head {st : Stmt A} {b : List (Stmt A)} (h : ExecHangs P G bad k σ st) : ListHangs P G bad (k + 1) σ (st :: b) :=
  fun pre stk s hr hc => ((h pre stk s hr hc).left (K := fun n _ s => execList P G n b s)).step
    fun n => by simp only [execList, hc, if_true]

theorem hangs_tail {st : Stmt A} {b : List (Stmt A)} (h1 : ExecOk P G σ st .normal σ₁) (h : ListHangs P G bad k σ₁ b) :
    ListHangs P G bad (k + 1) σ (st :: b) := fun pre stk s hr hc => by
  obtain ⟨s₁, he, hc₁, -, hr₁, -⟩ := h1 pre stk s hr hc
  exact (Hangs.after (K := fun n _ s => execList P G n b s) (fun n => (monoAt P G n).exec st s) he (h pre stk s₁ hr₁ hc₁)).step
    fun n => by simp only [execList, hc, if_true]

theorem hangs_expr {e : Expr A} (h : EvalHangs P G bad k σ e) : ExecHangs P G bad k σ (.expr e) := exec_less fun pre stk s hr hc =>
  ((h pre stk s hr hc).tryLeft (K := fun _ _ s => .ok () s)).step fun n => by rw [exec]

theorem hangs_print {e : Expr A} (h : EvalHangs P G bad k σ e) : ExecHangs P G bad k σ (.print e) := exec_less fun pre stk s hr hc =>
  ((h pre stk s hr hc).tryLeft (K := fun _ v s => .ok () (printed v s))).step fun n => by rw [exec]

theorem hangs_assert {e : Expr A} {msg : Option (Expr A)} (h : EvalHangs P G bad k σ e) : ExecHangs P G bad k σ (.assert e msg) :=
  exec_less fun pre stk s hr hc => ((h pre stk s hr hc).tryLeft (K := assertK P G msg)).step fun n => by rw [exec]; rfl

/-- An assertion that does not hold. -/
theorem hangs_assertF {e : Expr A} {v : Value A} (h : EvalOk P G σ e (.val v) σ₁) (hv : isTrue P v = false) :
    ExecHangs P G true k σ (.assert e none) := exec_less fun pre stk s hr hc => by
  obtain ⟨s₁, he, hc₁, hr₁, -⟩ := h pre stk s hr hc
  exact (Hangs.tryAfter (K := assertK P G none) (fun n => (monoAt P G n).eval e s) he
    (show Hangs true k _ from Ends.const fun n => by simp only [assertK, hv, Bool.false_eq_true, if_false])).step fun n => by rw [exec]; rfl

theorem hangs_ret {e : Expr A} (h : EvalHangs P G bad k σ e) : ExecHangs P G bad k σ (.ret (some e)) := exec_less fun pre stk s hr hc =>
  ((h pre stk s hr hc).tryLeft (K := retK P)).step fun n => by rw [exec]; rfl

theorem hangs_decl {ty x : Name} {e : Expr A} {b : AMap Name (Value A)} {bs : List (AMap Name (Value A))} (hb : σ.blocks = b :: bs)
    (hx : b.find x = none) (h : EvalHangs P G bad k { σ with blocks := b.set x (P.default ty) :: bs } e) :
    ExecHangs P G bad k σ (.decl ty x (some e)) := exec_less fun pre stk s hr hc => by
  obtain ⟨s', hd, hr', hs', hc'⟩ := hr.define hb hx (P.default ty)
  exact ((h pre stk s' hr' (hc'.trans hc)).tryLeft (K := fun _ v s => assignDeclared P x v s)).step
    fun n => by simp only [exec, declare, hd, Res.bind]

/-- The rest of an if statement. -/
def iteK (P : Prim A) (G : Prog A) (t e : Stmt A) (n : Nat) (v : Value A) (s : St A) : Res A Unit :=
  if isTrue P v then exec P G n t s else exec P G n e s

theorem hangs_ite {c : Expr A} {t e : Stmt A} (h : EvalHangs P G bad k σ c) : ExecHangs P G bad k σ (.ite c t e) :=
  exec_less fun pre stk s hr hc => ((h pre stk s hr hc).tryLeft (K := iteK P G t e)).step fun n => by rw [exec]; rfl

theorem hangs_iteT {c : Expr A} {t e : Stmt A} {v : Value A} (hc' : EvalOk P G σ c (.val v) σ₁) (hv : isTrue P v = true)
    (h : ExecHangs P G bad k σ₁ t) : ExecHangs P G bad k σ (.ite c t e) := exec_less fun pre stk s hr hc => by
  obtain ⟨s₁, he, hc₁, hr₁, -⟩ := hc' pre stk s hr hc
  refine (Hangs.tryAfter (K := iteK P G t e) (fun n => (monoAt P G n).eval c s) he ?_).step fun n => by rw [exec]; rfl
  exact (h pre stk s₁ hr₁ hc₁).congr fun n => by simp only [iteK, hv, if_true]

theorem hangs_iteF {c : Expr A} {t e : Stmt A} {v : Value A} (hc' : EvalOk P G σ c (.val v) σ₁) (hv : isTrue P v = false)
    (h : ExecHangs P G bad k σ₁ e) : ExecHangs P G bad k σ (.ite c t e) := exec_less fun pre stk s hr hc => by
  obtain ⟨s₁, he, hc₁, hr₁, -⟩ := hc' pre stk s hr hc
  refine (Hangs.tryAfter (K := iteK P G t e) (fun n => (monoAt P G n).eval c s) he ?_).step fun n => by rw [exec]; rfl
  exact (h pre stk s₁ hr₁ hc₁).congr fun n => by simp only [iteK, hv, Bool.false_eq_true, if_false]

/-- A list of one statement goes on as long as the statement. -/
theorem hangs_only {st : Stmt A} (h : ListHangs P G bad (k + 1) σ [st]) : ExecHangs P G bad k σ st := fun pre stk s hr hc => by
  have h := h pre stk s hr hc
  cases bad with
  | true =>
    obtain ⟨n, h⟩ := h
    refine ⟨n + 1, fun m hm => ?_⟩
    have i := h (m + 1) (by omega)
    obtain ⟨m, rfl⟩ : ∃ j, m = j + 1 := ⟨m - 1, by omega⟩
    simp only [execList, hc, if_true] at i
    cases e : exec P G (m + 1) st s with
    | ok a s' => rw [e] at i; cases i
    | fatal => exact e
    | _ => rw [e] at i; cases i
  | false =>
    have i : execList P G (k + 1) [st] s = .fuel := h
    show exec P G k st s = .fuel
    cases k with
    | zero => rw [exec]
    | succ k =>
      simp only [execList, hc, if_true] at i
      cases e : exec P G (k + 1) st s with
      | ok a s' => rw [e] at i; cases i
      | fuel => rfl
      | _ => rw [e] at i; cases i

theorem hangs_iteOnly {c : Expr A} {t e : Stmt A} {v : Value A} (hc' : EvalOk P G σ c (.val v) σ₁) (hv : isTrue P v = false)
    (h : ListHangs P G bad k σ₁ [e]) : ExecHangs P G bad k σ (.ite c t e) := by
  have go : ∀ {j}, ExecHangs P G bad j σ₁ e → ExecHangs P G bad (j + 1) σ (.ite c t e) := fun h pre stk s hr hc => by
    obtain ⟨s₁, he, hc₁, hr₁, -⟩ := hc' pre stk s hr hc
    refine (Hangs.tryAfter (K := iteK P G t e) (fun n => (monoAt P G n).eval c s) he ?_).step fun n => by rw [exec]; rfl
    exact (h pre stk s₁ hr₁ hc₁).congr fun n => by simp only [iteK, hv, Bool.false_eq_true, if_false]
  cases k with
  | succ k => exact go (hangs_only h)
  | zero =>
    cases bad with
    | true => exact exec_less (go (j := 0) (hangs_only (k := 0) h))
    | false =>
      intro pre stk s _ _
      show exec P G 0 _ s = .fuel
      rw [exec]

theorem hangs_block {b : List (Stmt A)} (h : ListHangs P G bad k { σ with blocks := [] :: σ.blocks } b) : ExecHangs P G bad k σ (.block b) :=
  exec_less (exec_less fun pre stk s hr hc => by
    obtain ⟨s₁, h₁, hr₁, hs₁, hc₁⟩ := hr.pushScope
    refine Hangs.step (g := fun n => execBlock P G n b s) (fun n => by rw [exec]) ?_
    exact ((h pre _ s₁ hr₁ (hc₁.trans hc)).left (K := fun _ _ s => popScope s)).step fun n => by simp only [execBlock, h₁, Res.bind])

/-! ### Switch -/

theorem Hangs.viaLeft {f : Nat → Res A α} {g : Nat → Res A β} (h : Hangs bad k f) (hf : ∀ n, f n = .fatal → g n = .fatal)
    (hu : ∀ n, f n = .fuel → g n = .fuel) : Hangs bad k g := by
  cases bad with
  | true => exact Ends.via h (h := fun _ => .fatal) hf (.const fun _ => rfl)
  | false => exact hu k h

theorem Hangs.viaAfter {f : Nat → Res A α} {g h : Nat → Res A β} {a : α} {s : St A} (hm : ∀ n, Le (f n) (f (n + 1)))
    (he : Ends f (.ok a s)) (ho : ∀ n, f n = .ok a s → g n = h n) (hu : ∀ n, f n = .fuel → g n = .fuel) (hh : Hangs bad k h) :
    Hangs bad k g := by
  cases bad with
  | true => exact he.via ho hh
  | false =>
    rcases fuel_or hm he k with h' | h'
    · exact hu k h'
    · exact (ho k h').trans hh

/-- The cases of a `switch`. -/
def CasesHangs (P : Prim A) (G : Prog A) (bad : Bool) (k : Nat) (σ : State A) (v : Value A) (cases : List (Expr A × List (Stmt A)))
    (dflt : List (Stmt A)) : Prop :=
  ∀ pre stk s, Rel pre stk σ s → s.cf = .normal → Hangs bad k fun n => execCases P G n v cases dflt s

theorem cases_less {v : Value A} {cases : List (Expr A × List (Stmt A))} {dflt : List (Stmt A)}
    (h : CasesHangs P G bad (k + 1) σ v cases dflt) : CasesHangs P G bad k σ v cases dflt :=
  fun pre stk s hr hc => (h pre stk s hr hc).less fun n => (monoAt P G n).execCases v cases dflt s

theorem hangs_inner {b : List (Stmt A)} (h : ListHangs P G bad k { σ with blocks := [] :: σ.blocks } b) {pre : List (Frame A)}
    {stk : List (Nat × Bool)} {s : St A} (hr : Rel pre stk σ s) (hc : s.cf = .normal) : Hangs bad (k + 1) fun n => execBlock P G n b s := by
  obtain ⟨s₁, h₁, hr₁, hs₁, hc₁⟩ := hr.pushScope
  exact ((h pre _ s₁ hr₁ (hc₁.trans hc)).left (K := fun _ _ s => popScope s)).step fun n => by simp only [execBlock, h₁, Res.bind]

theorem hangs_default {v : Value A} {dflt : List (Stmt A)} (h : ListHangs P G bad k { σ with blocks := [] :: σ.blocks } dflt) :
    CasesHangs P G bad k σ v [] dflt := cases_less (cases_less fun pre stk s hr hc =>
  ((hangs_inner h hr hc).left (K := fun _ _ s => .ok true s)).step fun n => by rw [execCases])

theorem hangs_label {v : Value A} {e : Expr A} {b : List (Stmt A)} {cases : List (Expr A × List (Stmt A))} {dflt : List (Stmt A)}
    (h : EvalHangs P G bad k σ e) : CasesHangs P G bad k σ v ((e, b) :: cases) dflt := cases_less fun pre stk s hr hc => by
  refine Hangs.step (g := fun n => execCases P G (n + 1) v ((e, b) :: cases) dflt s) (fun n => rfl) ?_
  exact (h pre stk s hr hc).viaLeft (fun n hn => by simp only [execCases, hn]) (fun n hn => by simp only [execCases, hn])

theorem hangs_hit {v w : Value A} {e : Expr A} {b : List (Stmt A)} {cases : List (Expr A × List (Stmt A))} {dflt : List (Stmt A)}
    {σ₂ : State A} (he : EvalOk P G σ e (.val w) σ₁) (hcmp : CompareOk P G σ₁ .eq v w (.val true) σ₂)
    (h : ListHangs P G bad k { σ₂ with blocks := [] :: σ₂.blocks } b) : CasesHangs P G bad k σ v ((e, b) :: cases) dflt :=
  cases_less (cases_less fun pre stk s hr hc => by
  obtain ⟨s₁, he₁, hc₁, hr₁, hs₁⟩ := he pre stk s hr hc
  obtain ⟨s₂, he₂, hc₂, hr₂, hs₂⟩ := hcmp pre stk s₁ hr₁ hc₁
  refine Hangs.step (g := fun n => execCases P G (n + 1) v ((e, b) :: cases) dflt s) (fun n => rfl) ?_
  refine Hangs.viaAfter (h := fun n => casesK P G v b cases dflt n w s₁) (fun n => (monoAt P G n).eval e s) he₁
    (fun n hn => by simp only [execCases, hn]; rfl) (fun n hn => by simp only [execCases, hn]) ?_
  refine Hangs.after (K := fun n same s => if same then (execBlock P G n b s).bind fun _ s => .ok true s
    else execCases P G n v cases dflt s) (fun n => (monoAt P G n).compareVals .eq v w s₁) he₂ ?_
  simp only [if_true]
  exact (hangs_inner h hr₂ hc₂).left (K := fun _ _ s => .ok true s))

theorem hangs_skip {v w : Value A} {e : Expr A} {b : List (Stmt A)} {cases : List (Expr A × List (Stmt A))} {dflt : List (Stmt A)}
    {σ₂ : State A} (he : EvalOk P G σ e (.val w) σ₁) (hcmp : CompareOk P G σ₁ .eq v w (.val false) σ₂)
    (h : CasesHangs P G bad k σ₂ v cases dflt) : CasesHangs P G bad k σ v ((e, b) :: cases) dflt :=
  cases_less fun pre stk s hr hc => by
  obtain ⟨s₁, he₁, hc₁, hr₁, hs₁⟩ := he pre stk s hr hc
  obtain ⟨s₂, he₂, hc₂, hr₂, hs₂⟩ := hcmp pre stk s₁ hr₁ hc₁
  refine Hangs.step (g := fun n => execCases P G (n + 1) v ((e, b) :: cases) dflt s) (fun n => rfl) ?_
  refine Hangs.viaAfter (h := fun n => casesK P G v b cases dflt n w s₁) (fun n => (monoAt P G n).eval e s) he₁
    (fun n hn => by simp only [execCases, hn]; rfl) (fun n hn => by simp only [execCases, hn]) ?_
  refine Hangs.after (K := fun n same s => if same then (execBlock P G n b s).bind fun _ s => .ok true s
    else execCases P G n v cases dflt s) (fun n => (monoAt P G n).compareVals .eq v w s₁) he₂ ?_
  simp only [Bool.false_eq_true, if_false]
  exact h pre stk s₂ hr₂ hc₂

/-- The rest of a `switch` after its expression has been computed. -/
def switchK (P : Prim A) (G : Prog A) (e : Expr A) (cases : List (Expr A × List (Stmt A))) (dflt : List (Stmt A)) (n : Nat) (v : Value A)
    (s : St A) : Res A Unit :=
  match execCases P G n v cases dflt s with
  | .ok true s => switchEnd P G n e cases dflt s
  | .ok false s => .ok () s
  | .raise c s => .raise c s
  | .fatal => .fatal
  | .ub => .ub
  | .fuel => .fuel

theorem hangs_switchExpr {e : Expr A} {c : Expr A × List (Stmt A)} {cases : List (Expr A × List (Stmt A))} {dflt : List (Stmt A)}
    (h : EvalHangs P G bad k σ e) : ExecHangs P G bad k σ (.switch e (c :: cases) dflt) := exec_less (exec_less fun pre stk s hr hc => by
  refine Hangs.step (g := fun n => execSwitch P G n e (c :: cases) dflt s) (fun n => by rw [exec]) ?_
  exact ((h pre stk s hr hc).tryLeft (K := switchK P G e (c :: cases) dflt)).step fun n => execSwitch_cons n s)

theorem hangs_switch {e : Expr A} {c : Expr A × List (Stmt A)} {cases : List (Expr A × List (Stmt A))} {dflt : List (Stmt A)} {v : Value A}
    (he : EvalOk P G σ e (.val v) σ₁) (h : CasesHangs P G bad k σ₁ v (c :: cases) dflt) :
    ExecHangs P G bad k σ (.switch e (c :: cases) dflt) := exec_less (exec_less fun pre stk s hr hc => by
  obtain ⟨s₁, he₁, hc₁, hr₁, hs₁⟩ := he pre stk s hr hc
  refine Hangs.step (g := fun n => execSwitch P G n e (c :: cases) dflt s) (fun n => by rw [exec]) ?_
  refine (Hangs.tryAfter (K := switchK P G e (c :: cases) dflt) (fun n => (monoAt P G n).eval e s) he₁ ?_).step fun n => execSwitch_cons n s
  exact (h pre stk s₁ hr₁ hc₁).viaLeft (fun n hn => by simp only [switchK, hn]) (fun n hn => by simp only [switchK, hn]))

theorem hangs_while {c : Expr A} {b : Stmt A} (h : WhileHangs P G bad k σ c b) : ExecHangs P G bad k σ (.while c b) :=
  exec_less fun pre stk s hr hc => (h pre stk s hr hc).step fun n => by rw [exec]

theorem hangs_whileCond {c : Expr A} {b : Stmt A} (h : EvalHangs P G bad k σ c) : WhileHangs P G bad (k + 1) σ c b :=
  fun pre stk s hr hc => ((h pre stk s hr hc).tryLeft (K := whileK P G c b)).step fun n => by rw [execWhile]; rfl

theorem hangs_whileBody {c : Expr A} {b : Stmt A} {v : Value A} (hc' : EvalOk P G σ c (.val v) σ₁) (hv : isTrue P v = true)
    (h : ExecHangs P G bad k σ₁ b) : WhileHangs P G bad (k + 1) σ c b := fun pre stk s hr hc => by
  obtain ⟨s₁, he, hc₁, hr₁, -⟩ := hc' pre stk s hr hc
  refine (Hangs.tryAfter (K := whileK P G c b) (fun n => (monoAt P G n).eval c s) he ?_).step fun n => by rw [execWhile]; rfl
  exact ((h pre stk s₁ hr₁ hc₁).left (K := whileNextK P G c b)).congr fun n => whileK_true hv n s₁

theorem hangs_whileNext {c : Expr A} {b : Stmt A} {v : Value A} {d : Comp A} {σ₂ : State A} (hc' : EvalOk P G σ c (.val v) σ₁)
    (hv : isTrue P v = true) (hb : ExecOk P G σ₁ b d σ₂) (hd : d = .normal ∨ d = .cont) (h : WhileHangs P G bad k σ₂ c b) :
    WhileHangs P G bad (k + 1) σ c b := fun pre stk s hr hc => by
  obtain ⟨s₁, he, hc₁, hr₁, -⟩ := hc' pre stk s hr hc
  obtain ⟨s₂, he₂, hc₂, -, hr₂, -⟩ := hb pre stk s₁ hr₁ hc₁
  refine (Hangs.tryAfter (K := whileK P G c b) (fun n => (monoAt P G n).eval c s) he ?_).step fun n => by rw [execWhile]; rfl
  refine Hangs.congr (fun n => whileK_true hv n s₁) ?_
  refine Hangs.after (K := whileNextK P G c b) (fun n => (monoAt P G n).exec b s₁) he₂ ?_
  refine (h pre stk _ (hr₂.cf .normal) rfl).congr fun n => ?_
  rcases hd with rfl | rfl <;> simp only [whileNextK, afterBody, hc₂, cfOf]

/-- The rest of a for statement after its condition. -/
def forK (P : Prim A) (G : Prog A) (c : Expr A) (iter b : Stmt A) (n : Nat) (v : Value A) (s : St A) : Res A Unit :=
  if isTrue P v then forBody P G n (some c) iter b s else popScope s

/-- The rest of a for statement after its body. -/
def forNextK (P : Prim A) (G : Prog A) (c : Expr A) (iter b : Stmt A) (n : Nat) (_ : Unit) (s : St A) : Res A Unit :=
  match afterBody s with
  | some s => (exec P G n iter s).bind fun _ s => execFor P G n (some c) iter b s
  | none => .ok () (leaveLoop s)

/-- The rest of a for statement after its start. -/
def forStartK (P : Prim A) (G : Prog A) (c : Expr A) (iter b : Stmt A) (n : Nat) (_ : Unit) (s : St A) : Res A Unit :=
  execFor P G n (some c) iter b s

theorem hangs_forStart {init iter b : Stmt A} {c : Expr A} (h : ExecHangs P G bad k { σ with blocks := [] :: σ.blocks } init) :
    ExecHangs P G bad k σ (.for init (some c) iter b) := exec_less fun pre stk s hr hc => by
  obtain ⟨s₁, h₁, hr₁, hs₁, hc₁⟩ := hr.pushScope
  exact ((h pre _ s₁ hr₁ (hc₁.trans hc)).left (K := forStartK P G c iter b)).step fun n => by simp only [exec, h₁, Res.bind]; rfl

theorem hangs_for {init iter b : Stmt A} {c : Expr A} (hi : ExecOk P G { σ with blocks := [] :: σ.blocks } init .normal σ₁)
    (h : ForHangs P G bad k σ₁ c iter b) : ExecHangs P G bad k σ (.for init (some c) iter b) := exec_less fun pre stk s hr hc => by
  obtain ⟨s₁, h₁, hr₁, hs₁, hc₁⟩ := hr.pushScope
  obtain ⟨s₂, he₂, hc₂, -, hr₂, -⟩ := hi pre _ s₁ hr₁ (hc₁.trans hc)
  exact (Hangs.after (K := forStartK P G c iter b) (fun n => (monoAt P G n).exec init s₁) he₂ (h pre _ s₂ hr₂ hc₂)).step
    fun n => by simp only [exec, h₁, Res.bind]; rfl

theorem hangs_forCond {iter b : Stmt A} {c : Expr A} (h : EvalHangs P G bad k σ c) : ForHangs P G bad (k + 1) σ c iter b :=
  fun pre stk s hr hc => ((h pre stk s hr hc).tryLeft (K := forK P G c iter b)).step fun n => by rw [execFor]; rfl

theorem hangs_forTurn {iter b : Stmt A} {c : Expr A} {v : Value A} (hc' : EvalOk P G σ c (.val v) σ₁) (hv : isTrue P v = true)
    (h : ∀ pre stk s, Rel pre stk σ₁ s → s.cf = .normal → Hangs bad k fun n => (exec P G n b s).bind (forNextK P G c iter b n)) :
    ForHangs P G bad (k + 1) σ c iter b := for_less fun pre stk s hr hc => by
  obtain ⟨s₁, he, hc₁, hr₁, -⟩ := hc' pre stk s hr hc
  refine (Hangs.tryAfter (K := forK P G c iter b) (fun n => (monoAt P G n).eval c s) he ?_).step fun n => by rw [execFor]; rfl
  refine Hangs.congr (fun n => show forK P G c iter b n v s₁ = forBody P G n (some c) iter b s₁ by simp only [forK, hv, if_true]) ?_
  exact (h pre stk s₁ hr₁ hc₁).step fun n => by rw [forBody]; rfl

theorem hangs_forBody {iter b : Stmt A} {c : Expr A} {v : Value A} (hc' : EvalOk P G σ c (.val v) σ₁) (hv : isTrue P v = true)
    (h : ExecHangs P G bad k σ₁ b) : ForHangs P G bad (k + 1) σ c iter b :=
  hangs_forTurn hc' hv fun pre stk s hr hc => (h pre stk s hr hc).left (K := forNextK P G c iter b)

theorem hangs_forStep {iter b : Stmt A} {c : Expr A} {v : Value A} {d : Comp A} {σ₂ : State A} (hc' : EvalOk P G σ c (.val v) σ₁)
    (hv : isTrue P v = true) (hb : ExecOk P G σ₁ b d σ₂) (hd : d = .normal ∨ d = .cont) (h : ExecHangs P G bad k σ₂ iter) :
    ForHangs P G bad (k + 1) σ c iter b := hangs_forTurn hc' hv fun pre stk s hr hc => by
  obtain ⟨s₂, he₂, hc₂, -, hr₂, -⟩ := hb pre stk s hr hc
  refine Hangs.after (K := forNextK P G c iter b) (fun n => (monoAt P G n).exec b s) he₂ ?_
  refine ((h pre stk _ (hr₂.cf .normal) rfl).left (K := forStartK P G c iter b)).congr fun n => ?_
  rcases hd with rfl | rfl <;> simp only [forNextK, forStartK, afterBody, hc₂, cfOf] <;> rfl

theorem hangs_forNext {iter b : Stmt A} {c : Expr A} {v : Value A} {d : Comp A} {σ₂ σ₃ : State A} (hc' : EvalOk P G σ c (.val v) σ₁)
    (hv : isTrue P v = true) (hb : ExecOk P G σ₁ b d σ₂) (hd : d = .normal ∨ d = .cont) (hi : ExecOk P G σ₂ iter .normal σ₃)
    (h : ForHangs P G bad k σ₃ c iter b) : ForHangs P G bad (k + 1) σ c iter b := hangs_forTurn hc' hv fun pre stk s hr hc => by
  obtain ⟨s₂, he₂, hc₂, -, hr₂, -⟩ := hb pre stk s hr hc
  obtain ⟨s₃, he₃, hc₃, -, hr₃, -⟩ := hi pre stk _ (hr₂.cf .normal) rfl
  refine Hangs.after (K := forNextK P G c iter b) (fun n => (monoAt P G n).exec b s) he₂ ?_
  refine (Hangs.after (K := forStartK P G c iter b) (fun n => (monoAt P G n).exec iter _) he₃ (h pre stk s₃ hr₃ hc₃)).congr fun n => ?_
  rcases hd with rfl | rfl <;> simp only [forNextK, forStartK, afterBody, hc₂, cfOf] <;> rfl

theorem exec_le {st : Stmt A} {j : Nat} (hj : j ≤ k) (h : ExecHangs P G bad k σ st) : ExecHangs P G bad j σ st := by
  induction hj with
  | refl => exact h
  | step _ ih => exact ih (exec_less h)

/-- A loop with nothing behind it. -/
theorem while_of_list {c : Expr A} {b : Stmt A} (h : ListHangs P G true k σ [.while c b]) : WhileHangs P G true k σ c b := fun pre stk s hr hc => by
  obtain ⟨n, hn⟩ := h pre stk s hr hc
  refine ⟨n + 2, fun m hm => ?_⟩
  have := hn (m + 2) (by omega)
  simp only [execList, hc, if_true, exec] at this
  cases e : execWhile P G m c b s with
  | fatal => exact e
  | _ => simp [e, Res.bind, execList] at this

end Sim
end Interp
end Verif
