import Verif.Check.Returns
import Verif.Check.Throws
import Verif.Interp.Witness

/-!
# What the compiler's checks are worth

The properties C38 (`break` and `continue`), C42 (checked exceptions) and C43 (methods with a
result): none of them holds for every accepted program; each holds for the accepted programs that
avoid the listed constructs.
-/

namespace Verif
namespace Check

open Interp Jumps Throws

variable {A : Type} {P : Prim A} {G : Prog A} {sig : Method A → Sig A}

/-- The compiler accepts the program: every method and constructor with a body passes its checks.
`sig` gives the declared result type, the `throws` attribute and the static types. -/
def Accepted (G : Prog A) (sig : Method A → Sig A) : Prop :=
  ∀ m b, InProg G m → m.code = .body b → accepts (sig m) b = true

/-- `p` holds of every statement in the program. -/
def Throughout (G : Prog A) (p : Method A → Stmt A → Prop) : Prop :=
  ∀ m b, InProg G m → m.code = .body b → EveryOf (p m) b

theorem accepts_iff {g : Sig A} {b : List (Stmt A)} : accepts g b = true ↔
    jumpsList false b = true ∧ controlsList b = true ∧ returnsList g.ty g.result b = true ∧
      (g.throws = true ∨ thrownList g.ty [] b = []) ∧ (g.result = "void" ∨ Returns.Ends (flowList .normal b)) := by
  simp only [accepts, Returns.Ends, Bool.and_eq_true, Bool.or_eq_true, List.isEmpty_iff, beq_iff_eq]
  constructor
  · rintro ⟨⟨⟨⟨h1, h2⟩, h3⟩, h4⟩, (h5 | h5) | h5⟩
    · exact ⟨h1, h2, h3, h4, .inl h5⟩
    · exact ⟨h1, h2, h3, h4, .inr (.inl h5)⟩
    · exact ⟨h1, h2, h3, h4, .inr (.inr h5)⟩
  · rintro ⟨h1, h2, h3, h4, h5 | h5 | h5⟩
    · exact ⟨⟨⟨⟨h1, h2⟩, h3⟩, h4⟩, .inl (.inl h5)⟩
    · exact ⟨⟨⟨⟨h1, h2⟩, h3⟩, h4⟩, .inl (.inr h5)⟩
    · exact ⟨⟨⟨⟨h1, h2⟩, h3⟩, h4⟩, .inr h5⟩

theorem Accepted.passes (h : Accepted G sig) (hf : Throughout G fun _ => PlainFor) : Passes G :=
  ⟨fun c f vs m b hm hb => .inr ⟨(accepts_iff.1 (h m b (.inl ⟨c, f, vs, hm⟩) hb)).1, hf m b (.inl ⟨c, f, vs, hm⟩) hb⟩,
   fun c vs m b hm hb => .inr ⟨(accepts_iff.1 (h m b (.inr ⟨c, vs, hm⟩) hb)).1, hf m b (.inr ⟨c, vs, hm⟩) hb⟩⟩

/-! ## C38 -/

/-- **C38** (partial).  In an accepted program in which the third part of every `for` statement is
not a block, no execution of a method ends with a pending `break` or `continue`; nor is one thrown.
Missing: `for` statements with a block as third part (the property fails for them,
`jumps_stay_inside_refuted`). -/
theorem jumps_stay_inside_partial (h : Accepted G sig) (hf : Throughout G fun _ => PlainFor) {m : Method A}
    (hm : InProg G m) {self : Option (Name × Nat)} {vs : List (Value A)} {s : St A} (hs : s.cf = .normal) (n : Nat) :
    (∀ v s', run P G n m self vs s = .ok v s' → s'.cf ≠ .brk ∧ s'.cf ≠ .cont) ∧
    (∀ c s', run P G n m self vs s = .raise c s' → c = .throw ∨ c = .exit) := by
  have h0 : ¬ Jump s.cf := by rw [hs]; rintro (h | h) <;> cases h
  have h1 := (holds (P := P) (h.passes hf) n).run m self vs s fun b hb =>
    .inr ⟨(accepts_iff.1 (h m b hm hb)).1, hf m b hm hb⟩
  constructor
  · intro v s' hr
    rw [hr] at h1
    have h2 : ¬ Jump s'.cf := fun hj => (h1 hj).elim h0 id
    exact ⟨fun hc => h2 (.inl hc), fun hc => h2 (.inr hc)⟩
  · intro c s' hr
    rw [hr] at h1
    exact h1

/-- A program with one method `f`. -/
def one (m : Method Nat) : Prog Nat where
  method c f _ := if c = none ∧ f = "f" then some m else none
  ctor _ _ := none
  fields _ := []

theorem one_in {m m' : Method Nat} : InProg (one m) m' ↔ m' = m := by
  constructor
  · rintro (⟨c, f, vs, h⟩ | ⟨c, vs, h⟩)
    · simp only [one] at h
      split at h
      · cases h; rfl
      · cases h
    · cases h
  · rintro rfl; exact .inl ⟨none, "f", [], rfl⟩

/-- Static types for the witnesses: 1 is an `A`, everything else a `B`. -/
def types : Expr Nat → Name
  | .lit 1 => "A"
  | _ => "B"

theorem one_accepted {m : Method Nat} {b : List (Stmt Nat)} (g : Sig Nat) (hb : m.code = .body b) (h : accepts g b = true) :
    Accepted (one m) fun _ => g := by
  intro m' b' hm hb'
  obtain rfl := one_in.1 hm
  rw [hb] at hb'; cases hb'; exact h

/-- The control flow, the exception and the output at the end of a run. -/
def ending {α : Type} : Res Nat α → Option (CF × Option (Value Nat) × List (Value Nat))
  | .ok _ s => some (s.cf, s.exc, s.out)
  | _ => none

theorem ending_ok {α : Type} {r : Res Nat α} {c : CF} {x : Option (Value Nat)} {o : List (Value Nat)} (h : ending r = some (c, x, o)) :
    ∃ v s, r = .ok v s ∧ s.cf = c ∧ s.exc = x ∧ s.out = o := by
  cases r with
  | ok v s => cases h; exact ⟨v, s, rfl, rfl, rfl, rfl⟩
  | _ => cases h

/-- `for ( int i; i < 1; { i++; break; } ) { }` -/
def badFor : Method Nat :=
  script [.for (.decl "int" "i" none) (some (.compare .lt (var "i") (.lit 1))) (.block [.expr (.incr "++" ⟨"i", []⟩), .brk]) (.block [])]

/-- The compiler accepts a method whose execution ends with a pending `break`. -/
theorem jumps_stay_inside_refuted : Accepted (one badFor) (fun _ => ⟨"void", false, types⟩) ∧
    ∃ n v s', run nums (one badFor) n badFor none [] (start []) = .ok v s' ∧ s'.cf = .brk := by
  obtain ⟨v, s', h, hc, -⟩ := ending_ok (r := run nums (one badFor) 20 badFor none [] (start [])) (c := .brk) (x := none) (o := [])
    (by decide +kernel)
  exact ⟨one_accepted _ rfl (by decide +kernel), 20, v, s', h, hc⟩

/-- `while ( i < 3 ) { i++; if ( i < 2 ) { continue; } else { break; } }` -/
def goodLoop : Method Nat :=
  script [.decl "int" "i" none, .while (.compare .lt (var "i") (.lit 3))
    (.block [.expr (.incr "++" ⟨"i", []⟩), .ite (.compare .lt (var "i") (.lit 2)) (.block [.cont]) (.block [.brk])]), .print (var "i")]

/-- The hypotheses of `jumps_stay_inside_partial`: a loop with both jumps. -/
example : Accepted (one goodLoop) (fun _ => ⟨"void", false, types⟩) ∧ Throughout (one goodLoop) (fun _ => PlainFor) ∧
    ∃ n v s', run nums (one goodLoop) n goodLoop none [] (start []) = .ok v s' ∧ s'.out = [.atom 2] := by
  obtain ⟨v, s', h, hc, hx, ho⟩ := ending_ok (r := run nums (one goodLoop) 20 goodLoop none [] (start [])) (c := .normal) (x := none)
    (o := [.atom 2]) (by decide +kernel)
  refine ⟨one_accepted _ rfl (by decide +kernel), ?_, 20, v, s', h, ho⟩
  intro m b hm hb
  obtain rfl := one_in.1 hm
  cases hb
  simp [EveryOf, Every, PlainFor]

/-! ## C43 -/

/-- **C43** (partial).  In an accepted program, the execution of a method with a result type other
than `void` ends with `return`, `throw` or the end of the program, provided that in its body every
statement with several ways through it is `Balanced`: either it does not count for the compiler's
check, or every way through it does.  Missing: bodies where only some ways return (the property fails
for them, `non_void_returns_refuted`), and `for` statements with a block as third part. -/
theorem non_void_returns_partial (h : Accepted G sig) (hf : Throughout G fun _ => PlainFor) {m : Method A}
    (hm : InProg G m) (hr : (sig m).result ≠ "void") (hbal : ∀ b, m.code = .body b → EveryOf Returns.Balanced b)
    {self : Option (Name × Nat)} {vs : List (Value A)} {s : St A} (hs : s.cf = .normal) {n : Nat} {v : Value A} {s' : St A}
    (he : run P G n m self vs s = .ok v s') : s'.cf = .ret ∨ s'.cf = .throw ∨ s'.cf = .exit := by
  obtain ⟨h1, -⟩ := jumps_stay_inside_partial (P := P) h hf hm (self := self) (vs := vs) hs n
  obtain ⟨hb, hc⟩ := h1 v s' he
  have hn : s'.cf ≠ .normal := by
    cases n with
    | zero => rw [run] at he; cases he
    | succ n =>
      rw [run] at he
      cases hcode : m.code with
      | body b =>
        rw [hcode] at he
        dsimp only at he
        have hend := ((accepts_iff.1 (h m b hm hcode)).2.2.2.2).resolve_left hr
        have hnn := (Returns.holds (P := P) (h.passes hf) n).execList b (pushFrame s self m vs) (hbal b hcode) hend
        cases hl : execList P G n b (pushFrame s self m vs) with
        | ok u s₁ =>
          rw [hl] at he hnn
          obtain ⟨u', s₂, h2, h3⟩ := bind_ok_iff.1 he
          cases h3
          have h4 := keeps_popFrame s₁
          rw [h2] at h4
          have h5 : (dropAlias s.next s₂).cf = s₁.cf := h4
          rw [h5]
          exact hnn _ _ rfl
        | _ => rw [hl] at he; cases he
      | _ => rw [hcode] at he; cases he
  cases hcf : s'.cf with
  | normal => exact absurd hcf hn
  | brk => exact absurd hcf hb
  | cont => exact absurd hcf hc
  | ret => exact .inl rfl
  | throw => exact .inr (.inl rfl)
  | exit => exact .inr (.inr rfl)

/-- A `return` fits the declared result type: without an expression only in `void` methods, else with
an expression of just that static type. -/
def FittingReturn (g : Sig A) : Stmt A → Prop
  | .ret none => g.result = "void"
  | .ret (some e) => g.ty e = g.result
  | _ => True

mutual

theorem returns_fit (g : Sig A) : ∀ st : Stmt A, returns g.ty g.result st = true ↔ Every (FittingReturn g) st
  | .ite _ t e => by simp only [returns, Every, FittingReturn, Bool.and_eq_true, true_and, returns_fit g t, returns_fit g e]
  | .while _ b => by simp only [returns, Every, FittingReturn, true_and, returns_fit g b]
  | .for i _ s b => by
    simp only [returns, Every, FittingReturn, Bool.and_eq_true, true_and, returns_fit g i, returns_fit g s, returns_fit g b, and_assoc]
  | .foreach _ _ _ b => by simp only [returns, Every, FittingReturn, true_and, returns_fit g b]
  | .foreachIt _ _ _ _ _ b => by simp only [returns, Every, FittingReturn, true_and, returns_fit g b]
  | .switch _ cases d => by
    simp only [returns, Every, FittingReturn, Bool.and_eq_true, true_and, returns_fit_cases g cases, returns_fit_list g d]
  | .try b cs f => by
    simp only [returns, Every, FittingReturn, Bool.and_eq_true, true_and, returns_fit_list g b, returns_fit_catches g cs,
      returns_fit_opt g f, and_assoc]
  | .block b => by simp only [returns, Every, FittingReturn, true_and, returns_fit_list g b]
  | .ret none => by simp only [returns, Every, FittingReturn, beq_iff_eq]
  | .ret (some e) => by simp only [returns, Every, FittingReturn, beq_iff_eq]
  | .nop | .expr _ | .assign _ _ | .decl _ _ _ | .print _ | .assert _ _ | .delete _ | .exit _ | .throw _ | .brk | .cont => by
    simp only [returns, Every, FittingReturn]

theorem returns_fit_list (g : Sig A) : ∀ b : List (Stmt A), returnsList g.ty g.result b = true ↔ EveryOf (FittingReturn g) b
  | [] => by simp only [returnsList, EveryOf]
  | st :: b => by simp only [returnsList, EveryOf, Bool.and_eq_true, returns_fit g st, returns_fit_list g b]

theorem returns_fit_cases (g : Sig A) : ∀ cs : List (Expr A × List (Stmt A)),
    returnsCases g.ty g.result cs = true ↔ EveryCase (FittingReturn g) cs
  | [] => by simp only [returnsCases, EveryCase]
  | (_, b) :: cs => by simp only [returnsCases, EveryCase, Bool.and_eq_true, returns_fit_list g b, returns_fit_cases g cs]

theorem returns_fit_catches (g : Sig A) : ∀ cs : List (Option (Name × Name) × List (Stmt A)),
    returnsCatches g.ty g.result cs = true ↔ EveryCatch (FittingReturn g) cs
  | [] => by simp only [returnsCatches, EveryCatch]
  | (_, b) :: cs => by simp only [returnsCatches, EveryCatch, Bool.and_eq_true, returns_fit_list g b, returns_fit_catches g cs]

theorem returns_fit_opt (g : Sig A) : ∀ f : Option (List (Stmt A)),
    returnsOpt g.ty g.result f = true ↔ EveryOpt (FittingReturn g) f
  | none => by simp only [returnsOpt, EveryOpt]
  | some b => by simp only [returnsOpt, EveryOpt, returns_fit_list g b]

end

/-- **C43**.  In an accepted program every `return`, however deep in a method, gives a value of the
declared type: a method with a result has no `return` without a value. -/
theorem every_return_fits (h : Accepted G sig) : Throughout G fun m => FittingReturn (sig m) :=
  fun m b hm hb => (returns_fit_list (sig m) b).1 (accepts_iff.1 (h m b hm hb)).2.2.1

/-- `int f( int c ) { if ( c ) { return 1; } else { } }` -/
def badIf : Method Nat := ⟨[("c", none)], false, .body [.ite (var "c") (.block [.print (.lit 4), .ret (some (.lit 1))]) .nop]⟩

/-- `int f( int c ) { if ( c ) { return 1; } else { throw 2; } }` -/
def goodIf : Method Nat := ⟨[("c", none)], false, .body [.ite (var "c") (.block [.print (.lit 4), .ret (some (.lit 1))]) (.block [.throw (some (.lit 2))])]⟩

/-- The compiler accepts a method with a result whose execution ends without one. -/
theorem non_void_returns_refuted : Accepted (one badIf) (fun _ => ⟨"A", false, types⟩) ∧
    ∃ n v s', run nums (one badIf) n badIf none [.atom 0] (start []) = .ok v s' ∧ s'.cf = .normal := by
  obtain ⟨v, s', h, hc, -⟩ := ending_ok (r := run nums (one badIf) 20 badIf none [.atom 0] (start [])) (c := .normal) (x := none) (o := [])
    (by decide +kernel)
  exact ⟨one_accepted _ rfl (by decide +kernel), 20, v, s', h, hc⟩

/-- The hypotheses of `non_void_returns_partial`: a conditional statement that ends on both ways. -/
example : Accepted (one goodIf) (fun _ => ⟨"A", true, types⟩) ∧ Throughout (one goodIf) (fun _ => PlainFor) ∧
    (∀ b, goodIf.code = .body b → EveryOf Returns.Balanced b) ∧
    (∃ n v s', run nums (one goodIf) n goodIf none [.atom 0] (start []) = .ok v s' ∧ s'.cf = .throw) ∧
    ∃ n v s', run nums (one goodIf) n goodIf none [.atom 1] (start []) = .ok v s' ∧ s'.cf = .ret := by
  obtain ⟨v, s', h, hc, -⟩ := ending_ok (r := run nums (one goodIf) 20 goodIf none [.atom 0] (start [])) (c := .throw)
    (x := some (.atom 2)) (o := []) (by decide +kernel)
  obtain ⟨v', s'', h', hc', -⟩ := ending_ok (r := run nums (one goodIf) 20 goodIf none [.atom 1] (start [])) (c := .ret)
    (x := none) (o := [.atom 4]) (by decide +kernel)
  refine ⟨one_accepted _ rfl (by decide +kernel), ?_, ?_, ⟨20, v, s', h, hc⟩, ⟨20, v', s'', h', hc'⟩⟩
  · intro m b hm hb
    obtain rfl := one_in.1 hm
    cases hb
    simp [EveryOf, Every, PlainFor]
  · intro b hb
    cases hb
    simp [EveryOf, Every, Returns.Balanced, flow, flowList, Returns.Ends]

/-- `every_return_fits` distinguishes: `return` without a value and with a value of another type are
rejected, deep inside a method. -/
example : Accepted (one goodIf) (fun _ => ⟨"A", true, types⟩) ∧
    accepts ⟨"A", true, types⟩ [.block [.ite (var "c") (.ret none) .nop], .ret (some (.lit 1))] = false ∧
    accepts ⟨"A", true, types⟩ [.while (var "c") (.ret (some (.lit 2))), .ret (some (.lit 1))] = false :=
  ⟨one_accepted _ rfl (by decide +kernel), by decide +kernel, by decide +kernel⟩

/-! ## C42 -/

theorem Accepted.checked {U : Spec.Event → Prop} (h : Accepted G sig) (hc : Throughout G fun m => Careful P G U (sig m).ty) :
    Checked P G U sig :=
  fun m b hm hb => ⟨hc m b hm hb, (accepts_iff.1 (h m b hm hb)).2.2.2.1⟩

/-- **C42** (partial), in the reference semantics with any of its events.  In an accepted program in which
there is no `throw;`, and handlers and `finally` blocks throw nothing they do not catch, an exception
that leaves a method not marked with `throws` is one the compiler does not check: a null access, an
error of native code, or one thrown by a method that is marked with `throws`.
Missing: `throw;` and throwing handlers and `finally` blocks (the property fails for them:
`rethrow_refuted`, `handler_refuted`, `finally_refuted`); methods marked with `throws` count as unchecked
(`callee_refuted`). -/
theorem checked_exceptions_partial {U : Spec.Event → Prop} (h : Accepted G sig)
    (hc : Throughout G fun m => Careful P G U (sig m).ty) {m : Method A} (hm : InProg G m) {σ σ' : Spec.State A}
    {self : Option (Name × Nat)} {vs : List (Value A)} {x : Value A} (he : Spec.Run P G U σ m self vs (.thr x) σ') :
    Unchecked P G sig x := run_ok (h.checked hc) he hm x rfl

/-- In a program without `throws`, without native methods and without null accesses no exception leaves
a method. -/
theorem no_exception_leaves_partial {U : Spec.Event → Prop} (h : Accepted G sig)
    (hc : Throughout G fun m => Careful P G U (sig m).ty) (ht : ∀ m, InProg G m → (sig m).throws = false)
    (hn : ∀ m g, InProg G m → m.code ≠ .native g) {m : Method A} (hm : InProg G m) {σ σ' : Spec.State A}
    {self : Option (Name × Nat)} {vs : List (Value A)} {x : Value A} (he : Spec.Run P G U σ m self vs (.thr x) σ') :
    ∃ y, x = P.npe y := by
  cases checked_exceptions_partial h hc hm he with
  | null y => exact ⟨y, rfl⟩
  | native hm' hg _ => exact absurd hg (hn _ _ hm')
  | declared hm' _ hth _ _ => rw [ht _ hm'] at hth; cases hth

/-- The same for the interpreter: where the reference semantics describes an execution of the main
method, an exception that leaves it is not checked. -/
theorem interpreter_exceptions_partial (h : Accepted G sig) (hc : Throughout G fun m => Careful P G Sim.Never (sig m).ty)
    {m : Method A} (hm : InProg G m) {vs : List (Value A)} {globals : AMap Name (Value A)} {c : Spec.Comp A} {σ : Spec.State A}
    (he : Spec.Run P G Sim.Never (initial globals) m none vs c σ) {n : Nat} {v : Value A} {s : St A}
    (hr : run P G n m none vs (start globals) = .ok v s) (hs : s.cf = .throw) :
    ∃ x, s.exc = some x ∧ Unchecked P G sig x := by
  obtain ⟨k, u, t, hk, -, -, -, -, -, -, -, h1, h2⟩ := script_meaning_partial he
  have hu := run_unique (P := P) (G := G) (k := k) (n := n) (m := m) (self := none) (vs := vs) (s := start globals)
    (by rw [hk]; nofun) (by rw [hr]; nofun)
  rw [hk, hr] at hu
  cases hu
  by_cases hx : ∃ x, c = .thr x
  · obtain ⟨x, rfl⟩ := hx
    exact ⟨x, (h1 x rfl).2, checked_exceptions_partial h hc hm he⟩
  · exact absurd hs (h2 fun x hcx => hx ⟨x, hcx⟩).1

/-- 1 is an `A`, 2 is a `B`. -/
def atoms : Prim Nat := { nums with isA := fun t v => (t == "A" && v == .atom 1) || (t == "B" && v == .atom 2) }

/-- An exception the compiler should have checked leaves an accepted method that is not marked with
`throws`. -/
def Escapes (G : Prog Nat) (sig : Method Nat → Sig Nat) (m : Method Nat) (x : Value Nat) : Prop :=
  Accepted G sig ∧ InProg G m ∧ (sig m).throws = false ∧
    ∃ n v s, run atoms G n m none [] (start []) = .ok v s ∧ s.cf = .throw ∧ s.exc = some x

theorem one_escapes {b : List (Stmt Nat)} {x : Value Nat} {n : Nat} {o : List (Value Nat)} (hb : accepts ⟨"void", false, types⟩ b = true)
    (he : ending (run atoms (one (script b)) n (script b) none [] (start [])) = some (.throw, some x, o)) (hx : x ≠ .atom 999) :
    Escapes (one (script b)) (fun _ => ⟨"void", false, types⟩) (script b) x ∧
      ¬ Unchecked atoms (one (script b)) (fun _ => ⟨"void", false, types⟩) x := by
  obtain ⟨v, s, h, hc, hx', -⟩ := ending_ok he
  refine ⟨⟨one_accepted _ rfl hb, one_in.2 rfl, rfl, n, v, s, h, hc, hx'⟩, fun hu => ?_⟩
  generalize hg : (fun _ => ⟨"void", false, types⟩ : Method Nat → Sig Nat) = sig at hu
  cases hu with
  | null y => exact hx rfl
  | native hm hn _ => obtain rfl := one_in.1 hm; cases hn
  | declared hm _ ht _ _ => subst hg; cases ht

/-- `try { throw A; } catch ( A a ) { throw; }` -/
theorem rethrow_refuted : Escapes (one (script [.try [.throw (some (.lit 1))] [(some ("A", "a"), [.throw none])] none]))
      (fun _ => ⟨"void", false, types⟩) (script [.try [.throw (some (.lit 1))] [(some ("A", "a"), [.throw none])] none]) (.atom 1) ∧
    ¬ Unchecked atoms (one (script [.try [.throw (some (.lit 1))] [(some ("A", "a"), [.throw none])] none]))
      (fun _ => ⟨"void", false, types⟩) (.atom 1) :=
  one_escapes (n := 20) (o := []) (by decide +kernel) (by decide +kernel) (by decide +kernel)

/-- `try { throw A; } catch ( A a ) { throw B; } catch ( B b ) { }`: the second handler is not there for
the first one. -/
theorem handler_refuted :
    Escapes (one (script [.try [.throw (some (.lit 1))] [(some ("A", "a"), [.throw (some (.lit 2))]), (some ("B", "b"), [])] none]))
      (fun _ => ⟨"void", false, types⟩)
      (script [.try [.throw (some (.lit 1))] [(some ("A", "a"), [.throw (some (.lit 2))]), (some ("B", "b"), [])] none]) (.atom 2) ∧
    ¬ Unchecked atoms
      (one (script [.try [.throw (some (.lit 1))] [(some ("A", "a"), [.throw (some (.lit 2))]), (some ("B", "b"), [])] none]))
      (fun _ => ⟨"void", false, types⟩) (.atom 2) :=
  one_escapes (n := 20) (o := []) (by decide +kernel) (by decide +kernel) (by decide +kernel)

/-- `try { } finally { throw A; }` -/
theorem finally_refuted : Escapes (one (script [.try [] [] (some [.throw (some (.lit 1))])]))
      (fun _ => ⟨"void", false, types⟩) (script [.try [] [] (some [.throw (some (.lit 1))])]) (.atom 1) ∧
    ¬ Unchecked atoms (one (script [.try [] [] (some [.throw (some (.lit 1))])]))
      (fun _ => ⟨"void", false, types⟩) (.atom 1) :=
  one_escapes (n := 20) (o := []) (by decide +kernel) (by decide +kernel) (by decide +kernel)

/-- `void g() throws { throw A; }` -/
def throwing : Method Nat := script [.throw (some (.lit 1))]

/-- `int f() { print( 4 ); g(); return 1; }` -/
def caller : Method Nat := ⟨[], false, .body [.print (.lit 4), .expr (.call [] "g" []), .ret (some (.lit 1))]⟩

def callers : Prog Nat where
  method c f _ := if c = none ∧ f = "f" then some caller else if c = none ∧ f = "g" then some throwing else none
  ctor _ _ := none
  fields _ := []

def callersSig (m : Method Nat) : Sig Nat := if m.isVoid then ⟨"void", true, types⟩ else ⟨"A", false, types⟩

theorem callers_in {m : Method Nat} : InProg callers m ↔ m = caller ∨ m = throwing := by
  constructor
  · rintro (⟨c, f, vs, h⟩ | ⟨c, vs, h⟩)
    · simp only [callers] at h
      split at h
      · cases h; exact .inl rfl
      · split at h
        · cases h; exact .inr rfl
        · cases h
    · cases h
  · rintro (rfl | rfl)
    · exact .inl ⟨none, "f", [], rfl⟩
    · exact .inl ⟨none, "g", [], rfl⟩

theorem callers_accepted : Accepted callers callersSig := by
  intro m b hm hb
  rcases callers_in.1 hm with rfl | rfl <;> cases hb <;> decide +kernel

/-- Methods that call a method marked with `throws` need not be marked themselves. -/
theorem callee_refuted : Escapes callers callersSig caller (.atom 1) := by
  obtain ⟨v, s, h, hc, hx, -⟩ := ending_ok (r := run atoms callers 20 caller none [] (start [])) (c := .throw) (x := some (.atom 1))
    (o := [.atom 4]) (by decide +kernel)
  exact ⟨callers_accepted, callers_in.2 (.inl rfl), rfl, 20, v, s, h, hc, hx⟩

/-- The hypotheses of `checked_exceptions_partial`, and an exception that leaves `f`. -/
example : Throughout callers (fun m => Careful atoms callers Sim.Never (callersSig m).ty) ∧
    (∃ σ, Spec.Run atoms callers Sim.Never (initial []) caller none [] (.thr (.atom 1)) σ) ∧ Unchecked atoms callers callersSig (.atom 1) := by
  have hc : Throughout callers (fun m => Careful atoms callers Sim.Never (callersSig m).ty) := by
    intro m b hm hb
    rcases callers_in.1 hm with rfl | rfl <;> cases hb <;> simp only [EveryOf, Every, Careful, and_true]
    intro σ v σ' he
    cases he
    rfl
  have hr : ∃ σ, Spec.Run atoms callers Sim.Never (initial []) caller none [] (.thr (.atom 1)) σ :=
    ⟨_, .body rfl (.cons (.print .lit) (.jump (.exprThr (.call .nil (.found rfl (.thr (.body rfl (.jump (.throw .lit) (by nofun))))))) (by nofun)))⟩
  obtain ⟨σ, hσ⟩ := hr
  exact ⟨hc, ⟨σ, hσ⟩, checked_exceptions_partial callers_accepted hc (callers_in.2 (.inl rfl)) hσ⟩

/-- `try { throw A; } catch ( A a ) { }`: everything is caught. -/
example : Accepted (one (script [.try [.throw (some (.lit 1))] [(some ("A", "a"), [.print (.lit 5)])] none])) (fun _ => ⟨"void", false, types⟩) ∧
    Throughout (one (script [.try [.throw (some (.lit 1))] [(some ("A", "a"), [.print (.lit 5)])] none]))
      (fun _ => Careful atoms (one (script [.try [.throw (some (.lit 1))] [(some ("A", "a"), [.print (.lit 5)])] none])) Sim.Never types) := by
  refine ⟨one_accepted _ rfl (by decide +kernel), ?_⟩
  intro m b hm hb
  obtain rfl := one_in.1 hm
  cases hb
  simp only [EveryOf, Every, EveryCatch, EveryOpt, Careful, and_true]
  refine ⟨⟨?_, by nofun⟩, ?_⟩
  · intro c hc
    simp only [List.mem_singleton] at hc
    subst hc
    rfl
  · intro σ v σ' he
    cases he
    rfl

end Check
end Verif
