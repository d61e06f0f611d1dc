import Verif.Interp.Exit

/-!
# Where the interpreter departs from the reference semantics

For every event of `Spec.Event` a script in which only this event comes up, and which the interpreter does not
execute as the reference semantics says; and two scripts with `exit`.
-/

namespace Verif
namespace Interp

open Sim (Ends Never)

deriving instance DecidableEq for Value

/-- What can be seen of a run that has ended: its output, or nothing if it was aborted (by a C++ exception, an error, or undefined
behaviour). -/
def observe {α : Type} : Res Nat α → Option (Option (List (Value Nat)))
  | .fuel => none
  | .ok _ s => some (some s.out)
  | _ => some none

/-- The interpreter and the reference semantics disagree about a script: the reference semantics executes it, with events of `U` only,
and the interpreter ends too, but not by printing the same and returning. -/
def Disagree (P : Prim Nat) (G : Prog Nat) (U : Spec.Event → Prop) (b : List (Stmt Nat)) : Prop :=
  ∃ c σ, Spec.Run P G U (initial []) (script b) none [] c σ ∧
    ∃ n o, observe (run P G n (script b) none [] (start [])) = some o ∧ o ≠ some σ.out

/-- It is the only thing that ever happens. -/
theorem Disagree.always {P : Prim Nat} {G : Prog Nat} {U : Spec.Event → Prop} {b : List (Stmt Nat)} (h : Disagree P G U b) :
    ∃ c σ, Spec.Run P G U (initial []) (script b) none [] c σ ∧
      ∀ n v s, run P G n (script b) none [] (start []) = .ok v s → s.out ≠ σ.out := by
  obtain ⟨c, σ, hr, n, o, ho, hne⟩ := h
  refine ⟨c, σ, hr, fun k v s hk he => hne ?_⟩
  have : run P G n (script b) none [] (start []) = run P G k (script b) none [] (start []) :=
    run_unique (fun h => by rw [h] at ho; cases ho) (fun h => by rw [h] at hk; cases hk)
  rw [this, hk] at ho
  cases ho
  rw [he]

/-- Numbers as primitive values. -/
def nums : Prim Nat where
  truth n := n != 0
  unary op v := match v with
    | .atom n => if op = "++" then some (.atom (n + 1)) else none
    | _ => none
  binary op v w := match v, w with
    | .atom n, .atom m => if op = "+" then some (.atom (n + m)) else none
    | _, _ => none
  compare c v w := match v, w with
    | .atom n, .atom m => match c with
      | .eq => some (n == m)
      | .lt => some (n < m)
      | _ => none
    | _, _ => none
  assign _ v := some v
  ret _ v := some v
  bool b := .atom (if b then 1 else 0)
  default _ := .atom 0
  isA ty _ := ty == "E"
  npe _ := .atom 999

/-- A program without methods and classes. -/
def empty : Prog Nat where
  method _ _ _ := none
  ctor _ _ := none
  fields _ := []

/-- A native function. -/
def native (g : List (Value Nat) → Except (Value Nat) (Value Nat)) : Method Nat := ⟨[], false, .native g⟩

def var (x : Name) : Expr Nat := .sym ⟨x, []⟩

theorem nand_refuted : Disagree nums empty (· = .nand) [.print (.bool .nand (.lit 1) (.lit 0))] :=
  ⟨_, _, .body rfl (.cons (.print (.bool .lit (by decide) .lit (fun _ _ => rfl) (by nofun))) .nil),
    20, some [.atom 0], by decide +kernel, by decide +kernel⟩

theorem nor_refuted : Disagree nums empty (· = .nor) [.print (.bool .nor (.lit 0) (.lit 1))] :=
  ⟨_, _, .body rfl (.cons (.print (.bool .lit (by decide) .lit (by nofun) (fun _ _ => rfl))) .nil),
    20, some [.atom 1], by decide +kernel, by decide +kernel⟩

/-- Leaving a `for` statement by `break` leaves its scope behind. -/
theorem forLeft_refuted : Disagree nums empty (· = .forLeft)
    [.for (.decl "int" "i" none) none .nop (.block [.brk]), .decl "int" "i" none, .print (.lit 7)] :=
  ⟨_, _, .body rfl (.cons (.for (.decl rfl rfl) (.brk .none (.block (.block (.jump .brk (by nofun)))) rfl))
      (.cons (.decl rfl rfl) (.cons (.print .lit) .nil))),
    20, none, by decide +kernel, by decide +kernel⟩

/-- `f` returns an object of class `C`, `C.g` throws, `C.id` returns its argument, `fail` throws, `ext` does nothing. -/
def objects : Prog Nat where
  method cls f _ :=
    if cls = none ∧ f = "f" then some (native fun _ => .ok (.obj "C" 0))
    else if cls = none ∧ f = "fail" then some (native fun _ => .error (.atom 3))
    else if cls = none ∧ f = "ext" then some (native fun _ => .ok .null)
    else if cls = some "C" ∧ f = "g" then some (native fun _ => .error (.atom 3))
    else if cls = some "C" ∧ f = "getIterator" then some (native fun _ => .error (.atom 3))
    else if cls = some "C" ∧ f = "id" then some (native fun vs => .ok (vs.headD .null))
    else if cls = some "C" ∧ f = "operator==" then some ⟨[("o", none)], false, .body [.throw (some (.lit 3))]⟩
    else if cls = some "C" ∧ f = "m" then
      some ⟨[], true, .body [.try [.decl "int" "z" none, .expr (.call ["z"] "g" [])] [(none, [.print (.lit 1)])] none]⟩
    else if cls = some "D" ∧ f = "g" then some (native fun _ => .ok .null)
    else if cls = none ∧ f = "two" then
      some ⟨[], false, .body [.try [.ret (some (.lit 1))] [] (some [.ret (some (.lit 2))])]⟩
    else if cls = none ∧ f = "quit" then some ⟨[], true, .body [.exit (.lit 0)]⟩
    else none
  ctor cls _ :=
    if cls = "R" then some (script [.ret none])
    else if cls = "T" then some (script [.throw (some (.lit 3))])
    else if cls = "C" then some (script [])
    else none
  fields cls := if cls = "C" then [("z", .obj "D" 0)] else []

/-- If the member of an expression result throws, the scope of the enclosing block stays. -/
theorem dotThrow_refuted : Disagree nums objects (· = .dotThrow)
    [.decl "int" "x" (some (.lit 1)),
     .try [.decl "int" "x" (some (.lit 2)), .expr (.dot (.call [] "f" []) (.call [] "g" []))] [(none, [])] none,
     .print (var "x")] :=
  ⟨_, _, .body rfl (.cons (.declInit rfl rfl .lit rfl rfl) (.cons (.tryOnly (.caught (.block (.cons (.declInit rfl rfl .lit rfl rfl)
      (.jump (.exprThr (.dotCall (.call .nil (.found rfl (.native rfl rfl))) .nil (.inl ⟨[], rfl⟩) rfl (.nativeThr rfl rfl) fun _ _ => rfl))
        (by nofun)))) rfl .untyped (.block .nil))) (.cons (.print (.sym rfl)) .nil))),
    20, some [.atom 2], by decide +kernel, by decide +kernel⟩

/-- The arguments of a method of an expression result are looked up in that result. -/
theorem dotArgs_refuted : Disagree nums objects (· = .dotArgs)
    [.decl "int" "x" (some (.lit 5)), .print (.dot (.call [] "f" []) (.call [] "id" [var "x"]))] :=
  ⟨_, _, .body rfl (.cons (.declInit rfl rfl .lit rfl rfl) (.cons (.print (.dotCall (.call .nil (.found rfl (.native rfl rfl)))
      (.cons (.sym rfl) .nil) (.inr rfl) rfl (.native rfl rfl) (by nofun))) .nil)),
    20, some [], by decide +kernel, by decide +kernel⟩

/-- `return` in a constructor also ends the method that created the object. -/
theorem ctorReturn_refuted : Disagree nums objects (· = .ctorReturn) [.expr (.new "R" []), .print (.lit 7)] :=
  ⟨_, _, .body rfl (.cons (.expr (.new .nil rfl (.body rfl (.jump .retNone (by nofun))) (.inr ⟨_, rfl, rfl⟩)))
      (.cons (.print .lit) .nil)),
    20, some [], by decide +kernel, by decide +kernel⟩

/-- An exception of a constructor gets lost in the argument of a native function. -/
theorem ctorThrow_refuted : Disagree nums objects (· = .ctorThrow)
    [.try [.expr (.call [] "ext" [.new "T" []])] [(none, [.print (.lit 1)])] none] :=
  ⟨_, _, .body rfl (.cons (.tryOnly (.caught (.block (.jump (.exprThr (.callThr (.consThr (.newThr .nil rfl
      (.body rfl (.jump (.throw .lit) (by nofun))) rfl)))) (by nofun))) rfl .untyped (.block (.cons (.print .lit) .nil)))) .nil),
    20, some [], by decide +kernel, by decide +kernel⟩

/-- An exception in an assignment gets lost in the argument of a native function. -/
theorem assignThrow_refuted : Disagree nums objects (· = .assignThrow)
    [.decl "int" "x" none,
     .try [.expr (.call [] "ext" [.assign ⟨"x", []⟩ (.call [] "fail" [])])] [(none, [.print (.lit 1)])] none] :=
  ⟨_, _, .body rfl (.cons (.decl rfl rfl) (.cons (.tryOnly (.caught (.block (.jump (.exprThr (.callThr (.consThr (.assignThr rfl
      (.call .nil (.found rfl (.nativeThr rfl rfl))) rfl)))) (by nofun))) rfl .untyped (.block (.cons (.print .lit) .nil)))) .nil)),
    20, some [], by decide +kernel, by decide +kernel⟩

/-- An exception of `getIterator` leaves the method instead of reaching the try statement. -/
theorem foreachThrow_refuted : Disagree nums objects (· = .foreachThrow)
    [.try [.foreach "int" "y" (.call [] "f" []) .nop] [(none, [.print (.lit 1)])] none] :=
  ⟨_, _, .body rfl (.cons (.tryOnly (.caught (.block (.jump (.foreachIterThr (.call .nil (.found rfl (.native rfl rfl))) rfl
      (.nativeThr rfl rfl) rfl) (by nofun))) rfl .untyped (.block (.cons (.print .lit) .nil)))) .nil),
    20, none, by decide +kernel, by decide +kernel⟩

/-- An exception of a comparison operator is ignored. -/
theorem operatorThrow_refuted : Disagree nums objects (· = .operatorThrow)
    [.try [.print (.compare .eq (.call [] "f" []) (.lit 1))] [(none, [.print (.lit 9)])] none] :=
  ⟨_, _, .body rfl (.cons (.tryOnly (.caught (.block (.jump (.printThr (.compareThr (.call .nil (.found rfl (.native rfl rfl))) .lit
      (.methodThr rfl (.body rfl (.jump (.throw .lit) (by nofun))) rfl))) (by nofun))) rfl .untyped
      (.block (.cons (.print .lit) .nil)))) .nil),
    20, some [.atom 0], by decide +kernel, by decide +kernel⟩

/-- `throw;` throws the latest exception, not the one that is being handled. -/
theorem rethrowOther_refuted : Disagree nums empty (· = .rethrowOther)
    [.try [.try [.throw (some (.lit 1))] [(none, [.try [.throw (some (.lit 2))] [(none, [])] none, .throw none])] none]
      [(some ("E", "e"), [.print (var "e")])] none] :=
  ⟨_, _, .body rfl (.cons (.tryOnly (.caught (.block (.jump (.tryOnly (.caught (.block (.jump (.throw .lit) (by nofun))) rfl .untyped
      (.block (.cons (.tryOnly (.caught (.block (.jump (.throw .lit) (by nofun))) rfl .untyped (.block .nil)))
        (.jump (.rethrow (.inr rfl)) (by nofun)))))) (by nofun))) rfl (.typed rfl) (.block (.cons (.print (.sym rfl)) .nil)))) .nil),
    20, some [.atom 2], by decide +kernel, by decide +kernel⟩

/-- An exception that is caught within a `finally` block replaces the pending one. -/
theorem pendingReplaced_refuted : Disagree nums empty (· = .pendingReplaced)
    [.try [.try [.throw (some (.lit 1))] [(some ("X", "x"), [])] (some [.try [.throw (some (.lit 2))] [(none, [])] none])]
      [(some ("E", "e"), [.print (var "e")])] none] :=
  ⟨_, _, .body rfl (.cons (.tryOnly (.caught (.block (.jump (.tryFinally (.uncaught (.block (.jump (.throw .lit) (by nofun))) (by nofun) rfl)
      (.block (.cons (.tryOnly (.caught (.block (.jump (.throw .lit) (by nofun))) rfl .untyped (.block .nil))) .nil))
        (fun _ _ => .inr rfl) (by nofun)) (by nofun))) rfl (.typed rfl) (.block (.cons (.print (.sym rfl)) .nil)))) .nil),
    20, some [.atom 2], by decide +kernel, by decide +kernel⟩

/-- The exception of the postfix operator `!` has no value and is not caught by its type. -/
theorem validateNull_refuted : Disagree nums empty (· = .validateNull)
    [.try [.expr (.validate (.lit 0))] [(some ("E", "e"), [.print (.lit 1)])] none] :=
  ⟨_, _, .body rfl (.cons (.tryOnly (.caught (.block (.jump (.exprThr (.validateNull .lit rfl rfl)) (by nofun))) rfl (.typed rfl)
      (.block (.cons (.print .lit) .nil)))) .nil),
    20, some [], by decide +kernel, by decide +kernel⟩

/-- A call through a null variable calls the method of a member with the same name. -/
theorem shadowed_refuted : Disagree nums objects (· = .shadowed)
    [.decl "C" "c" (some (.new "C" [])), .expr (.call ["c"] "m" [])] :=
  ⟨_, _, .body rfl (.cons (.declInit rfl rfl (.new .nil rfl (.body rfl .nil) (.inl rfl)) rfl rfl)
      (.cons (.expr (.call .nil (.found rfl (.void (.body rfl (.cons (.tryOnly (.caught (.block (.cons (.decl rfl rfl)
        (.jump (.exprThr (.call .nil (.missing rfl (.inr rfl)))) (by nofun)))) rfl .untyped (.block (.cons (.print .lit) .nil)))) .nil))
        (by nofun) rfl)))) .nil)),
    30, some [], by decide +kernel, by decide +kernel⟩

/-- Like `nums`, but the second of two return values is converted to the type of the first one. -/
def converting : Prim Nat := { nums with ret := fun old v => match old with
  | .null => some v
  | _ => some (.atom 0) }

theorem returnConverted_refuted : Disagree converting objects (· = .returnConverted) [.print (.call [] "two" [])] :=
  ⟨_, _, .body rfl (.cons (.print (.call .nil (.found rfl (.value (.body rfl (.jump (.tryFinallyJump
      (.quiet (.block (.jump (.ret .lit (.inl rfl)) (by nofun))) (by nofun)) (.block (.jump (.ret .lit (.inr rfl)) (by nofun))) (by nofun))
      (by nofun))) rfl)))) .nil),
    30, some [.atom 0], by decide +kernel, by decide +kernel⟩

/-- Every event matters: none of them can be left out of the hypothesis of `script_meaning_partial`. -/
theorem every_event_matters (ev : Spec.Event) : ∃ P G b, Disagree P G (· = ev) b := by
  cases ev with
  | nand => exact ⟨_, _, _, nand_refuted⟩
  | nor => exact ⟨_, _, _, nor_refuted⟩
  | forLeft => exact ⟨_, _, _, forLeft_refuted⟩
  | dotThrow => exact ⟨_, _, _, dotThrow_refuted⟩
  | dotArgs => exact ⟨_, _, _, dotArgs_refuted⟩
  | ctorReturn => exact ⟨_, _, _, ctorReturn_refuted⟩
  | ctorThrow => exact ⟨_, _, _, ctorThrow_refuted⟩
  | assignThrow => exact ⟨_, _, _, assignThrow_refuted⟩
  | foreachThrow => exact ⟨_, _, _, foreachThrow_refuted⟩
  | operatorThrow => exact ⟨_, _, _, operatorThrow_refuted⟩
  | rethrowOther => exact ⟨_, _, _, rethrowOther_refuted⟩
  | pendingReplaced => exact ⟨_, _, _, pendingReplaced_refuted⟩
  | validateNull => exact ⟨_, _, _, validateNull_refuted⟩
  | shadowed => exact ⟨_, _, _, shadowed_refuted⟩
  | returnConverted => exact ⟨_, _, _, returnConverted_refuted⟩

/-! ## `exit` -/

/-- `exit` in a called method, below a block: undefined behaviour. -/
theorem exit_in_call_refuted :
    ∃ n, run nums objects n (script [.block [.expr (.call [] "quit" [])]]) none [] (start []) = .ub :=
  ⟨20, rfl⟩

/-- `while ( 1 ) { print( 1 ); if ( 0 ) { } else try { { exit( 4 ); } } finally { print( 2 ); } }` ends in its first round. -/
example : ∃ n s, run nums empty n (script [.while (.lit 1) (.block [.print (.lit 1),
      .ite (.lit 0) .nop (.try [.block [.exit (.lit 4), .print (.lit 3)]] [] (some [.print (.lit 2)]))])]) none [] (start []) =
    .raise .exit s ∧ s.out = [.atom 1] ∧ s.exc = some (.atom 4) :=
  have ⟨n, s, h1, h2, h3, _⟩ := exit_ends_script_partial (P := nums) (G := empty) (vs := []) (globals := []) (m := script _) rfl
    (.round (v := .atom 1) rfl ⟨20, rfl⟩ rfl (.block rfl rfl (.later rfl ⟨20, rfl⟩ (.branch (v := .atom 0) rfl ⟨20, rfl⟩
      (.tryBlock rfl rfl (.block rfl rfl (.here (v := .atom 4) rfl ⟨20, rfl⟩)))))))
  ⟨n, s, h1, h2, h3⟩

/-- `exit` skips `finally` blocks. -/
theorem exit_skips_finally_refuted :
    ∃ n s, run nums empty n (script [.try [.exit (.lit 0)] [] (some [.print (.lit 1)])]) none [] (start []) = .raise .exit s ∧ s.out = [] :=
  ⟨20, _, rfl, rfl⟩

/-! ## Examples that meet the hypotheses -/

/-- `int x = 0; while (x < 2) { print(x); x = x + 1; } try { fail(); } catch (E e) { print(e); } finally { print(7); }` -/
def sample : List (Stmt Nat) :=
  [.decl "int" "x" (some (.lit 0)),
   .while (.compare .lt (var "x") (.lit 2)) (.block [.print (var "x"), .assign ⟨"x", []⟩ (.binary "+" (var "x") (.lit 1))]),
   .try [.expr (.call [] "fail" [])] [(some ("X", "y"), []), (some ("E", "e"), [.print (var "e")])] (some [.print (.lit 7)])]

/-- The hypothesis of `script_meaning_partial` holds for `sample`, which prints 0 1 3 7 (the latest output comes first). -/
theorem sample_runs : ∃ σ, Spec.Run nums objects Never (initial []) (script sample) none [] .normal σ ∧
    σ.out = [.atom 7, .atom 3, .atom 1, .atom 0] :=
  have cond {σ v} (h : σ.locate ⟨"x", []⟩ = some v) {n b} (hv : v.2 = .atom n) (hb : decide (n < 2) = b) :
      Spec.Eval nums objects Never σ (.compare .lt (var "x") (.lit 2)) (.val (nums.bool b)) σ :=
    .compare (.sym h) .lit (.prim (by rw [hv]; nofun) (by rw [hv, ← hb]; rfl))
  ⟨_, .body rfl (.cons (.declInit rfl rfl .lit rfl rfl) (.cons
    (.whileNext (cond rfl rfl rfl) rfl (.block (.block (.cons (.print (.sym rfl)) (.cons (.assign rfl (.binary (.sym rfl) .lit rfl) rfl) .nil))))
      (.inl rfl)
      (.whileNext (cond rfl rfl rfl) rfl (.block (.block (.cons (.print (.sym rfl)) (.cons (.assign rfl (.binary (.sym rfl) .lit rfl) rfl) .nil))))
        (.inl rfl) (.whileF (cond rfl rfl rfl) rfl)))
    (.cons (.tryFinally (.caught (.block (.jump (.exprThr (.call .nil (.found rfl (.nativeThr rfl rfl)))) (by nofun))) rfl (.typed rfl)
      (.block (.cons (.print (.sym rfl)) .nil))) (.block (.cons (.print .lit) .nil)) (by nofun) (by nofun)) .nil))), rfl⟩

example : ∃ n v s, run nums objects n (script sample) none [] (start []) = .ok v s ∧
    s.out = [.atom 7, .atom 3, .atom 1, .atom 0] ∧ s.frames = [] ∧ (∀ i, s.scopes i = none) := by
  obtain ⟨σ, h, ho⟩ := sample_runs
  obtain ⟨n, v, s, hr, h1, -, -, h2, h3, -⟩ := script_meaning_partial h
  exact ⟨n, v, s, hr, h1.trans ho, h2, h3⟩

/-- A state in the middle of a method. -/
def inMethod : St Nat :=
  { cf := .normal, cur := 0, frames := [⟨[(0, false)], .null⟩], next := 1, objs := [], globals := [], exc := none, out := []
    scopes := fun i => if i = 0 then some (.scope [("x", .atom 5)] .glob) else none }

/-- The reference semantics' view of `inMethod`. -/
def inMethod' : Spec.State Nat :=
  { blocks := [[("x", .atom 5)]], self := none, objs := [], globals := [], out := [], last := none, rv := .null }

theorem inMethod_rel : Sim.Rel [] [(0, false)] inMethod' inMethod where
  frames := rfl
  cur := rfl
  ne := by nofun
  chain := ⟨rfl, by nofun, trivial⟩
  fresh i hi := by
    have : i ≠ 0 := by have : 1 ≤ i := hi; omega
    simp [inMethod, this]
  data := ⟨rfl, rfl, rfl, rfl⟩

/-- The hypotheses of `scopes_released_partial` and `statement_meaning_partial`, for a for statement. -/
example : ∃ σ', Spec.Exec nums empty Never none inMethod'
    (.for (.decl "int" "i" (some (.lit 1))) (some (.compare .lt (var "i") (.lit 2))) (.expr (.incr "++" ⟨"i", []⟩))
      (.block [.print (var "i"), .cont])) .normal σ' ∧ σ'.out = [.atom 1] :=
  ⟨_, .for (.declInit rfl rfl .lit rfl rfl) (.next (.some (.compare (.sym rfl) .lit (.prim (by nofun) rfl)) rfl)
      (.block (.block (.cons (.print (.sym rfl)) (.jump .cont (by nofun))))) (.inr rfl) (.expr (.incr rfl rfl))
      (.stop (.compare (.sym rfl) .lit (.prim (by nofun) rfl)) rfl)), rfl⟩

/-- The hypotheses of `nothing_after_jump`. -/
example : ∃ n s', execList nums empty n [.print (var "x"), .ret none] inMethod = .ok () s' ∧ s'.cf ≠ .normal :=
  ⟨20, _, rfl, by nofun⟩

example : ∃ n s', execList nums empty n [.print (var "x"), .exit (.lit 0)] inMethod = .raise .exit s' := ⟨20, _, rfl⟩

/-- Both sides of `finally_runs_partial`. -/
example : ∃ s', Executes nums empty (.try [.throw (some (.lit 1))] [(some ("X", "x"), [])] (some [.print (var "x")])) inMethod s' ∧
    s'.cf = .throw ∧ s'.out = [.atom 5] := ⟨_, ⟨20, rfl⟩, rfl, rfl⟩

/-- The hypotheses of `first_matching_handler`: the second clause matches. -/
example : ∃ s₁ s₂, Executes nums empty (.block [.throw (some (.lit 1))]) inMethod s₁ ∧ s₁.cf = .throw ∧ s₁.exc = some (.atom 1) ∧
    (∀ c ∈ [((some ("X", "x"), [.print (.lit 8)]) : Option (Name × Name) × List (Stmt Nat))],
      ∃ ty y, c.1 = some (ty, y) ∧ nums.isA ty (.atom 1) = false) ∧ nums.isA "E" (.atom 1) = true ∧
    Executes nums empty (.block [.decl "E" "e" (some (.lit 1)), .block [.print (var "e")]]) { s₁ with cf := .normal } s₂ ∧
    s₂.out = [.atom 1] :=
  ⟨_, _, ⟨20, rfl⟩, rfl, rfl, by simp [nums], rfl, ⟨20, rfl⟩, rfl⟩

/-- The final state of a run. -/
def final {α : Type} : Res Nat α → St Nat
  | .ok _ s => s
  | .raise _ s => s
  | _ => start []

/-- The states of a handler for an object. -/
def thrown₁ : St Nat := final (exec nums objects 9 (.block [.throw (some (.call [] "f" []))]) inMethod)
def thrown₂ : St Nat := final (pushScope thrown₁)
def thrown₃ : St Nat := final (declare nums "E" "e" thrown₂)
def thrown₄ : St Nat := final (assignDeclared nums "e" (.obj "C" 0) thrown₃)
def thrown₅ : St Nat := final (exec nums objects 9 (.block [.print (var "e")]) { thrown₄ with cf := .normal })
def thrown₆ : St Nat := final (popScope thrown₅)

/-- The hypotheses of `first_matching_handler_object`: an object is thrown. -/
example : Executes nums objects (.try [.throw (some (.call [] "f" []))] [(some ("E", "e"), [.print (var "e")])] none) inMethod thrown₆ ∧
    thrown₆.out = [.obj "C" 0] :=
  ⟨first_matching_handler_object (s₁ := thrown₁) (s₂ := thrown₂) (s₃ := thrown₃) (s₄ := thrown₄) (s₅ := thrown₅) (x := .obj "C" 0)
    (before := []) (after := []) ⟨9, rfl⟩ rfl rfl (by nofun) rfl rfl rfl rfl ⟨9, rfl⟩ rfl, rfl⟩

/-- The hypotheses of `unmatched_exception`, and what it says. -/
example : ∃ s₁, Executes nums empty (.try [.throw (some (.lit 1))] [(some ("X", "x"), [.print (.lit 8)])] none) inMethod s₁ ∧ s₁.cf = .throw :=
  ⟨_, unmatched_exception (b := [.throw (some (.lit 1))]) ⟨20, rfl⟩ rfl rfl (by nofun) (by simp [nums]), rfl⟩

/-- A clause without a type. -/
example : ∃ s₂, Executes nums empty (.try [.throw (some (.lit 1))] [(some ("X", "x"), []), (none, [.print (.lit 8)])] none) inMethod s₂ ∧
    s₂.cf = .normal ∧ s₂.out = [.atom 8] :=
  ⟨_, untyped_handler (b := [.throw (some (.lit 1))]) (before := [(some ("X", "x"), [])]) (after := []) (x := .atom 1) ⟨20, rfl⟩ rfl rfl
    (by simp [nums]) ⟨20, rfl⟩, rfl, rfl⟩

/-- A try block that breaks a loop, and one whose exception is caught without a clause. -/
example : ∃ s₂, Executes nums empty (.try [.print (.lit 1), .brk] [(none, [.print (.lit 8)])] none) inMethod s₂ ∧
    s₂.cf = .brk ∧ s₂.out = [.atom 1] :=
  ⟨_, try_without_exception (s₁ := _) ⟨20, rfl⟩ (by nofun), rfl, rfl⟩
example : ∃ s₂, Executes nums empty (.try [.print (.lit 1), .throw (some (.lit 1))] [] none) inMethod s₂ ∧
    s₂.cf = .normal ∧ s₂.out = [.atom 1] := ⟨_, try_without_clauses.2 ⟨_, ⟨20, rfl⟩, rfl⟩, rfl, rfl⟩

/-- A while loop with two rounds. -/
example : ∃ s', Executes nums empty (.while (.compare .lt (var "x") (.lit 7)) (.block [.print (var "x"), .expr (.incr "++" ⟨"x", []⟩)])) inMethod s' ∧
    s'.out = [.atom 6, .atom 5] := ⟨_, ⟨20, rfl⟩, rfl⟩

/-- `x && (x = 0)`: both operands are evaluated. -/
example : ∃ s', Evaluates nums empty (.bool .and (var "x") (.assign ⟨"x", []⟩ (.lit 0))) inMethod (.atom 0) s' := ⟨_, 20, rfl⟩

/-- A switch statement that skips its first case. -/
example : ∃ s', Executes nums empty (.switch (var "x") [(.lit 4, [.print (.lit 4)]), (.lit 5, [.print (.lit 5), .brk, .print (.lit 6)])] []) inMethod s' ∧
    s'.out = [.atom 5] :=
  ⟨_, switch_runs_chosen (v := .atom 5) (b := [.print (.lit 5), .brk, .print (.lit 6)]) ⟨20, rfl⟩
    (.skip ⟨20, rfl⟩ ⟨20, rfl⟩ (.hit ⟨20, rfl⟩ ⟨20, rfl⟩)) ⟨20, rfl⟩ (.done (.inr rfl)), rfl⟩

/-- A switch statement whose second case is left by the exception a method throws. -/
example : ∃ s', CaseLeaves nums objects (.atom 5) [(.lit 4, []), (.call [] "fail" [], [.print (.lit 5)])] inMethod .throw s' ∧
    Executes nums objects (.switch (.lit 5) [(.lit 4, []), (.call [] "fail" [], [.print (.lit 5)])] []) inMethod { s' with cf := .throw } :=
  have h : CaseLeaves nums objects (.atom 5) [(.lit 4, []), (.call [] "fail" [], [.print (.lit 5)])] inMethod .throw _ :=
    .later (w := .atom 4) ⟨20, rfl⟩ ⟨20, rfl⟩ (.here ⟨20, rfl⟩)
  ⟨_, h, switch_unrolls.2 (.inr (.inl ⟨.atom 5, _, _, _, ⟨20, rfl⟩, h, rfl⟩))⟩

/-- A switch statement without cases. -/
example : ∃ s', Executes nums empty (.switch (var "x") [] [.print (.lit 5), .brk]) inMethod s' ∧ s'.out = [.atom 5] :=
  ⟨_, switch_without_cases_unrolls.2 ⟨_, ⟨20, rfl⟩, .done (.inr rfl)⟩, rfl⟩

/-- A call. -/
example : ∃ v s', Evaluates nums objects (.call [] "two" []) inMethod v s' ∧ v = .atom 2 := ⟨_, _, ⟨20, rfl⟩, rfl⟩

/-- `delete x` does nothing at all, whatever `x` is: the variable keeps its object, and so does everything else. -/
theorem delete_refuted {A : Type} (P : Prim A) (G : Prog A) (s : St A) (p : Path) (w : SRef) (v : Value A) (h : lookPath s p = .found w v) :
    Executes P G (.delete (.sym p)) s s := by
  refine ⟨2, ?_⟩
  rw [exec]
  simp only [eval, evalSym, h]
  rfl

/-- A variable that is found. -/
example : ∃ w v, lookPath inMethod ⟨"x", []⟩ = .found w v := ⟨_, _, rfl⟩

end Interp
end Verif
