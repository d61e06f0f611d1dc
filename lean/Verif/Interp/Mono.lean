import Verif.Interp.Sim

/-!
# The fuel of the model does not matter

A result other than `fuel` stays the same with more fuel.
-/

namespace Verif
namespace Interp
namespace Sim

variable {A : Type}

/-- More fuel may only turn `fuel` into a result. -/
def Le {α : Type} (r r' : Res A α) : Prop := r = .fuel ∨ r = r'

theorem Le.refl {α : Type} (r : Res A α) : Le r r := .inr rfl

theorem Le.fuel {α : Type} (r : Res A α) : Le .fuel r := .inl rfl

theorem Le.bind {α β : Type} {r r' : Res A α} {k k' : α → St A → Res A β} (h : Le r r') (hk : ∀ a s, Le (k a s) (k' a s)) :
    Le (r.bind k) (r'.bind k') := by
  rcases h with rfl | rfl
  · exact .inl rfl
  · cases r with
    | ok a s => exact hk a s
    | _ => exact .inr rfl

theorem Le.try {α : Type} {r r' : Res A α} {k k' : α → St A → Res A Unit} (h : Le r r') (hk : ∀ a s, Le (k a s) (k' a s)) :
    Le (r.tryControl k) (r'.tryControl k') := by
  rcases h with rfl | rfl
  · exact .inl rfl
  · cases r with
    | ok a s => exact hk a s
    | _ => exact .inr rfl

theorem Le.withAlias {α : Type} (v : Value A) (s : St A) {k k' : St A → Res A α} (hk : ∀ s, Le (k s) (k' s)) :
    Le (withAlias v s k) (withAlias v s k') := by
  unfold Interp.withAlias
  cases pushAlias v s with
  | ok i s₁ =>
    simp only
    rcases hk s₁ with h | h
    · rw [h]; exact .inl rfl
    · rw [h]; exact .refl _
  | _ => exact .refl _

theorem Le.nested {s : St A} {r r' : Res A (Value A)} (h : Le r r') : Le (nested s r) (nested s r') := by
  rcases h with rfl | rfl
  · exact .inl rfl
  · exact .refl _

theorem Le.ite {α : Type} {c : Prop} [Decidable c] {a a' b b' : Res A α} (h : Le a a') (h' : Le b b') :
    Le (if c then a else b) (if c then a' else b') := by
  split
  · exact h
  · exact h'

/-- All functions of the interpreter at once. -/
structure MonoAt (P : Prim A) (G : Prog A) (n : Nat) : Prop where
  eval : ∀ e s, Le (eval P G n e s) (eval P G (n + 1) e s)
  evalArgs : ∀ es s, Le (evalArgs P G n es s) (evalArgs P G (n + 1) es s)
  compareVals : ∀ c v w s, Le (compareVals P G n c v w s) (compareVals P G (n + 1) c v w s)
  call : ∀ p f vs s, Le (call P G n p f vs s) (call P G (n + 1) p f vs s)
  run : ∀ m self vs s, Le (run P G n m self vs s) (run P G (n + 1) m self vs s)
  execList : ∀ b s, Le (execList P G n b s) (execList P G (n + 1) b s)
  execBlock : ∀ b s, Le (execBlock P G n b s) (execBlock P G (n + 1) b s)
  exec : ∀ st s, Le (exec P G n st s) (exec P G (n + 1) st s)
  handle : ∀ c s, Le (handle P G n c s) (handle P G (n + 1) c s)
  execWhile : ∀ c b s, Le (execWhile P G n c b s) (execWhile P G (n + 1) c b s)
  execFor : ∀ c i b s, Le (execFor P G n c i b s) (execFor P G (n + 1) c i b s)
  forBody : ∀ c i b s, Le (forBody P G n c i b s) (forBody P G (n + 1) c i b s)
  execForeach : ∀ ty x it b s, Le (execForeach P G n ty x it b s) (execForeach P G (n + 1) ty x it b s)
  execSwitch : ∀ e cs d s, Le (execSwitch P G n e cs d s) (execSwitch P G (n + 1) e cs d s)
  switchEnd : ∀ e cs d s, Le (switchEnd P G n e cs d s) (switchEnd P G (n + 1) e cs d s)
  execCases : ∀ v cs d s, Le (execCases P G n v cs d s) (execCases P G (n + 1) v cs d s)

variable {P : Prim A} {G : Prog A}

theorem monoAt_zero : MonoAt P G 0 := by
  constructor <;> intros <;> left
  · rw [eval]
  · rw [evalArgs]
  · rw [compareVals]
  · rw [call]
  · rw [run]
  · rw [execList]
  · rw [execBlock]
  · rw [exec]
  · rw [handle]
  · rw [execWhile]
  · rw [execFor]
  · rw [forBody]
  · rw [execForeach]
  · rw [execSwitch]
  · rw [switchEnd]
  · rw [execCases]

variable {n : Nat}

theorem MonoAt.eval_succ (h : MonoAt P G n) (e : Expr A) (s : St A) : Le (Interp.eval P G (n + 1) e s) (Interp.eval P G (n + 2) e s) := by
  cases e with
  | lit a => simp only [Interp.eval]; exact .refl _
  | sym p => simp only [Interp.eval]; exact .refl _
  | assign p e =>
    simp only [Interp.eval]
    refine .bind (.refl _) fun w s => ?_
    rcases h.eval e s with h | h
    · rw [h]; exact .inl rfl
    · rw [h]; exact .refl _
  | incr op p => simp only [Interp.eval]; exact .refl _
  | unary op e => simp only [Interp.eval]; exact .bind (h.eval _ _) fun _ _ => .refl _
  | validate e => simp only [Interp.eval]; exact .bind (h.eval _ _) fun _ _ => .refl _
  | binary op l r => simp only [Interp.eval]; exact .bind (h.eval _ _) fun _ _ => .bind (h.eval _ _) fun _ _ => .refl _
  | compare c l r =>
    simp only [Interp.eval]
    exact .bind (h.eval _ _) fun _ _ => .bind (h.eval _ _) fun _ _ => .bind (h.compareVals _ _ _ _) fun _ _ => .refl _
  | bool op l r =>
    simp only [Interp.eval]
    refine .bind (h.eval _ _) fun v s => ?_
    cases op.short (isTrue P v) with
    | some b => exact .refl _
    | none => exact .bind (h.eval _ _) fun _ _ => .refl _
  | ternary c t e => simp only [Interp.eval]; exact .bind (h.eval _ _) fun _ _ => .ite (h.eval _ _) (h.eval _ _)
  | elvis c e => simp only [Interp.eval]; exact .bind (h.eval _ _) fun _ _ => .ite (.refl _) (h.eval _ _)
  | call path f args => simp only [Interp.eval]; exact .bind (h.evalArgs _ _) fun _ _ => h.call _ _ _ _
  | new cls args =>
    simp only [Interp.eval]
    refine .bind (h.evalArgs _ _) fun vs s => ?_
    cases G.ctor cls vs with
    | none => exact .refl _
    | some m => exact .bind (.nested (h.run _ _ _ _)) fun _ _ => .refl _
  | dot l r => simp only [Interp.eval]; exact .bind (h.eval _ _) fun _ _ => .withAlias _ _ fun _ => h.eval _ _

theorem MonoAt.exec_succ (h : MonoAt P G n) (st : Stmt A) (s : St A) : Le (Interp.exec P G (n + 1) st s) (Interp.exec P G (n + 2) st s) := by
  cases st with
  | nop => simp only [Interp.exec]; exact .refl _
  | expr e => simp only [Interp.exec]; exact .try (h.eval _ _) fun _ _ => .refl _
  | assign p e => simp only [Interp.exec]; exact .bind (.refl _) fun _ _ => .try (h.eval _ _) fun _ _ => .refl _
  | decl ty x init =>
    cases init with
    | none => simp only [Interp.exec]; exact .refl _
    | some e => simp only [Interp.exec]; exact .bind (.refl _) fun _ _ => .try (h.eval _ _) fun _ _ => .refl _
  | print e => simp only [Interp.exec]; exact .try (h.eval _ _) fun _ _ => .refl _
  | assert e msg =>
    simp only [Interp.exec]
    refine .try (h.eval _ _) fun _ _ => .ite (.refl _) ?_
    cases msg with
    | none => exact .refl _
    | some m => exact .try (h.eval _ _) fun _ _ => .refl _
  | delete e => simp only [Interp.exec]; exact .try (h.eval _ _) fun _ _ => .refl _
  | exit e => simp only [Interp.exec]; exact .try (h.eval _ _) fun _ _ => .refl _
  | ret e =>
    cases e with
    | none => simp only [Interp.exec]; exact .refl _
    | some e => simp only [Interp.exec]; exact .try (h.eval _ _) fun _ _ => .refl _
  | throw e =>
    cases e with
    | none => simp only [Interp.exec]; exact .refl _
    | some e => simp only [Interp.exec]; exact .try (h.eval _ _) fun _ _ => .refl _
  | brk => simp only [Interp.exec]; exact .refl _
  | cont => simp only [Interp.exec]; exact .refl _
  | ite c t e => simp only [Interp.exec]; exact .try (h.eval _ _) fun _ _ => .ite (h.exec _ _) (h.exec _ _)
  | «while» c b => simp only [Interp.exec]; exact h.execWhile _ _ _
  | «for» init c iter b =>
    simp only [Interp.exec]
    exact .bind (.refl _) fun _ _ => .bind (h.exec _ _) fun _ _ => h.execFor _ _ _ _
  | foreach ty x coll b =>
    simp only [Interp.exec]
    exact .try (h.eval _ _) fun _ _ => .bind (.withAlias _ _ fun _ => h.call _ _ _ _) fun _ _ => h.execForeach _ _ _ _ _
  | foreachIt ty x path f args b =>
    simp only [Interp.exec]
    exact .bind (h.evalArgs _ _) fun _ _ => .bind (h.call _ _ _ _) fun _ _ => h.execForeach _ _ _ _ _
  | switch e cs d => simp only [Interp.exec]; exact h.execSwitch _ _ _ _
  | «try» b cs fin =>
    simp only [Interp.exec]
    refine .bind (h.execBlock _ _) fun _ _ => .bind (.ite (h.handle _ _) (.refl _)) fun _ _ => ?_
    cases fin with
    | none => exact .refl _
    | some f => exact .bind (h.execBlock _ _) fun _ _ => .refl _
  | block b => simp only [Interp.exec]; exact h.execBlock _ _

theorem MonoAt.cases_succ (h : MonoAt P G n) (v : Value A) (cs : List (Expr A × List (Stmt A))) (d : List (Stmt A)) (s : St A) :
    Le (Interp.execCases P G (n + 1) v cs d s) (Interp.execCases P G (n + 2) v cs d s) := by
  cases cs with
  | nil => simp only [Interp.execCases]; exact .bind (h.execBlock _ _) fun _ _ => .refl _
  | cons c cs =>
    obtain ⟨e, b⟩ := c
    simp only [Interp.execCases]
    rcases h.eval e s with h' | h'
    · rw [h']; exact .inl rfl
    · rw [← h']
      cases Interp.eval P G n e s with
      | ok w s₁ =>
        exact .bind (h.compareVals _ _ _ _) fun _ _ => .ite (.bind (h.execBlock _ _) fun _ _ => .refl _) (h.execCases _ _ _ _)
      | _ => exact .refl _

theorem MonoAt.switch_succ (h : MonoAt P G n) (e : Expr A) (cs : List (Expr A × List (Stmt A))) (d : List (Stmt A)) (s : St A) :
    Le (Interp.execSwitch P G (n + 1) e cs d s) (Interp.execSwitch P G (n + 2) e cs d s) := by
  cases cs with
  | nil => simp only [Interp.execSwitch]; exact .bind (h.execBlock _ _) fun _ _ => h.switchEnd _ _ _ _
  | cons c cs =>
    simp only [Interp.execSwitch]
    refine .try (h.eval _ _) fun v s => ?_
    rcases h.execCases v (c :: cs) d s with h' | h'
    · rw [h']; exact .inl rfl
    · rw [← h']
      cases Interp.execCases P G n v (c :: cs) d s with
      | ok b s₁ =>
        cases b with
        | true => exact h.switchEnd _ _ _ _
        | false => exact .refl _
      | _ => exact .refl _

theorem MonoAt.succ (h : MonoAt P G n) : MonoAt P G (n + 1) where
  eval := h.eval_succ
  evalArgs es s := by
    cases es with
    | nil => simp only [Interp.evalArgs]; exact .refl _
    | cons e es => simp only [Interp.evalArgs]; exact .bind (h.eval _ _) fun _ _ => .bind (h.evalArgs _ _) fun _ _ => .refl _
  compareVals c v w s := by
    cases v with
    | obj cls o =>
      simp only [Interp.compareVals]
      cases findMethod G (.obj cls o) c.method [w] with
      | none => exact .refl _
      | some m => exact .bind (.nested (h.run _ _ _ _)) fun _ _ => .refl _
    | null => simp only [Interp.compareVals]; exact .refl _
    | atom a => simp only [Interp.compareVals]; exact .refl _
  call p f vs s := by
    simp only [Interp.call]
    cases resolveCall G s p f vs with
    | found m =>
      simp only
      cases m.1.code with
      | native g => exact .refl _
      | body b => exact .bind (h.run _ _ _ _) fun _ _ => .refl _
      | «abstract» => exact .bind (h.run _ _ _ _) fun _ _ => .refl _
    | _ => exact .refl _
  run m self vs s := by
    simp only [Interp.run]
    cases m.code with
    | body b =>
      simp only
      rcases h.execList b (pushFrame s self m vs) with h | h
      · rw [h]; exact .inl rfl
      · rw [h]; exact .refl _
    | _ => exact .refl _
  execList b s := by
    cases b with
    | nil => simp only [Interp.execList]; exact .refl _
    | cons st b => simp only [Interp.execList]; exact .ite (.bind (h.exec _ _) fun _ _ => h.execList _ _) (.refl _)
  execBlock b s := by
    simp only [Interp.execBlock]
    exact .bind (.refl _) fun _ _ => .bind (h.execList _ _) fun _ _ => .refl _
  exec := h.exec_succ
  handle cs s := by
    cases cs with
    | nil => simp only [Interp.handle]; exact .refl _
    | cons c cs =>
      simp only [Interp.handle]
      cases findCatch P s.exc (c :: cs) with
      | none => exact .refl _
      | some db => exact .bind (.refl _) fun _ _ => .bind (.refl _) fun _ _ => .bind (h.execBlock _ _) fun _ _ => .refl _
  execWhile c b s := by
    simp only [Interp.execWhile]
    refine .try (h.eval _ _) fun _ _ => .ite (.bind (h.exec _ _) fun _ s => ?_) (.refl _)
    cases afterBody s with
    | none => exact .refl _
    | some s => exact h.execWhile _ _ _
  execFor c i b s := by
    cases c with
    | none => simp only [Interp.execFor]; exact h.forBody _ _ _ _
    | some c => simp only [Interp.execFor]; exact .try (h.eval _ _) fun _ _ => .ite (h.forBody _ _ _ _) (.refl _)
  forBody c i b s := by
    simp only [Interp.forBody]
    refine .bind (h.exec _ _) fun _ s => ?_
    cases afterBody s with
    | none => exact .refl _
    | some s => exact .bind (h.exec _ _) fun _ _ => h.execFor _ _ _ _
  execForeach ty x it b s := by
    simp only [Interp.execForeach]
    refine .bind (.withAlias _ _ fun _ => h.call _ _ _ _) fun _ _ => .ite ?_ (.refl _)
    refine .bind (.refl _) fun _ _ => .bind (.refl _) fun _ _ => .bind (.withAlias _ _ fun _ => h.call _ _ _ _) fun _ _ => ?_
    refine .bind (.refl _) fun _ _ => .bind (h.exec _ _) fun _ _ => .bind (.refl _) fun _ s => ?_
    cases afterBody s with
    | none => exact .refl _
    | some s => exact h.execForeach _ _ _ _ _
  execSwitch := h.switch_succ
  switchEnd e cs d s := by
    simp only [Interp.switchEnd]
    cases s.cf with
    | cont => exact h.execSwitch _ _ _ _
    | _ => exact .refl _
  execCases := h.cases_succ

theorem monoAt (P : Prim A) (G : Prog A) : ∀ n, MonoAt P G n
  | 0 => monoAt_zero
  | n + 1 => (monoAt P G n).succ

/-- A function that gets better with more fuel ends with any result it once had. -/
theorem Ends.of_eq {α : Type} {f : Nat → Res A α} (hm : ∀ n, Le (f n) (f (n + 1))) {n : Nat} {r : Res A α} (h : f n = r)
    (hr : r ≠ .fuel) : Ends f r := by
  refine ⟨n, fun m hmn => ?_⟩
  obtain ⟨k, rfl⟩ : ∃ k, m = n + k := ⟨m - n, by omega⟩
  clear hmn
  induction k with
  | zero => exact h
  | succ k ih =>
    rcases hm (n + k) with h' | h'
    · exact absurd (ih.symm.trans h') hr
    · rw [show n + (k + 1) = n + k + 1 by omega, ← h', ih]

theorem Ends.exec {st : Stmt A} {s : St A} {n : Nat} {r : Res A Unit} (h : exec P G n st s = r) (hr : r ≠ .fuel) :
    Ends (fun n => exec P G n st s) r := .of_eq (fun n => (monoAt P G n).exec st s) h hr

theorem Ends.run {m : Method A} {self : Option (Name × Nat)} {vs : List (Value A)} {s : St A} {n : Nat} {r : Res A (Value A)}
    (h : run P G n m self vs s = r) (hr : r ≠ .fuel) : Ends (fun n => run P G n m self vs s) r :=
  .of_eq (fun n => (monoAt P G n).run m self vs s) h hr

theorem Ends.eval {e : Expr A} {s : St A} {n : Nat} {r : Res A (Value A)} (h : eval P G n e s = r) (hr : r ≠ .fuel) :
    Ends (fun n => eval P G n e s) r := .of_eq (fun n => (monoAt P G n).eval e s) h hr

end Sim
end Interp
end Verif
