import Verif.Check.Model
import Verif.Check.Every
import Verif.Interp.Props

/-!
# Where `break` and `continue` end

By induction on the fuel: an accepted statement only completes with a pending `break` or
`continue` where one is allowed.
-/

namespace Verif
namespace Check
namespace Jumps

open Interp

variable {A : Type}

/-- A pending `break` or `continue`. -/
def Jump (c : CF) : Prop := c = .brk ∨ c = .cont

/-- What C++ exceptions of type `ControlFlow::E` carry. -/
def Thrown (c : CF) : Prop := c = .throw ∨ c = .exit

theorem Thrown.not_jump {c : CF} (h : Thrown c) : ¬ Jump c := by
  rcases h with rfl | rfl <;> rintro (h | h) <;> cases h

/-- The control flow is the same as before, and nothing is thrown. -/
def Keeps {α : Type} (s : St A) : Res A α → Prop
  | .ok _ s' => s'.cf = s.cf
  | .raise _ _ => False
  | _ => True

/-- No `break` or `continue` has come up, unless `a` holds. -/
def Q {α : Type} (a : Prop) (s : St A) : Res A α → Prop
  | .ok _ s' => Jump s'.cf → Jump s.cf ∨ a
  | .raise c _ => Thrown c
  | _ => True

section
variable {α β : Type} {a : Prop} {s s₁ : St A}

theorem Keeps.q {r : Res A α} (h : Keeps s r) : Q a s r := by
  cases r with
  | ok v s' => intro hj; rw [show s'.cf = s.cf from h] at hj; exact .inl hj
  | raise c s' => exact h.elim
  | _ => trivial

theorem Keeps.bind {r : Res A α} {k : α → St A → Res A β} (h : Keeps s r) (hk : ∀ v s', s'.cf = s.cf → Keeps s' (k v s')) :
    Keeps s (r.bind k) := by
  cases r with
  | ok v s' =>
    have h1 := hk v s' h
    show Keeps s (k v s')
    cases hr : k v s' with
    | ok w s'' => rw [hr] at h1; exact Eq.trans h1 h
    | raise c s'' => rw [hr] at h1; exact h1.elim
    | _ => trivial
  | raise c s' => exact h.elim
  | _ => trivial

theorem Q.ok {v : α} : Q a s (.ok v s : Res A α) := fun h => .inl h

theorem Q.okOf {v : α} {s' : St A} (h : Jump s'.cf → Jump s.cf ∨ a) : Q a s (.ok v s' : Res A α) := h

theorem Q.trans {r : Res A α} (h1 : Jump s₁.cf → Jump s.cf ∨ a) (h2 : Q a s₁ r) : Q a s r := by
  cases r with
  | ok v s' => exact fun hj => (h2 hj).elim h1 .inr
  | raise c s' => exact h2
  | _ => trivial

theorem Q.bind {r : Res A α} {k : α → St A → Res A β} (h : Q a s r) (hk : ∀ v s', Q a s' (k v s')) : Q a s (r.bind k) := by
  cases r with
  | ok v s' => exact .trans h (hk v s')
  | raise c s' => exact h
  | _ => trivial

theorem Q.try {r : Res A α} {k : α → St A → Res A Unit} (h : Q a s r) (hk : ∀ v s', Q a s' (k v s')) :
    Q a s (r.tryControl k) := by
  cases r with
  | ok v s' => exact .trans h (hk v s')
  | raise c s' => exact fun hj => (h.not_jump hj).elim
  | _ => trivial

theorem Q.weaken {b : Prop} {r : Res A α} (h : Q a s r) (hab : a → b) : Q b s r := by
  cases r with
  | ok v s' => exact fun hj => (h hj).imp id hab
  | raise c s' => exact h
  | _ => trivial

theorem Q.never {r : Res A α} (h : Q False s r) : Q a s r := h.weaken False.elim

theorem Q.of_cf {c : CF} {r : Res A α} (hc : Jump c → Jump s.cf ∨ a) (h : Q a { s with cf := c } r) : Q a s r :=
  .trans (s₁ := { s with cf := c }) hc h

end

/-! ## Helpers that do not touch the control flow -/

section
variable {s : St A}

theorem keeps_pushEntry (e : Nat × Bool) (s : St A) : Keeps s (pushEntry e s) := by
  unfold pushEntry
  cases s.frames[s.cur]? <;> first | trivial | rfl

theorem keeps_pushScope (s : St A) : Keeps s (pushScope s) := by
  unfold pushScope
  cases getScope s with
  | none => trivial
  | some p => exact keeps_pushEntry _ _

theorem keeps_popScope (s : St A) : Keeps s (popScope s) := by
  unfold popScope
  cases s.frames[s.cur]? with
  | none => trivial
  | some fr =>
    dsimp only
    cases fr.stack with
    | nil => trivial
    | cons e rest =>
      obtain ⟨i, del⟩ := e
      cases del <;> rfl

theorem keeps_define (s : St A) (x : Name) (v : Value A) : Keeps s (define s x v) := by
  unfold define
  cases getScope s with
  | none => trivial
  | some i =>
    dsimp only
    cases s.scopes i with
    | none => trivial
    | some sc =>
      cases sc with
      | alias w => cases w <;> first | trivial | rfl
      | scope vars parent => dsimp only; cases vars.find x <;> first | trivial | rfl

theorem keeps_declare (P : Prim A) (ty x : Name) (s : St A) : Keeps s (declare P ty x s) := keeps_define _ _ _

theorem store_cf (s : St A) (w : SRef) (x : Name) (v : Value A) : (store s w x v).cf = s.cf := by
  cases w with
  | blk i =>
    simp only [store]
    cases s.scopes i with
    | none => rfl
    | some sc => cases sc <;> rfl
  | _ => rfl

theorem keeps_assignTo (s : St A) (w : SRef) (x : Name) (v : Option (Value A)) : Keeps s (assignTo s w x v) := by
  cases v with
  | none => trivial
  | some v => exact store_cf _ _ _ _

theorem keeps_lvalue (s : St A) (p : Path) : Keeps s (lvalue s p) := by
  unfold lvalue
  cases lookPath s p <;> first | trivial | rfl

theorem keeps_ofOption {α : Type} (s : St A) (v : Option α) : Keeps s (ofOption s v) := by
  cases v <;> first | trivial | rfl

theorem keeps_assignDeclared (P : Prim A) (x : Name) (v : Value A) (s : St A) : Keeps s (assignDeclared P x v s) := by
  unfold assignDeclared
  cases getScope s with
  | none => trivial
  | some i =>
    dsimp only
    cases look (i + 1) s (.blk i) x with
    | found w old => exact (keeps_assignTo _ _ _ _).bind fun _ _ _ => rfl
    | _ => trivial

theorem keeps_overwriteDeclared (x : Name) (v : Value A) (s : St A) : Keeps s (overwriteDeclared x v s) := by
  unfold overwriteDeclared
  cases getScope s with
  | none => trivial
  | some i =>
    dsimp only
    cases look (i + 1) s (.blk i) x with
    | found w old => exact store_cf _ _ _ _
    | _ => trivial

theorem keeps_bindException (P : Prim A) (d : Option (Name × Name)) (s : St A) : Keeps s (bindException P d s) := by
  cases d with
  | none => rfl
  | some tx =>
    obtain ⟨ty, x⟩ := tx
    refine (keeps_declare _ _ _ _).bind fun _ s' _ => ?_
    cases s'.exc with
    | none => trivial
    | some v => exact keeps_assignDeclared _ _ _ _

theorem keeps_popFrame (s : St A) : Keeps s (popFrame s) := by
  unfold popFrame
  cases s.frames.getLast? with
  | none => trivial
  | some fr =>
    dsimp only
    cases fr.stack with
    | nil => trivial
    | cons e rest => rfl

theorem keeps_pushAlias (v : Value A) (s : St A) : Keeps s (pushAlias v s) := by
  unfold pushAlias
  refine Keeps.bind (s := s) ?_ fun _ s' _ => show s'.cf = s'.cf from rfl
  exact keeps_pushEntry _ _

theorem q_withAlias {α : Type} {a : Prop} (v : Value A) (s : St A) {k : St A → Res A α} (hk : ∀ s', Q a s' (k s')) :
    Q a s (withAlias v s k) := by
  unfold withAlias
  have h := keeps_pushAlias v s
  cases hp : pushAlias v s with
  | ok i s₁ =>
    rw [hp] at h
    have h1 : Q a s (k s₁) := .trans (s₁ := s₁) (by rw [show s₁.cf = s.cf from h]; exact .inl) (hk s₁)
    dsimp only
    cases hr : k s₁ with
    | ok w s₂ =>
      rw [hr] at h1
      exact .trans h1 (.bind (keeps_popScope s₂).q fun _ s' => fun hj => .inl hj)
    | raise c s₂ => rw [hr] at h1; exact h1
    | _ => trivial
  | raise c s₁ => rw [hp] at h; exact h.elim
  | _ => trivial

theorem q_nested {a : Prop} {s : St A} {s₀ : St A} {r : Res A (Value A)} (h : Q False s₀ r) (h0 : ¬ Jump s₀.cf) :
    Q a s (nested s r) ∧ ∀ c s', nested s r = .ok c s' → ¬ Jump c.1 := by
  cases r with
  | ok v s' =>
    refine ⟨fun hj => .inl hj, fun c s'' he => ?_⟩
    cases he
    intro hj
    exact (h hj).elim h0 id
  | raise c s' => exact ⟨h, by nofun⟩
  | _ => exact ⟨trivial, by nofun⟩

theorem not_jump_normal : ¬ Jump .normal := by rintro (h | h) <;> cases h
theorem not_jump_throw : ¬ Jump .throw := by rintro (h | h) <;> cases h
theorem not_jump_exit : ¬ Jump .exit := by rintro (h | h) <;> cases h
theorem not_jump_ret : ¬ Jump .ret := by rintro (h | h) <;> cases h

theorem q_afterCall {a : Prop} (v : Value A) (s : St A) : Q a s (afterCall v s) := by
  unfold afterCall
  cases h : s.cf <;> first | exact .inr rfl | exact .inl rfl | exact fun hj => (not_jump_normal hj).elim

theorem q_loop {a : Prop} {s₀ s : St A} {k : St A → Res A Unit} (hk : ∀ s', ¬ Jump s'.cf → Q a s' (k s')) :
    Q a s₀ (match afterBody s with
      | some s => k s
      | none => .ok () (leaveLoop s)) := by
  unfold afterBody leaveLoop
  cases h : s.cf <;> dsimp only
  · exact .trans (s₁ := { s with cf := .normal }) (fun hj => (not_jump_normal hj).elim) (hk _ not_jump_normal)
  · exact fun hj => (not_jump_normal hj).elim
  · exact .trans (s₁ := { s with cf := .normal }) (fun hj => (not_jump_normal hj).elim) (hk _ not_jump_normal)
  · intro hj; rw [h] at hj; exact (not_jump_ret hj).elim
  · intro hj; rw [h] at hj; exact (not_jump_throw hj).elim
  · intro hj; rw [h] at hj; exact (not_jump_exit hj).elim

end

/-! ## The induction -/

/-- The third part of a `for` statement is not a block in braces. -/
def PlainFor (st : Stmt A) : Prop := ∀ i c s b, st = .for i c s b → ∀ l, s ≠ .block l

/-- What is known of a statement: jumps may leave it (`a`), or the check has passed. -/
def Fine (a : Prop) (st : Stmt A) : Prop := a ∨ (jumps false false st = true ∧ Every PlainFor st)

def FineList (a : Prop) (b : List (Stmt A)) : Prop := a ∨ (jumpsList false b = true ∧ EveryOf PlainFor b)

/-- All functions of the interpreter at once. -/
structure At (P : Prim A) (G : Prog A) (n : Nat) : Prop where
  eval : ∀ e s, Q False s (eval P G n e s)
  evalArgs : ∀ es s, Q False s (evalArgs P G n es s)
  compareVals : ∀ c v w s, Q False s (compareVals P G n c v w s)
  call : ∀ p f vs s, Q False s (call P G n p f vs s)
  run : ∀ m self vs s, (∀ b, m.code = .body b → FineList False b) → Q False s (run P G n m self vs s)
  execList : ∀ a b s, FineList a b → Q a s (execList P G n b s)
  execBlock : ∀ a b s, FineList a b → Q a s (execBlock P G n b s)
  exec : ∀ a st s, Fine a st → Q a s (exec P G n st s)
  handle : ∀ a cs s, (a ∨ (jumpsCatches false cs = true ∧ EveryCatch PlainFor cs)) → ¬ Jump s.cf → Q a s (handle P G n cs s)
  execWhile : ∀ c b s, Q False s (execWhile P G n c b s)
  execFor : ∀ a c i b s, Fine a i → Q a s (execFor P G n c i b s)
  forBody : ∀ a c i b s, Fine a i → Q a s (forBody P G n c i b s)
  execForeach : ∀ ty x it b s, Q False s (execForeach P G n ty x it b s)
  execSwitch : ∀ e cs d s, Q False s (execSwitch P G n e cs d s)
  switchEnd : ∀ e cs d s s₀, Q False s₀ (switchEnd P G n e cs d s)
  execCases : ∀ v cs d s, Q True s (execCases P G n v cs d s) ∧ ∀ s', execCases P G n v cs d s = .ok false s' → ¬ Jump s'.cf

variable {P : Prim A} {G : Prog A}

/-- Every method of the program passes the check. -/
def Passes (G : Prog A) : Prop :=
  (∀ c f vs m b, G.method c f vs = some m → m.code = .body b → FineList False b) ∧
  (∀ c vs m b, G.ctor c vs = some m → m.code = .body b → FineList False b)

theorem at_zero : At P G 0 := by
  constructor <;> intros <;> first
    | (rw [Interp.eval]; trivial) | (rw [Interp.evalArgs]; trivial) | (rw [Interp.compareVals]; trivial)
    | (rw [Interp.call]; trivial) | (rw [Interp.run]; trivial) | (rw [Interp.execList]; trivial)
    | (rw [Interp.execBlock]; trivial) | (rw [Interp.exec]; trivial) | (rw [Interp.handle]; trivial)
    | (rw [Interp.execWhile]; trivial) | (rw [Interp.execFor]; trivial) | (rw [Interp.forBody]; trivial)
    | (rw [Interp.execForeach]; trivial) | (rw [Interp.execSwitch]; trivial) | (rw [Interp.switchEnd]; trivial)
    | (rw [Interp.execCases]; exact ⟨trivial, by nofun⟩)

variable {n : Nat}

theorem findMethod_mem {t : Target} {f : Name} {vs : List (Value A)} {m : Bound A} (h : findMethod G t f vs = some m) :
    ∃ c, G.method c f vs = some m.1 := by
  cases t with
  | obj cls o =>
    simp only [findMethod] at h
    cases hm : G.method (some cls) f vs with
    | some m' => rw [hm] at h; cases h; exact ⟨_, hm⟩
    | none =>
      rw [hm] at h
      obtain ⟨m', hm', rfl⟩ := Option.map_eq_some_iff.1 h
      exact ⟨_, hm'⟩
  | glob =>
    obtain ⟨m', hm', rfl⟩ := Option.map_eq_some_iff.1 h
    exact ⟨_, hm'⟩
  | nothing => cases h
  | dangling => cases h

theorem ofOption_mem {o : Option (Bound A)} {m : Bound A} (h : MLook.ofOption o = .found m) : o = some m := by
  cases o with
  | none => cases h
  | some m' => cases h; rfl

theorem resolveFrom_mem {s : St A} {k : Nat} {w : SRef} {x : Name} {xs : List Name} {f : Name} {vs : List (Value A)} {m : Bound A}
    (h : resolveFrom G s k w x xs f vs = .found m) : ∃ c, G.method c f vs = some m.1 := by
  unfold resolveFrom at h
  cases hl : look k s w x with
  | found w' v =>
    rw [hl] at h
    dsimp only at h
    cases hm : lookMembers s v xs with
    | none => rw [hm] at h; cases h
    | some u =>
      rw [hm] at h
      cases u with
      | obj cls o => exact findMethod_mem (ofOption_mem h)
      | _ => cases h
  | _ => rw [hl] at h; cases h

theorem resolveCall_mem {s : St A} {path : List Name} {f : Name} {vs : List (Value A)} {m : Bound A}
    (h : resolveCall G s path f vs = .found m) : ∃ c, G.method c f vs = some m.1 := by
  unfold resolveCall at h
  cases hs : getScope s with
  | none => rw [hs] at h; cases h
  | some i =>
    rw [hs] at h
    dsimp only at h
    cases path with
    | nil =>
      cases hm : methodScope (i + 1) s (.blk i) with
      | dangling => rw [hm] at h; cases h
      | _ => rw [hm] at h; exact findMethod_mem (ofOption_mem h)
    | cons x xs =>
      cases hr : resolveFrom G s (i + 1) (.blk i) x xs f vs with
      | missing =>
        cases hm : methodScope (i + 1) s (.blk i) with
        | dangling => rw [hm] at h; cases h
        | _ => rw [hm] at h; dsimp only at h; rw [hr] at h; exact resolveFrom_mem h
      | found m' =>
        cases hm : methodScope (i + 1) s (.blk i) with
        | dangling => rw [hm] at h; cases h
        | _ => rw [hm] at h; dsimp only at h; rw [hr] at h; cases h; exact resolveFrom_mem hr
      | dangling =>
        cases hm : methodScope (i + 1) s (.blk i) with
        | dangling => rw [hm] at h; cases h
        | _ => rw [hm] at h; dsimp only at h; rw [hr] at h; cases h

theorem findCatch_mem {exc : Option (Value A)} : ∀ {cs : List (Option (Name × Name) × List (Stmt A))} {c},
    findCatch P exc cs = some c → c ∈ cs
  | (none, b) :: cs, c, h => by
    simp only [findCatch] at h; cases h; exact List.mem_cons_self
  | (some (ty, x), b) :: cs, c, h => by
    simp only [findCatch] at h
    cases exc with
    | none => exact List.mem_cons_of_mem _ (findCatch_mem h)
    | some v =>
      dsimp only at h
      split at h
      · cases h; exact List.mem_cons_self
      · exact List.mem_cons_of_mem _ (findCatch_mem h)

theorem jumpsCatches_mem {a : Bool} : ∀ {cs : List (Option (Name × Name) × List (Stmt A))},
    jumpsCatches a cs = true → ∀ c ∈ cs, jumpsList a c.2 = true
  | (_, _) :: _, h, c, hc => by
    rw [jumpsCatches, Bool.and_eq_true] at h
    rcases List.mem_cons.1 hc with rfl | hc
    · exact h.1
    · exact jumpsCatches_mem h.2 c hc

theorem At.eval_succ (hG : Passes G) (h : At P G n) (e : Expr A) (s : St A) : Q False s (Interp.eval P G (n + 1) e s) := by
  cases e with
  | lit a => simp only [Interp.eval]; exact .ok
  | sym p =>
    simp only [Interp.eval, evalSym]
    cases lookPath s p with
    | found w v => exact .ok
    | missing => exact .inl rfl
    | dangling => trivial
  | assign p e =>
    simp only [Interp.eval]
    refine .bind (keeps_lvalue _ _).q fun w s => ?_
    have h1 := h.eval e s
    cases hr : Interp.eval P G n e s with
    | ok v s' => rw [hr] at h1; exact .trans h1 (keeps_assignTo _ _ _ _).q
    | raise c s' => rw [hr] at h1; exact fun hj => (h1.not_jump hj).elim
    | _ => trivial
  | incr op p => simp only [Interp.eval]; exact .bind (keeps_lvalue _ _).q fun _ _ => (keeps_assignTo _ _ _ _).q
  | unary op e => simp only [Interp.eval]; exact .bind (h.eval _ _) fun _ _ => (keeps_ofOption _ _).q
  | validate e =>
    simp only [Interp.eval]
    refine .bind (h.eval _ _) fun v s => ?_
    split
    · exact .ok
    · exact .inl rfl
  | binary op l r =>
    simp only [Interp.eval]; exact .bind (h.eval _ _) fun _ _ => .bind (h.eval _ _) fun _ _ => (keeps_ofOption _ _).q
  | compare c l r =>
    simp only [Interp.eval]
    exact .bind (h.eval _ _) fun _ _ => .bind (h.eval _ _) fun _ _ => .bind (h.compareVals _ _ _ _) fun _ _ => .ok
  | bool op l r =>
    simp only [Interp.eval]
    refine .bind (h.eval _ _) fun v s => ?_
    cases op.short (isTrue P v) with
    | some b => exact .ok
    | none => exact .bind (h.eval _ _) fun _ _ => .ok
  | ternary c t e =>
    simp only [Interp.eval]
    refine .bind (h.eval _ _) fun v s => ?_
    split <;> exact h.eval _ _
  | elvis c e =>
    simp only [Interp.eval]
    refine .bind (h.eval _ _) fun v s => ?_
    split
    · exact .ok
    · exact h.eval _ _
  | call path f args => simp only [Interp.eval]; exact .bind (h.evalArgs _ _) fun _ _ => h.call _ _ _ _
  | new cls args =>
    simp only [Interp.eval]
    refine .bind (h.evalArgs _ _) fun vs s => ?_
    cases hm : G.ctor cls vs with
    | none => trivial
    | some m =>
      have h1 := q_nested (a := False) (s := { s with objs := s.objs ++ [G.fields cls] })
        (h.run m (some (cls, s.objs.length)) vs { s with objs := s.objs ++ [G.fields cls], cf := .normal }
          fun b hb => hG.2 _ _ _ _ hm hb) not_jump_normal
      dsimp only
      generalize hr : nested _ _ = r at h1
      cases r with
      | ok c s' => exact fun hj => (h1.2 c s' rfl hj).elim
      | raise c s' => exact h1.1
      | _ => trivial
  | dot l r => simp only [Interp.eval]; exact .bind (h.eval _ _) fun _ _ => q_withAlias _ _ fun _ => h.eval _ _

theorem At.exec_succ (h : At P G n) (a : Prop) (st : Stmt A) (s : St A) (hf : Fine a st) :
    Q a s (Interp.exec P G (n + 1) st s) := by
  cases st with
  | nop => simp only [Interp.exec]; exact .ok
  | expr e => simp only [Interp.exec]; exact .try (h.eval _ _).never fun _ _ => .ok
  | assign p e =>
    simp only [Interp.exec]
    exact .bind (keeps_lvalue _ _).q fun _ _ => .try (h.eval _ _).never fun _ _ => .bind (keeps_assignTo _ _ _ _).q fun _ _ => .ok
  | decl ty x init =>
    cases init with
    | none => simp only [Interp.exec]; exact (keeps_declare _ _ _ _).q
    | some e =>
      simp only [Interp.exec]
      exact .bind (keeps_declare _ _ _ _).q fun _ _ => .try (h.eval _ _).never fun _ _ => (keeps_assignDeclared _ _ _ _).q
  | print e => simp only [Interp.exec]; exact .try (h.eval _ _).never fun _ _ => fun hj => .inl hj
  | assert e msg =>
    simp only [Interp.exec]
    refine .try (h.eval _ _).never fun v s => ?_
    split
    · exact .ok
    · cases msg with
      | none => trivial
      | some m => exact .try (h.eval _ _).never fun _ _ => trivial
  | delete e => simp only [Interp.exec]; exact .try (h.eval _ _).never fun _ _ => .ok
  | exit e => simp only [Interp.exec]; exact .try (h.eval _ _).never fun _ _ => .inr rfl
  | ret e =>
    cases e with
    | none => simp only [Interp.exec]; exact fun hj => (not_jump_ret hj).elim
    | some e =>
      simp only [Interp.exec]
      refine .try (h.eval _ _).never fun v s => ?_
      cases s.frames[s.cur]? with
      | none => trivial
      | some fr =>
        dsimp only
        cases P.ret fr.ret v with
        | none => trivial
        | some v => exact fun hj => (not_jump_ret hj).elim
  | throw e =>
    cases e with
    | none => simp only [Interp.exec]; exact fun hj => (not_jump_throw hj).elim
    | some e =>
      simp only [Interp.exec]; exact .try (h.eval _ _).never fun _ _ => fun hj => (not_jump_throw hj).elim
  | brk =>
    simp only [Interp.exec]
    rcases hf with hf | ⟨hf, _⟩
    · exact fun _ => .inr hf
    · rw [jumps] at hf; cases hf
  | cont =>
    simp only [Interp.exec]
    rcases hf with hf | ⟨hf, _⟩
    · exact fun _ => .inr hf
    · rw [jumps] at hf; cases hf
  | ite c t e =>
    simp only [Interp.exec]
    have ht : Fine a t ∧ Fine a e := by
      rcases hf with hf | ⟨hf, hp⟩
      · exact ⟨.inl hf, .inl hf⟩
      · rw [jumps, Bool.and_eq_true] at hf
        rw [Every] at hp
        exact ⟨.inr ⟨hf.1, hp.2.1⟩, .inr ⟨hf.2, hp.2.2⟩⟩
    refine .try (h.eval _ _).never fun v s => ?_
    split
    · exact h.exec _ _ _ ht.1
    · exact h.exec _ _ _ ht.2
  | «while» c b => simp only [Interp.exec]; exact (h.execWhile _ _ _).never
  | «for» init c iter b =>
    simp only [Interp.exec]
    have hi : Fine a init ∧ Fine a iter := by
      rcases hf with hf | ⟨hf, hp⟩
      · exact ⟨.inl hf, .inl hf⟩
      · rw [jumps, Bool.and_eq_true, Bool.and_eq_true] at hf
        rw [Every] at hp
        refine ⟨.inr ⟨hf.1.1, hp.2.1⟩, .inr ⟨?_, hp.2.2.1⟩⟩
        have hb := hp.1 _ _ _ _ rfl
        have h2 := hf.1.2
        cases iter with
        | block l => exact (hb l rfl).elim
        | _ => simp only [jumps] at h2 ⊢ <;> exact h2
    exact .bind (keeps_pushScope _).q fun _ _ => .bind (h.exec _ _ _ hi.1) fun _ _ => h.execFor _ _ _ _ _ hi.2
  | foreach ty x coll b =>
    simp only [Interp.exec]
    exact .try (h.eval _ _).never fun _ _ => .bind (q_withAlias _ _ fun _ => (h.call _ _ _ _).never) fun _ _ =>
      (h.execForeach _ _ _ _ _).never
  | foreachIt ty x path f args b =>
    simp only [Interp.exec]
    exact .bind (h.evalArgs _ _).never fun _ _ => .bind (h.call _ _ _ _).never fun _ _ => (h.execForeach _ _ _ _ _).never
  | «switch» e cases d => simp only [Interp.exec]; exact (h.execSwitch _ _ _ _).never
  | «try» b cs f =>
    simp only [Interp.exec]
    have hb : FineList a b ∧ (a ∨ (jumpsCatches false cs = true ∧ EveryCatch PlainFor cs)) ∧ ∀ l, f = some l → FineList a l := by
      rcases hf with hf | ⟨hf, hp⟩
      · exact ⟨.inl hf, .inl hf, fun _ _ => .inl hf⟩
      · rw [jumps, Bool.and_eq_true, Bool.and_eq_true] at hf
        rw [Every] at hp
        refine ⟨.inr ⟨hf.1.1, hp.2.1⟩, .inr ⟨hf.1.2, hp.2.2.1⟩, ?_⟩
        rintro l rfl
        exact .inr ⟨by simpa only [jumpsOpt] using hf.2, by simpa only [EveryOpt] using hp.2.2.2⟩
    refine .bind (h.execBlock _ _ _ hb.1) fun _ s => .bind ?_ fun _ s => ?_
    · split
      · rename_i ht
        exact h.handle _ _ _ hb.2.1 (by rw [ht]; exact not_jump_throw)
      · exact .ok
    · cases f with
      | none => exact .ok
      | some f =>
        have h1 : Q a { s with cf := .normal } (Interp.execBlock P G n f { s with cf := .normal }) := h.execBlock _ _ _ (hb.2.2 f rfl)
        dsimp only
        generalize Interp.execBlock P G n f { s with cf := .normal } = r at h1
        cases r with
        | ok u s' =>
          simp only [ok_bind]
          intro hj
          split at hj
          · exact .inl hj
          · exact (h1 hj).elim (fun hj => (not_jump_normal hj).elim) .inr
        | raise c s' => exact h1
        | _ => trivial
  | block b =>
    simp only [Interp.exec]
    refine h.execBlock _ _ _ ?_
    rcases hf with hf | ⟨hf, hp⟩
    · exact .inl hf
    · rw [jumps] at hf
      rw [Every] at hp
      exact .inr ⟨hf, hp.2⟩

theorem At.succ (hG : Passes G) (h : At P G n) : At P G (n + 1) where
  eval := h.eval_succ hG
  evalArgs es s := by
    cases es with
    | nil => simp only [Interp.evalArgs]; exact .ok
    | cons e es =>
      simp only [Interp.evalArgs]
      exact .bind (h.eval _ _) fun _ _ => .bind (h.evalArgs _ _) fun _ _ => .ok
  compareVals c v w s := by
    cases v with
    | obj cls o =>
      simp only [Interp.compareVals]
      cases hm : findMethod G (.obj cls o) c.method [w] with
      | none =>
        dsimp only
        split
        · exact .ok
        · trivial
      | some m =>
        dsimp only
        obtain ⟨d, hd⟩ := findMethod_mem hm
        have h1 := q_nested (a := False) (s := s) (h.run m.1 m.2 [w] { s with cf := .normal } fun b hb => hG.1 _ _ _ _ _ hd hb)
          not_jump_normal
        exact .bind h1.1 fun _ _ => .ok
    | null => simp only [Interp.compareVals]; exact (keeps_ofOption _ _).q
    | atom a => simp only [Interp.compareVals]; exact (keeps_ofOption _ _).q
  call p f vs s := by
    simp only [Interp.call]
    cases hm : resolveCall G s p f vs with
    | dangling => trivial
    | missing => exact .inl rfl
    | found m =>
      dsimp only
      obtain ⟨d, hd⟩ := resolveCall_mem hm
      have h1 : Q False s ((Interp.run P G n m.1 m.2 vs s).bind afterCall) :=
        .bind (h.run m.1 m.2 vs s fun b hb => hG.1 _ _ _ _ _ hd hb) fun _ _ => q_afterCall _ _
      cases hc : m.1.code with
      | native g =>
        dsimp only
        cases g vs with
        | ok v => exact fun hj => (not_jump_normal hj).elim
        | error x => exact .inl rfl
      | body b => exact h1
      | abstract => exact h1
  run m self vs s hb := by
    simp only [Interp.run]
    cases hc : m.code with
    | native g => trivial
    | abstract => trivial
    | body b =>
      dsimp only
      have h1 := h.execList False b (pushFrame s self m vs) (hb b hc)
      generalize Interp.execList P G n b (pushFrame s self m vs) = r at h1
      cases r with
      | ok u s₁ =>
        dsimp only
        refine Q.trans (s₁ := s₁) (fun hj => h1 hj) ?_
        exact .bind (keeps_popFrame _).q fun _ _ => fun hj => .inl hj
      | raise c s₁ => exact h1
      | _ => trivial
  execList a b s hb := by
    cases b with
    | nil => simp only [Interp.execList]; exact .ok
    | cons st b =>
      simp only [Interp.execList]
      have hs : Fine a st ∧ FineList a b := by
        rcases hb with hb | ⟨hb, hp⟩
        · exact ⟨.inl hb, .inl hb⟩
        · rw [jumpsList, Bool.and_eq_true] at hb
          rw [EveryOf] at hp
          exact ⟨.inr ⟨hb.1, hp.1⟩, .inr ⟨hb.2, hp.2⟩⟩
      split
      · exact .bind (h.exec _ _ _ hs.1) fun _ _ => h.execList _ _ _ hs.2
      · exact .ok
  execBlock a b s hb := by
    simp only [Interp.execBlock]
    exact .bind (keeps_pushScope _).q fun _ _ => .bind (h.execList _ _ _ hb) fun _ _ => (keeps_popScope _).q
  exec a st s hf := h.exec_succ a st s hf
  handle a cs s hc _ := by
    cases cs with
    | nil => simp only [Interp.handle]; exact fun hj => (not_jump_normal hj).elim
    | cons c cs =>
      simp only [Interp.handle]
      cases hf : findCatch P s.exc (c :: cs) with
      | none => exact .ok
      | some db =>
        obtain ⟨d, b⟩ := db
        dsimp only
        have hb : FineList a b := by
          rcases hc with hc | ⟨hc, hp⟩
          · exact .inl hc
          · have hmem := findCatch_mem hf
            exact .inr ⟨jumpsCatches_mem hc _ hmem, hp.mem _ hmem⟩
        refine .bind (keeps_pushScope _).q fun _ _ => .bind (keeps_bindException _ _ _).q fun _ s => ?_
        exact .bind (.of_cf (c := .normal) (fun hj => (not_jump_normal hj).elim) (h.execBlock _ _ _ hb)) fun _ _ => (keeps_popScope _).q
  execWhile c b s := by
    simp only [Interp.execWhile]
    refine .try (h.eval _ _) fun v s => ?_
    split
    · have h1 := h.exec True b s (.inl trivial)
      cases hr : Interp.exec P G n b s with
      | ok u s' => simp only [ok_bind]; exact q_loop fun s' _ => h.execWhile _ _ _
      | raise c s' => rw [hr] at h1; exact h1
      | _ => trivial
    · exact .ok
  execFor a c i b s hi := by
    cases c with
    | none => simp only [Interp.execFor]; exact h.forBody _ _ _ _ _ hi
    | some e =>
      simp only [Interp.execFor]
      refine .try (h.eval _ _).never fun v s => ?_
      split
      · exact h.forBody _ _ _ _ _ hi
      · exact (keeps_popScope _).q
  forBody a c i b s hi := by
    simp only [Interp.forBody]
    have h1 := h.exec True b s (.inl trivial)
    cases hr : Interp.exec P G n b s with
    | ok u s' =>
      simp only [ok_bind]
      exact q_loop fun s' _ => .bind (h.exec _ _ _ hi) fun _ _ => h.execFor _ _ _ _ _ hi
    | raise c s' => rw [hr] at h1; exact h1
    | _ => trivial
  execForeach ty x it b s := by
    simp only [Interp.execForeach]
    refine .bind (q_withAlias _ _ fun _ => h.call _ _ _ _) fun c s => ?_
    split
    · refine .bind (keeps_pushScope _).q fun _ _ => .bind (keeps_declare _ _ _ _).q fun _ _ =>
        .bind (q_withAlias _ _ fun _ => h.call _ _ _ _) fun v s => .bind (keeps_overwriteDeclared _ _ _).q fun _ s => ?_
      have h1 := h.exec True b s (.inl trivial)
      cases hr : Interp.exec P G n b s with
      | ok u s' =>
        simp only [ok_bind]
        have h2 := keeps_popScope s'
        cases hp : popScope s' with
        | ok u' s'' => simp only [ok_bind]; exact q_loop fun s' _ => h.execForeach _ _ _ _ _
        | raise c s'' => rw [hp] at h2; exact h2.elim
        | _ => trivial
      | raise c s' => rw [hr] at h1; exact h1
      | _ => trivial
    · exact .ok
  execSwitch e cs d s := by
    cases cs with
    | nil =>
      simp only [Interp.execSwitch]
      have h1 := h.execBlock True d s (.inl trivial)
      cases hr : Interp.execBlock P G n d s with
      | ok u s' =>
        simp only [ok_bind]
        exact h.switchEnd _ _ _ _ _
      | raise c s' => rw [hr] at h1; exact h1
      | _ => trivial
    | cons c cs =>
      simp only [Interp.execSwitch]
      refine .try (h.eval _ _) fun v s => ?_
      have h1 := h.execCases v (c :: cs) d s
      cases hr : Interp.execCases P G n v (c :: cs) d s with
      | ok t s' =>
        rw [hr] at h1
        cases t with
        | true => exact h.switchEnd _ _ _ _ _
        | false => exact fun hj => (h1.2 _ rfl hj).elim
      | raise c s' => rw [hr] at h1; exact h1.1
      | _ => trivial
  switchEnd e cs d s s₀ := by
    simp only [Interp.switchEnd]
    cases hc : s.cf <;> dsimp only
    · exact fun hj => (not_jump_normal hj).elim
    · exact fun hj => (not_jump_normal hj).elim
    · exact .trans (s₁ := { s with cf := .normal }) (fun hj => (not_jump_normal hj).elim) (h.execSwitch _ _ _ _)
    · intro hj; rw [hc] at hj; exact (not_jump_ret hj).elim
    · intro hj; rw [hc] at hj; exact (not_jump_throw hj).elim
    · intro hj; rw [hc] at hj; exact (not_jump_exit hj).elim
  execCases v cs d s := by
    cases cs with
    | nil =>
      simp only [Interp.execCases]
      have h1 := h.execBlock True d s (.inl trivial)
      cases hr : Interp.execBlock P G n d s with
      | ok u s' => exact ⟨fun _ => .inr trivial, by nofun⟩
      | raise c s' => rw [hr] at h1; exact ⟨h1, by nofun⟩
      | _ => exact ⟨trivial, by nofun⟩
    | cons c cs =>
      obtain ⟨e, b⟩ := c
      simp only [Interp.execCases]
      have h1 := h.eval e s
      cases hr : Interp.eval P G n e s with
      | raise c s' => rw [hr] at h1; exact ⟨fun _ => .inr trivial, fun s'' he => by cases he; exact h1.not_jump⟩
      | ok w s' =>
        dsimp only
        have h2 := h.compareVals .eq v w s'
        cases hq : Interp.compareVals P G n .eq v w s' with
        | ok t s'' =>
          simp only [ok_bind]
          split
          · have h3 := h.execBlock True b s'' (.inl trivial)
            cases hb : Interp.execBlock P G n b s'' with
            | ok u s₃ => exact ⟨fun _ => .inr trivial, by nofun⟩
            | raise c s' => rw [hb] at h3; exact ⟨h3, by nofun⟩
            | _ => exact ⟨trivial, by nofun⟩
          · have h3 := h.execCases v cs d s''
            exact ⟨.trans (fun _ => .inr trivial) h3.1, h3.2⟩
        | raise c s' => rw [hq] at h2; exact ⟨h2, by nofun⟩
        | _ => exact ⟨trivial, by nofun⟩
      | _ => exact ⟨trivial, by nofun⟩

theorem holds (hG : Passes G) : ∀ n, At P G n
  | 0 => at_zero
  | n + 1 => (holds hG n).succ hG

end Jumps
end Check
end Verif
