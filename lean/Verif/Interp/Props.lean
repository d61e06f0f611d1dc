import Verif.Interp.Refine
import Verif.Interp.Mono

/-!
# What holds of every script

The statements are about the interpreter model (`run`, `exec`, `eval` of `Model`) and the reference
semantics of `Spec`.
-/

namespace Verif
namespace Interp

open Sim (Ends Rel ids Never)

variable {A : Type} {P : Prim A} {G : Prog A}

/-- The interpreter executes the statement `st` from state `s` and arrives in `s'`. -/
def Executes (P : Prim A) (G : Prog A) (st : Stmt A) (s s' : St A) : Prop := ∃ n, exec P G n st s = .ok () s'

/-- The interpreter evaluates the expression `e` in state `s` to `v` and arrives in `s'`. -/
def Evaluates (P : Prim A) (G : Prog A) (e : Expr A) (s : St A) (v : Value A) (s' : St A) : Prop :=
  ∃ n, eval P G n e s = .ok v s'

/-- The evaluation of `e` is left by a C++ exception with control flow `c`. -/
def Leaves (P : Prim A) (G : Prog A) (e : Expr A) (s : St A) (c : CF) (s' : St A) : Prop :=
  ∃ n, eval P G n e s = .raise c s'

theorem executes_iff {st : Stmt A} {s s' : St A} :
    Executes P G st s s' ↔ Ends (fun n => exec P G n st s) (.ok () s') :=
  ⟨fun ⟨_, h⟩ => .exec h (by nofun), fun ⟨n, h⟩ => ⟨n, h n (Nat.le_refl _)⟩⟩

theorem evaluates_iff {e : Expr A} {s s' : St A} {v : Value A} :
    Evaluates P G e s v s' ↔ Ends (fun n => eval P G n e s) (.ok v s') :=
  ⟨fun ⟨_, h⟩ => .eval h (by nofun), fun ⟨n, h⟩ => ⟨n, h n (Nat.le_refl _)⟩⟩

theorem leaves_iff {e : Expr A} {s s' : St A} {c : CF} :
    Leaves P G e s c s' ↔ Ends (fun n => eval P G n e s) (.raise c s') :=
  ⟨fun ⟨_, h⟩ => .eval h (by nofun), fun ⟨n, h⟩ => ⟨n, h n (Nat.le_refl _)⟩⟩

/-! ## Scripts mean what the reference semantics says -/

/-- A method without parameters whose body is `b`. -/
def script (b : List (Stmt A)) : Method A := ⟨[], true, .body b⟩

/-- The state of the reference semantics before `main`. -/
def initial (globals : AMap Name (Value A)) : Spec.State A :=
  { blocks := [], self := none, objs := [], globals := globals, out := [], last := none, rv := .null }

/-- **C83** (partial).  If the reference semantics executes a method, and none of the situations of `Spec.Event`
comes up, then the interpreter executes it too, with the same output, the same objects and globals, the
same return value and the same exception, and leaves neither a frame nor a scope behind.
Missing: executions in which an event comes up (the property fails for them, `every_event_matters`), and scripts
that call `exit`. -/
theorem script_meaning_partial {m : Method A} {vs : List (Value A)} {globals : AMap Name (Value A)} {c : Spec.Comp A}
    {σ : Spec.State A} (h : Spec.Run P G Never (initial globals) m none vs c σ) :
    ∃ n v s, run P G n m none vs (start globals) = .ok v s ∧
      s.out = σ.out ∧ s.objs = σ.objs ∧ s.globals = σ.globals ∧ s.frames = [] ∧ (∀ i, s.scopes i = none) ∧
      (m.isVoid = true → v = .null) ∧ (m.isVoid = false → ∀ u, c = .ret (some u) → v = u) ∧
      (∀ x, c = .thr x → s.cf = .throw ∧ s.exc = some x) ∧ ((∀ x, c ≠ .thr x) → s.cf ≠ .throw ∧ s.cf ≠ .exit) := by
  obtain ⟨s, v, ⟨n, he⟩, hc, hd, hs, -, hx, hv, hu⟩ :=
    (Sim.run_refines h).2 (start globals) ⟨rfl, rfl, rfl, rfl⟩ ⟨rfl, fun _ _ => rfl⟩ rfl
  refine ⟨n, v, s, he n (Nat.le_refl _), hd.out, hd.objs, hd.globals, hs.frames, fun i => by rw [hs.scopes]; rfl, hv, hu,
    fun x hx' => ⟨by rw [hc, hx']; rfl, by rw [hd.exc, hx x hx']⟩, fun hne => ?_⟩
  rw [hc]
  cases c with
  | thr x => exact absurd rfl (hne x)
  | _ => exact ⟨nofun, nofun⟩

/-- The result of a run does not depend on the fuel of the model. -/
theorem run_unique {m : Method A} {self : Option (Name × Nat)} {vs : List (Value A)} {s : St A} {k n : Nat}
    (hk : run P G k m self vs s ≠ .fuel) (hn : run P G n m self vs s ≠ .fuel) :
    run P G k m self vs s = run P G n m self vs s :=
  (Ends.run rfl hk).unique (Ends.run rfl hn)

/-- Two executions of the reference semantics without events print the same. -/
theorem meaning_unique {m : Method A} {vs : List (Value A)} {globals : AMap Name (Value A)} {c c' : Spec.Comp A}
    {σ σ' : Spec.State A} (h : Spec.Run P G Never (initial globals) m none vs c σ)
    (h' : Spec.Run P G Never (initial globals) m none vs c' σ') : σ.out = σ'.out ∧ σ.globals = σ'.globals ∧ σ.objs = σ'.objs := by
  obtain ⟨n, v, s, hr, ho, hb, hg, -⟩ := script_meaning_partial h
  obtain ⟨n', v', s', hr', ho', hb', hg', -⟩ := script_meaning_partial h'
  have := run_unique (P := P) (G := G) (k := n) (n := n') (m := m) (self := none) (vs := vs) (s := start globals)
    (by rw [hr]; nofun) (by rw [hr']; nofun)
  rw [hr, hr'] at this
  cases this
  exact ⟨ho.symm.trans ho', hg.symm.trans hg', hb.symm.trans hb'⟩

/-! ## Nothing is executed after a jump -/

theorem execList_jump {b b' : List (Stmt A)} {s s' : St A} :
    ∀ n, execList P G n b s = .ok () s' → s'.cf ≠ .normal → execList P G n (b ++ b') s = .ok () s' := by
  intro n
  induction n generalizing b s with
  | zero => intro h; simp only [execList] at h; cases h
  | succ n ih =>
    intro h hne
    cases b with
    | nil =>
      simp only [execList] at h
      cases h
      cases b' with
      | nil => simp only [List.append_nil, execList]
      | cons st b' => simp only [List.nil_append, execList, if_neg hne]
    | cons st b =>
      simp only [List.cons_append, execList] at h ⊢
      split
      · rename_i hc
        rw [if_pos hc] at h
        cases he : exec P G n st s with
        | ok u s₁ =>
          rw [he] at h
          simp only [Res.bind] at h ⊢
          exact ih h hne
        | _ => rw [he] at h; cases h
      · rename_i hc
        rw [if_neg hc] at h
        exact h

/-- **C36**.  If the statements `b` end with a jump (break, continue, return, throw, exit), then statements behind
them have no effect. -/
theorem nothing_after_jump {b : List (Stmt A)} {s s' : St A} (b' : List (Stmt A))
    (h : ∃ n, execList P G n b s = .ok () s') (hne : s'.cf ≠ .normal) : ∃ n, execList P G n (b ++ b') s = .ok () s' := by
  obtain ⟨n, h⟩ := h
  exact ⟨n, execList_jump n h hne⟩

/-- **C36**, for a jump that leaves the method as a C++ exception. -/
theorem nothing_after_raise {b : List (Stmt A)} {s s' : St A} {c : CF} (b' : List (Stmt A))
    (h : ∃ n, execList P G n b s = .raise c s') : ∃ n, execList P G n (b ++ b') s = .raise c s' := by
  obtain ⟨n, h⟩ := h
  refine ⟨n, ?_⟩
  induction n generalizing b s with
  | zero => simp only [execList] at h; cases h
  | succ n ih =>
    cases b with
    | nil => simp only [execList] at h; cases h
    | cons st b =>
      simp only [List.cons_append, execList] at h ⊢
      split
      · rename_i hc
        rw [if_pos hc] at h
        cases he : exec P G n st s with
        | ok u s₁ =>
          rw [he] at h
          simp only [Res.bind] at h ⊢
          exact ih h
        | raise d s₁ => rw [he] at h; exact h
        | _ => rw [he] at h; cases h
      · rename_i hc
        rw [if_neg hc] at h
        cases h

/-! ## Try, catch, finally -/

theorem ok_bind {α β : Type} {a : α} {s : St A} {k : α → St A → Res A β} : (Res.ok a s).bind k = k a s := rfl

theorem bind_done {r : Res A Unit} : (r.bind fun _ s => .ok () s) = r := by cases r <;> rfl

theorem bind_ok_iff {α β : Type} {r : Res A α} {k : α → St A → Res A β} {b : β} {s' : St A} :
    r.bind k = .ok b s' ↔ ∃ a s, r = .ok a s ∧ k a s = .ok b s' := by
  cases r <;> simp [Res.bind, and_assoc]

/-- **C30** (partial).  A `finally` block is executed exactly once, whatever happened before it: after the rest of the
statement, starting with normal control flow; if it ends normally, the statement ends as it would have without it,
otherwise like the `finally` block.  Missing: the try block is left by a C++ exception (`exit`, or an
exception of an iterator), see `exit_skips_finally_refuted`. -/
theorem finally_runs_partial {b f : List (Stmt A)} {catches : List (Option (Name × Name) × List (Stmt A))} {s s' : St A} :
    Executes P G (.try b catches (some f)) s s' ↔
      ∃ s₁ s₂, Executes P G (.try b catches none) s s₁ ∧ Executes P G (.block f) { s₁ with cf := .normal } s₂ ∧
        s' = if s₂.cf = .normal then { s₂ with cf := s₁.cf } else s₂ := by
  constructor
  · rintro ⟨n, h⟩
    cases n with
    | zero => simp only [exec] at h; cases h
    | succ n =>
      simp only [exec, bind_ok_iff] at h
      obtain ⟨_, s₀, h₀, _, s₁, h₁, _, s₂, h₂, h₃⟩ := h
      cases h₃
      refine ⟨s₁, s₂, ⟨n + 1, ?_⟩, ⟨n + 1, ?_⟩, rfl⟩
      · simp only [exec, h₀, Res.bind, h₁]
      · simp only [exec, h₂]
  · rintro ⟨s₁, s₂, h₁, h₂, rfl⟩
    obtain ⟨n₁, h₁⟩ := executes_iff.mp h₁
    obtain ⟨n₂, h₂⟩ := executes_iff.mp h₂
    refine ⟨max n₁ n₂ + 1, ?_⟩
    have h₁ := h₁ (max n₁ n₂ + 1) (by omega)
    have h₂ := h₂ (max n₁ n₂ + 1) (by omega)
    simp only [exec, bind_ok_iff] at h₁ h₂ ⊢
    obtain ⟨_, s₀, h₀, _, s₁', h₁, h₁'⟩ := h₁
    cases h₁'
    exact ⟨_, s₀, h₀, _, s₁, h₁, _, s₂, h₂, rfl⟩

/-- What happens to an exception `x` that leaves the try block in state `s₁`. -/
theorem handler_step {b : List (Stmt A)} {catches : List (Option (Name × Name) × List (Stmt A))} {s s₁ : St A}
    (hb : Executes P G (.block b) s s₁) (hc : s₁.cf = .throw) {r : Res A Unit} (hr : r ≠ .fuel) :
    (∃ n, handle P G n catches s₁ = r) → ∃ n, exec P G n (.try b catches none) s = r := by
  rintro ⟨k, hk⟩
  obtain ⟨n, hn⟩ := executes_iff.mp hb
  have he : Ends (fun n => handle P G n catches s₁) r := .of_eq (fun n => (Sim.monoAt P G n).handle _ _) hk hr
  obtain ⟨k, hk⟩ := he
  refine ⟨max n k + 1, ?_⟩
  have hn := hn (max n k + 1) (by omega)
  have hk := hk (max n k) (by omega)
  simp only [exec] at hn ⊢
  rw [hn]
  simp only [Res.bind, if_pos hc]
  rw [show handle P G (max n k) catches s₁ = r from hk]
  cases r <;> rfl

/-- **C31**.  An exception that no clause matches passes through: nothing but the try block is executed. -/
theorem unmatched_exception {b : List (Stmt A)} {catches : List (Option (Name × Name) × List (Stmt A))} {s s₁ : St A} {x : Value A}
    (hb : Executes P G (.block b) s s₁) (hc : s₁.cf = .throw) (hx : s₁.exc = some x) (hne : catches ≠ [])
    (hm : ∀ c ∈ catches, ∃ ty y, c.1 = some (ty, y) ∧ P.isA ty x = false) : Executes P G (.try b catches none) s s₁ := by
  refine handler_step hb hc (by nofun) ⟨1, ?_⟩
  have hf : findCatch P s₁.exc catches = none := by
    rw [hx, Sim.findCatch_eq]
    simp only [Spec.clause, List.find?_eq_none]
    intro c hcm
    obtain ⟨ty, y, h1, h2⟩ := hm c hcm
    simp [h1, h2]
  cases catches with
  | nil => exact absurd rfl hne
  | cons c cs => simp only [handle, hf]

/-- The same outcome with another control flow in the final state. -/
def recf {α : Type} (c : CF) : Res A α → Res A α
  | .ok a s => .ok a { s with cf := c }
  | r => r

theorem getScope_cf (s : St A) (c : CF) : getScope { s with cf := c } = getScope s := rfl

theorem pushScope_cf (s : St A) (c : CF) : pushScope { s with cf := c } = recf c (pushScope s) := by
  simp only [pushScope, pushEntry, getScope_cf]
  cases getScope s with
  | none => rfl
  | some i => simp only; cases s.frames[s.cur]? <;> rfl

theorem define_cf (s : St A) (c : CF) (x : Name) (v : Value A) : define { s with cf := c } x v = recf c (define s x v) := by
  simp only [define, getScope_cf]
  cases getScope s with
  | none => rfl
  | some i =>
    simp only
    cases hi : s.scopes i with
    | none => rfl
    | some sc =>
      cases sc with
      | alias w => cases w <;> rfl
      | scope vars parent => simp only; cases vars.find x <;> rfl

theorem look_cf (s : St A) (c : CF) (x : Name) : ∀ n w, look n { s with cf := c } w x = look n s w x := by
  intro n
  induction n with
  | zero => intro w; cases w <;> rfl
  | succ n ih =>
    intro w
    cases w with
    | blk i =>
      simp only [look]
      cases s.scopes i with
      | none => rfl
      | some sc =>
        cases sc with
        | alias v => rfl
        | scope vars parent => simp only [ih]
    | _ => rfl

theorem assignDeclared_cf (s : St A) (c : CF) (x : Name) (v : Value A) :
    assignDeclared P x v { s with cf := c } = recf c (assignDeclared P x v s) := by
  simp only [assignDeclared, getScope_cf]
  cases getScope s with
  | none => rfl
  | some i =>
    simp only [look_cf]
    cases look (i + 1) s (.blk i) x with
    | found w old =>
      simp only
      cases P.assign old v with
      | none => rfl
      | some u =>
        cases w with
        | blk i =>
          simp only [assignTo, store, Res.bind, recf]
          cases s.scopes i with
          | none => rfl
          | some sc => cases sc <;> rfl
        | _ => rfl
    | _ => rfl

theorem pushScope_exc {s s' : St A} {u : Unit} (h : pushScope s = .ok u s') : s'.exc = s.exc := by
  simp only [pushScope, pushEntry] at h
  repeat' split at h
  all_goals first | cases h; rfl | cases h

theorem define_exc {s s' : St A} {u : Unit} {x : Name} {v : Value A} (h : define s x v = .ok u s') : s'.exc = s.exc := by
  simp only [define] at h
  repeat' split at h
  all_goals first | cases h; rfl | cases h

theorem findCatch_first {x : Value A} {d : Option (Name × Name)} {b' : List (Stmt A)}
    {before after : List (Option (Name × Name) × List (Stmt A))}
    (hm : ∀ c ∈ before, ∃ ty y, c.1 = some (ty, y) ∧ P.isA ty x = false)
    (hd : ∀ ty y, d = some (ty, y) → P.isA ty x = true) :
    findCatch P (some x) (before ++ (d, b') :: after) = some (d, b') := by
  induction before with
  | nil =>
    cases d with
    | none => rfl
    | some d => simp only [List.nil_append, findCatch, hd d.1 d.2 rfl, if_true]
  | cons c cs ih =>
    obtain ⟨ty, y, h1, h2⟩ := hm c (by simp)
    obtain ⟨d', b''⟩ := c
    cases h1
    simp only [List.cons_append, findCatch, h2]
    exact ih fun c hc => hm c (by simp [hc])

theorem handle_found {x : Value A} {d : Option (Name × Name)} {b' : List (Stmt A)}
    {catches : List (Option (Name × Name) × List (Stmt A))} {s : St A} (hx : s.exc = some x)
    (hf : findCatch P (some x) catches = some (d, b')) (n : Nat) :
    handle P G (n + 1) catches s = (pushScope s).bind fun _ s => (bindException P d s).bind fun _ s =>
      (execBlock P G n b' { s with cf := .normal }).bind fun _ s => popScope s := by
  cases catches with
  | nil => cases hf
  | cons c cs => simp only [handle, hx, hf]

/-- **C31**.  The first clause that matches handles the exception and no other one does.  If it has the form
`catch ( T y ) { b' }` and the exception is the value `a`, the effect is that of the block `{ T y = a; { b' } }`, executed with normal
control flow. -/
theorem first_matching_handler {b b' : List (Stmt A)} {before after : List (Option (Name × Name) × List (Stmt A))} {ty y : Name}
    {s s₁ s₂ : St A} {a : A} (hb : Executes P G (.block b) s s₁) (hc : s₁.cf = .throw) (hx : s₁.exc = some (.atom a))
    (hm : ∀ c ∈ before, ∃ ty y, c.1 = some (ty, y) ∧ P.isA ty (.atom a) = false) (ht : P.isA ty (.atom a) = true)
    (h₂ : Executes P G (.block [.decl ty y (some (.lit a)), .block b']) { s₁ with cf := .normal } s₂) :
    Executes P G (.try b (before ++ (some (ty, y), b') :: after) none) s s₂ := by
  obtain ⟨n, hn⟩ := executes_iff.mp h₂
  have hn := hn (n + 6) (by omega)
  refine handler_step hb hc (by nofun) ⟨n + 2, ?_⟩
  rw [handle_found hx (findCatch_first hm fun ty' y' h => by cases h; exact ht)]
  simp only [exec, execBlock, execList, pushScope_cf] at hn
  simp only [execBlock]
  cases hp : pushScope s₁ with
  | ok u s₂ =>
    rw [hp] at hn
    simp only [ok_bind, recf, if_true, bind_done, bindException, declare, define_cf] at hn ⊢
    cases hd : define s₂ y (P.default ty) with
    | ok u s₃ =>
      rw [hd] at hn
      have he : s₃.exc = some (.atom a) := by rw [define_exc hd, pushScope_exc hp, hx]
      simp only [ok_bind, he]
      simp only [recf, ok_bind, Res.tryControl, eval, assignDeclared_cf] at hn ⊢
      cases ha : assignDeclared P y (.atom a) s₃ with
      | ok u s₄ =>
        rw [ha] at hn
        simp only [ok_bind, if_true] at hn
        exact hn
      | _ => rw [ha] at hn; cases hn
    | _ => rw [hd] at hn; cases hn
  | _ => rw [hp] at hn; cases hn

/-- **C31**, for exceptions that are objects as well: the handler `catch ( T y ) { b' }` declares `y` in a new scope, assigns the exception to
it, and executes `{ b' }` with normal control flow. -/
theorem first_matching_handler_object {b b' : List (Stmt A)} {before after : List (Option (Name × Name) × List (Stmt A))} {ty y : Name}
    {s s₁ s₂ s₃ s₄ s₅ s₆ : St A} {x : Value A} (hb : Executes P G (.block b) s s₁) (hc : s₁.cf = .throw) (hx : s₁.exc = some x)
    (hm : ∀ c ∈ before, ∃ ty y, c.1 = some (ty, y) ∧ P.isA ty x = false) (ht : P.isA ty x = true)
    (h₂ : pushScope s₁ = .ok () s₂) (h₃ : declare P ty y s₂ = .ok () s₃) (h₄ : assignDeclared P y x s₃ = .ok () s₄)
    (h₅ : Executes P G (.block b') { s₄ with cf := .normal } s₅) (h₆ : popScope s₅ = .ok () s₆) :
    Executes P G (.try b (before ++ (some (ty, y), b') :: after) none) s s₆ := by
  obtain ⟨n, hn⟩ := h₅
  cases n with
  | zero => simp only [exec] at hn; cases hn
  | succ n =>
    refine handler_step hb hc (by nofun) ⟨n + 1, ?_⟩
    rw [handle_found hx (findCatch_first hm fun ty' y' h => by cases h; exact ht), h₂]
    simp only [ok_bind, bindException, h₃]
    have he : s₃.exc = some x := by rw [define_exc h₃, pushScope_exc h₂, hx]
    simp only [exec] at hn
    simp only [he, h₄, ok_bind, hn, h₆]

/-- **C31**.  A clause without a type handles every exception that no earlier clause handles; its effect is that of the block
`{ { b' } }`. -/
theorem untyped_handler {b b' : List (Stmt A)} {before after : List (Option (Name × Name) × List (Stmt A))}
    {s s₁ s₂ : St A} {x : Value A} (hb : Executes P G (.block b) s s₁) (hc : s₁.cf = .throw) (hx : s₁.exc = some x)
    (hm : ∀ c ∈ before, ∃ ty y, c.1 = some (ty, y) ∧ P.isA ty x = false)
    (h₂ : Executes P G (.block [.block b']) { s₁ with cf := .normal } s₂) :
    Executes P G (.try b (before ++ (none, b') :: after) none) s s₂ := by
  obtain ⟨n, hn⟩ := executes_iff.mp h₂
  have hn := hn (n + 6) (by omega)
  refine handler_step hb hc (by nofun) ⟨n + 3, ?_⟩
  rw [handle_found hx (findCatch_first hm fun _ _ h => by cases h)]
  simp only [exec, execBlock, execList, pushScope_cf] at hn
  simp only [execBlock]
  cases hp : pushScope s₁ with
  | ok u s₂ =>
    rw [hp] at hn
    simp only [ok_bind, recf, if_true, bind_done, bindException] at hn ⊢
    exact hn
  | _ => rw [hp] at hn; cases hn

/-! ## Loops -/

/-- What a loop does after its body completed in `s₂`, if `again` describes another round. -/
inductive AfterBody (again : St A → St A → Prop) : St A → St A → Prop where
  /-- The body completed normally or by `continue`: another round. -/
  | next {s₂ s' : St A} : s₂.cf = .normal ∨ s₂.cf = .cont → again { s₂ with cf := .normal } s' → AfterBody again s₂ s'
  /-- `break` ends the loop, and the loop statement completes normally. -/
  | brk {s₂ : St A} : s₂.cf = .brk → AfterBody again s₂ { s₂ with cf := .normal }
  /-- `return`, exceptions and `exit` leave the loop at once. -/
  | leave {s₂ : St A} : s₂.cf = .ret ∨ s₂.cf = .throw ∨ s₂.cf = .exit → AfterBody again s₂ s₂

theorem tryControl_ok_iff {α : Type} {r : Res A α} {k : α → St A → Res A Unit} {s' : St A} :
    r.tryControl k = .ok () s' ↔ (∃ a s, r = .ok a s ∧ k a s = .ok () s') ∨ ∃ c s, r = .raise c s ∧ s' = { s with cf := c } := by
  cases r <;> simp [Res.tryControl, and_assoc, eq_comm]

/-- **C32**.  A while loop tests its condition; if that is false the loop is over; otherwise it executes the body and then, unless
the body jumped, the loop again.  This is all that a while loop can do. -/
theorem while_unrolls {c : Expr A} {b : Stmt A} {s s' : St A} :
    Executes P G (.while c b) s s' ↔
      (∃ v, Evaluates P G c s v s' ∧ Spec.truthy P v = false) ∨
      (∃ v s₁ s₂, Evaluates P G c s v s₁ ∧ Spec.truthy P v = true ∧ Executes P G b s₁ s₂ ∧
        AfterBody (Executes P G (.while c b)) s₂ s') ∨
      (∃ d s₁, Leaves P G c s d s₁ ∧ s' = { s₁ with cf := d }) := by
  constructor
  · rintro ⟨n, h⟩
    match n with
    | 0 => simp only [exec] at h; cases h
    | 1 => simp only [exec, execWhile] at h; cases h
    | n + 2 =>
      simp only [exec, execWhile, tryControl_ok_iff] at h
      rcases h with ⟨v, s₁, hv, h⟩ | ⟨d, s₁, hv, rfl⟩
      · split at h
        · rename_i ht
          rw [bind_ok_iff] at h
          obtain ⟨_, s₂, hb, h⟩ := h
          refine .inr (.inl ⟨v, s₁, s₂, ⟨n, hv⟩, by rw [Sim.truthy_eq]; exact ht, ⟨n, hb⟩, ?_⟩)
          cases hc : s₂.cf <;> simp only [afterBody, hc, leaveLoop] at h
          case normal => exact .next (.inl hc) ⟨n + 1, by simpa only [exec] using h⟩
          case cont => exact .next (.inr hc) ⟨n + 1, by simpa only [exec] using h⟩
          case brk => cases h; exact .brk hc
          all_goals cases h; exact .leave (by simp [hc])
        · rename_i ht
          cases h
          exact .inl ⟨v, ⟨n, hv⟩, by rw [Sim.truthy_eq]; simpa using ht⟩
      · exact .inr (.inr ⟨d, s₁, ⟨n, hv⟩, rfl⟩)
  · rintro (⟨v, ⟨n, hv⟩, ht⟩ | ⟨v, s₁, s₂, hv, ht, hb, ha⟩ | ⟨d, s₁, ⟨n, hv⟩, rfl⟩)
    · rw [Sim.truthy_eq] at ht
      exact ⟨n + 2, by simp [exec, execWhile, hv, Res.tryControl, ht]⟩
    · rw [Sim.truthy_eq] at ht
      obtain ⟨n, hv⟩ := evaluates_iff.mp hv
      obtain ⟨m, hb⟩ := executes_iff.mp hb
      cases ha with
      | next hc h =>
        obtain ⟨k, h⟩ := executes_iff.mp h
        refine ⟨max n (max m k) + 2, ?_⟩
        have hv := hv (max n (max m k)) (by omega)
        have hb := hb (max n (max m k)) (by omega)
        have h := h (max n (max m k) + 1) (by omega)
        simp only [exec] at h
        have hab : afterBody s₂ = some { s₂ with cf := .normal } := by rcases hc with hc | hc <;> simp only [afterBody, hc]
        simp only [exec, execWhile, hv, Res.tryControl, ht, if_true, hb, Res.bind, hab, h]
      | brk hc =>
        refine ⟨max n m + 2, ?_⟩
        have hv := hv (max n m) (by omega)
        have hb := hb (max n m) (by omega)
        simp only [exec, execWhile, hv, Res.tryControl, ht, if_true, hb, Res.bind, afterBody, hc, leaveLoop]
      | leave hc =>
        refine ⟨max n m + 2, ?_⟩
        have hv := hv (max n m) (by omega)
        have hb := hb (max n m) (by omega)
        rcases hc with hc | hc | hc <;>
          simp only [exec, execWhile, hv, Res.tryControl, ht, if_true, hb, Res.bind, afterBody, hc, leaveLoop]
    · exact ⟨n + 2, by simp [exec, execWhile, hv, Res.tryControl]⟩

/-- **C32**.  A while loop that completes normally has seen a false condition, unless it was left by `break` (or its condition
was left in an odd way). -/
theorem while_ends {c : Expr A} {b : Stmt A} {s s' : St A} (h : Executes P G (.while c b) s s') :
    (∃ v s₀, Evaluates P G c s₀ v s' ∧ Spec.truthy P v = false) ∨
    (∃ s₀ s₂, Executes P G b s₀ s₂ ∧ s₂.cf ≠ .normal ∧ s₂.cf ≠ .cont) ∨ ∃ d s₀ s₁, Leaves P G c s₀ d s₁ ∧ s' = { s₁ with cf := d } := by
  obtain ⟨n, h⟩ := h
  cases n with
  | zero => simp only [exec] at h; cases h
  | succ n =>
    simp only [exec] at h
    induction n generalizing s with
    | zero => simp only [execWhile] at h; cases h
    | succ n ih =>
      simp only [execWhile, tryControl_ok_iff] at h
      rcases h with ⟨v, s₁, hv, h⟩ | ⟨d, s₁, hv, rfl⟩
      · split at h
        · rw [bind_ok_iff] at h
          obtain ⟨_, s₂, hb, h⟩ := h
          cases hc : s₂.cf <;> simp only [afterBody, hc, leaveLoop] at h
          case normal => exact ih h
          case cont => exact ih h
          all_goals exact .inr (.inl ⟨s₁, s₂, ⟨n, hb⟩, by simp [hc], by simp [hc]⟩)
        · rename_i ht
          cases h
          exact .inl ⟨v, s, ⟨n, hv⟩, by rw [Sim.truthy_eq]; simpa using ht⟩
      · exact .inr (.inr ⟨d, s, s₁, ⟨n, hv⟩, rfl⟩)

/-! ## Logical operators -/

/-- **C34**.  `l && r`: the right operand is evaluated exactly if the left one is true, and the value is the conjunction. -/
theorem and_short_circuit {l r : Expr A} {s s' : St A} {u : Value A} :
    Evaluates P G (.bool .and l r) s u s' ↔
      (∃ v, Evaluates P G l s v s' ∧ Spec.truthy P v = false ∧ u = P.bool false) ∨
      (∃ v s₁ w, Evaluates P G l s v s₁ ∧ Spec.truthy P v = true ∧ Evaluates P G r s₁ w s' ∧ u = P.bool (Spec.truthy P w)) := by
  simp only [Sim.truthy_eq]
  constructor
  · rintro ⟨n, h⟩
    cases n with
    | zero => simp only [eval] at h; cases h
    | succ n =>
      simp only [eval, bind_ok_iff] at h
      obtain ⟨v, s₁, hv, h⟩ := h
      cases ht : isTrue P v <;> simp only [ht, BoolOp.short] at h
      · cases h
        exact .inl ⟨v, ⟨n, hv⟩, ht, rfl⟩
      · simp only [bind_ok_iff] at h
        obtain ⟨w, s₂, hw, h⟩ := h
        cases h
        exact .inr ⟨v, s₁, w, ⟨n, hv⟩, ht, ⟨n, hw⟩, by simp [BoolOp.result]⟩
  · rintro (⟨v, ⟨n, hv⟩, ht, rfl⟩ | ⟨v, s₁, w, hv, ht, hw, rfl⟩)
    · exact ⟨n + 1, by simp only [eval, hv, Res.bind, ht, BoolOp.short]⟩
    · obtain ⟨n, hv⟩ := evaluates_iff.mp hv
      obtain ⟨m, hw⟩ := evaluates_iff.mp hw
      refine ⟨max n m + 1, ?_⟩
      have hv := hv (max n m) (by omega)
      have hw := hw (max n m) (by omega)
      simp only [eval, hv, hw, Res.bind, ht, BoolOp.short, BoolOp.result, Bool.true_and]

/-- **C34**.  `l || r`: the right operand is evaluated exactly if the left one is false, and the value is the disjunction. -/
theorem or_short_circuit {l r : Expr A} {s s' : St A} {u : Value A} :
    Evaluates P G (.bool .or l r) s u s' ↔
      (∃ v, Evaluates P G l s v s' ∧ Spec.truthy P v = true ∧ u = P.bool true) ∨
      (∃ v s₁ w, Evaluates P G l s v s₁ ∧ Spec.truthy P v = false ∧ Evaluates P G r s₁ w s' ∧ u = P.bool (Spec.truthy P w)) := by
  simp only [Sim.truthy_eq]
  constructor
  · rintro ⟨n, h⟩
    cases n with
    | zero => simp only [eval] at h; cases h
    | succ n =>
      simp only [eval, bind_ok_iff] at h
      obtain ⟨v, s₁, hv, h⟩ := h
      cases ht : isTrue P v <;> simp only [ht, BoolOp.short] at h
      · simp only [bind_ok_iff] at h
        obtain ⟨w, s₂, hw, h⟩ := h
        cases h
        exact .inr ⟨v, s₁, w, ⟨n, hv⟩, ht, ⟨n, hw⟩, by simp [BoolOp.result]⟩
      · cases h
        exact .inl ⟨v, ⟨n, hv⟩, ht, rfl⟩
  · rintro (⟨v, ⟨n, hv⟩, ht, rfl⟩ | ⟨v, s₁, w, hv, ht, hw, rfl⟩)
    · exact ⟨n + 1, by simp only [eval, hv, Res.bind, ht, BoolOp.short]⟩
    · obtain ⟨n, hv⟩ := evaluates_iff.mp hv
      obtain ⟨m, hw⟩ := evaluates_iff.mp hw
      refine ⟨max n m + 1, ?_⟩
      have hv := hv (max n m) (by omega)
      have hw := hw (max n m) (by omega)
      simp only [eval, hv, hw, Res.bind, ht, BoolOp.short, BoolOp.result, Bool.false_or]

/-- **C34**.  If the left operand of any logical operator throws, so does the whole, and the right operand is not evaluated. -/
theorem logical_left_throws {op : BoolOp} {l r : Expr A} {s s' : St A} {c : CF} (h : Leaves P G l s c s') :
    Leaves P G (.bool op l r) s c s' := by
  obtain ⟨n, h⟩ := h
  exact ⟨n + 1, by simp only [eval, h, Res.bind]⟩

/-- **C41** (partial).  `l !& r` and `l !| r` have the value of their negated counterpart if the left operand decides, and
also if `!&` has two true and `!|` two false operands.  Missing: the other case, see `nand_refuted`, `nor_refuted`. -/
theorem negated_operators_partial {op : BoolOp} {l r : Expr A} {s s' : St A} {u : Value A} (hop : op = .nand ∨ op = .nor)
    (h : Evaluates P G (.bool op l r) s u s') :
    (∃ v, Evaluates P G l s v s' ∧ Spec.truthy P v = (decide (op = .nor)) ∧ u = P.bool (decide (op = .nand))) ∨
    (∃ v s₁ w, Evaluates P G l s v s₁ ∧ Evaluates P G r s₁ w s' ∧
      (Spec.truthy P w = decide (op = .nand) → u = P.bool (Spec.value op (Spec.truthy P v) (Spec.truthy P w)))) := by
  simp only [Sim.truthy_eq]
  obtain ⟨n, h⟩ := h
  cases n with
  | zero => simp only [eval] at h; cases h
  | succ n =>
    simp only [eval, bind_ok_iff] at h
    obtain ⟨v, s₁, hv, h⟩ := h
    rcases hop with rfl | rfl <;> cases ht : isTrue P v <;> simp only [ht, BoolOp.short] at h
    · cases h; exact .inl ⟨v, ⟨n, hv⟩, by simp [ht], rfl⟩
    · simp only [bind_ok_iff] at h
      obtain ⟨w, s₂, hw, h⟩ := h
      cases h
      exact .inr ⟨v, s₁, w, ⟨n, hv⟩, ⟨n, hw⟩, fun hw => by simp [BoolOp.result, Spec.value, hw, ht]⟩
    · simp only [bind_ok_iff] at h
      obtain ⟨w, s₂, hw, h⟩ := h
      cases h
      exact .inr ⟨v, s₁, w, ⟨n, hv⟩, ⟨n, hw⟩, fun hw => by simp [BoolOp.result, Spec.value, hw, ht]⟩
    · cases h; exact .inl ⟨v, ⟨n, hv⟩, by simp [ht], rfl⟩

/-! ## Calls -/

/-- A call never leaves a pending `break`, `continue` or `return` behind. -/
theorem call_resets_jumps {path : List Name} {f : Name} {args : List (Expr A)} {s s' : St A} {v : Value A}
    (h : Evaluates P G (.call path f args) s v s') : s'.cf = .normal := by
  obtain ⟨n, h⟩ := h
  match n with
  | 0 => simp only [eval] at h; cases h
  | n + 1 =>
    simp only [eval, bind_ok_iff] at h
    obtain ⟨vs, s₁, -, h⟩ := h
    cases n with
    | zero => simp only [call] at h; cases h
    | succ n =>
      simp only [call] at h
      split at h
      · cases h
      · simp only [throwNpe] at h; cases h
      · split at h
        · split at h <;> cases h
          rfl
        · simp only [bind_ok_iff] at h
          obtain ⟨w, s₂, -, h⟩ := h
          simp only [afterCall] at h
          split at h <;> cases h
          rfl

/-! ## Switch -/

/-- What a switch statement does after the block it chose completed in `s₁`. -/
inductive AfterCase (again : St A → St A → Prop) : St A → St A → Prop where
  | done {s₁ : St A} : s₁.cf = .normal ∨ s₁.cf = .brk → AfterCase again s₁ { s₁ with cf := .normal }
  | again {s₁ s' : St A} : s₁.cf = .cont → again { s₁ with cf := .normal } s' → AfterCase again s₁ s'
  | leave {s₁ : St A} : s₁.cf = .ret ∨ s₁.cf = .throw ∨ s₁.cf = .exit → AfterCase again s₁ s₁

/-- The block that a switch statement with the value `v` executes, and the state in which it does: the block of the first case
whose value equals `v`, or else the default block. -/
inductive Chooses (P : Prim A) (G : Prog A) (v : Value A) (dflt : List (Stmt A)) :
    List (Expr A × List (Stmt A)) → St A → List (Stmt A) → St A → Prop where
  | dflt {s : St A} : Chooses P G v dflt [] s dflt s
  | hit {e : Expr A} {b : List (Stmt A)} {cases : List (Expr A × List (Stmt A))} {s s₁ s₂ : St A} {w : Value A} :
      Evaluates P G e s w s₁ → (∃ n, compareVals P G n .eq v w s₁ = .ok true s₂) → Chooses P G v dflt ((e, b) :: cases) s b s₂
  | skip {e : Expr A} {b b' : List (Stmt A)} {cases : List (Expr A × List (Stmt A))} {s s₁ s₂ s₃ : St A} {w : Value A} :
      Evaluates P G e s w s₁ → (∃ n, compareVals P G n .eq v w s₁ = .ok false s₂) → Chooses P G v dflt cases s₂ b' s₃ →
      Chooses P G v dflt ((e, b) :: cases) s b' s₃

theorem Chooses.exec {v : Value A} {dflt b : List (Stmt A)} {cases : List (Expr A × List (Stmt A))} {s s₁ s₂ : St A}
    (h : Chooses P G v dflt cases s b s₁) (hb : Executes P G (.block b) s₁ s₂) :
    ∃ n, ∀ m, n ≤ m → execCases P G m v cases dflt s = .ok true s₂ := by
  induction h with
  | dflt =>
    obtain ⟨n, hb⟩ := executes_iff.mp hb
    refine ⟨n + 1, fun m hm => ?_⟩
    obtain ⟨m, rfl⟩ : ∃ k, m = k + 1 := ⟨m - 1, by omega⟩
    have := hb (m + 1) (by omega)
    simp only [Interp.exec] at this
    simp only [execCases, this, Res.bind]
  | hit he hc =>
    obtain ⟨n, he⟩ := evaluates_iff.mp he
    obtain ⟨k, hc⟩ := hc
    obtain ⟨k, hc⟩ : Ends (fun n => compareVals P G n _ _ _ _) _ :=
      .of_eq (fun n => (Sim.monoAt P G n).compareVals _ _ _ _) hc (by nofun)
    obtain ⟨l, hb⟩ := executes_iff.mp hb
    refine ⟨max n (max k l) + 1, fun m hm => ?_⟩
    obtain ⟨m, rfl⟩ : ∃ k, m = k + 1 := ⟨m - 1, by omega⟩
    have hb := hb (m + 1) (by omega)
    have he := he m (by omega)
    have hc := hc m (by omega)
    simp only [Interp.exec] at hb
    simp only at hc
    simp only [execCases, he, hc, hb, Res.bind, if_true]
  | skip he hc _ ih =>
    obtain ⟨n, he⟩ := evaluates_iff.mp he
    obtain ⟨k, hc⟩ := hc
    obtain ⟨k, hc⟩ : Ends (fun n => compareVals P G n _ _ _ _) _ :=
      .of_eq (fun n => (Sim.monoAt P G n).compareVals _ _ _ _) hc (by nofun)
    obtain ⟨l, ih⟩ := ih hb
    refine ⟨max n (max k l) + 1, fun m hm => ?_⟩
    obtain ⟨m, rfl⟩ : ∃ k, m = k + 1 := ⟨m - 1, by omega⟩
    have ih := ih m (by omega)
    have he := he m (by omega)
    have hc := hc m (by omega)
    simp only at hc
    simp only [execCases, he, hc, ih, Res.bind, Bool.false_eq_true, if_false]

/-- **C35**.  A switch statement executes the block of the first case whose value equals that of the expression, or the default block
if there is none; `break` in it ends the switch statement. -/
theorem switch_runs_chosen {e : Expr A} {c : Expr A × List (Stmt A)} {cases : List (Expr A × List (Stmt A))} {dflt b : List (Stmt A)}
    {s s₁ s₂ s₃ s' : St A} {v : Value A} (he : Evaluates P G e s v s₁) (hc : Chooses P G v dflt (c :: cases) s₁ b s₂)
    (hb : Executes P G (.block b) s₂ s₃) (ha : AfterCase (Executes P G (.switch e (c :: cases) dflt)) s₃ s') :
    Executes P G (.switch e (c :: cases) dflt) s s' := by
  obtain ⟨n, he⟩ := evaluates_iff.mp he
  obtain ⟨m, hm⟩ := hc.exec hb
  cases ha with
  | done hd =>
    refine ⟨max n m + 3, ?_⟩
    have he := he (max n m + 1) (by omega)
    have hm := hm (max n m + 1) (by omega)
    rcases hd with hd | hd <;> simp only [exec, execSwitch, he, hm, Res.tryControl, switchEnd, hd]
  | again hd ha =>
    obtain ⟨k, hk⟩ := executes_iff.mp ha
    refine ⟨max n (max m k) + 3, ?_⟩
    have he := he (max n (max m k) + 1) (by omega)
    have hm := hm (max n (max m k) + 1) (by omega)
    have hk := hk (max n (max m k) + 1) (by omega)
    simp only [exec] at hk
    simp only [exec, execSwitch, he, hm, Res.tryControl, switchEnd, hd]
    exact hk
  | leave hd =>
    refine ⟨max n m + 3, ?_⟩
    have he := he (max n m + 1) (by omega)
    have hm := hm (max n m + 1) (by omega)
    rcases hd with hd | hd | hd <;> simp only [exec, execSwitch, he, hm, Res.tryControl, switchEnd, hd]

/-- **C35**.  A switch statement without cases executes its default block. -/
theorem switch_without_cases {e : Expr A} {dflt : List (Stmt A)} {s s₁ s' : St A} (hb : Executes P G (.block dflt) s s₁)
    (ha : AfterCase (Executes P G (.switch e [] dflt)) s₁ s') : Executes P G (.switch e [] dflt) s s' := by
  obtain ⟨m, hm⟩ := executes_iff.mp hb
  cases ha with
  | done hd =>
    refine ⟨m + 3, ?_⟩
    have hm := hm (m + 2) (by omega)
    simp only [exec] at hm
    rcases hd with hd | hd <;> simp only [exec, execSwitch, hm, Res.bind, switchEnd, hd]
  | again hd ha =>
    obtain ⟨k, hk⟩ := executes_iff.mp ha
    refine ⟨max m k + 3, ?_⟩
    have hm := hm (max m k + 2) (by omega)
    have hk := hk (max m k + 1) (by omega)
    simp only [exec] at hk hm
    simp only [exec, execSwitch, hm, Res.bind, switchEnd, hd]
    exact hk
  | leave hd =>
    refine ⟨m + 3, ?_⟩
    have hm := hm (m + 2) (by omega)
    simp only [exec] at hm
    rcases hd with hd | hd | hd <;> simp only [exec, execSwitch, hm, Res.bind, switchEnd, hd]

/-! ## What every statement leaves behind -/

/-- **C33** (partial).  Whichever way a statement completes, the scopes of the running method are those it started with, all other scopes
are as before, and new ones are gone.  Missing: executions in which one of the events comes up (a `for` statement left by
`break`, see `forLeft_refuted`), and `exit`. -/
theorem scopes_released_partial {h : Option (Value A)} {st : Stmt A} {c : Spec.Comp A} {σ σ' : Spec.State A} {pre : List (Frame A)}
    {stk : List (Nat × Bool)} {s : St A} (hd : Spec.Exec P G Never h σ st c σ') (hr : Rel pre stk σ s) (hc : s.cf = .normal) :
    ∃ s', Executes P G st s s' ∧ s'.frames = pre ++ [⟨stk, σ'.rv⟩] ∧ s'.cur = s.cur ∧
      (∀ i, i ∉ ids stk → s'.scopes i = s.scopes i) ∧ ∀ i, s.next ≤ i → s'.scopes i = none := by
  obtain ⟨s', he, -, -, hr', hs⟩ := Sim.exec_refines hd pre stk s hr hc
  refine ⟨s', executes_iff.mpr he, hr'.frames, hr'.cur.trans hr.cur.symm, hs.scopes, fun i hi => ?_⟩
  rw [hs.scopes i fun hm => absurd (hr.lt i hm) (Nat.not_lt.mpr hi), hr.fresh i hi]

/-- **C37** (partial).  After a call the frames and all scopes are exactly those before the call, whether it returned, fell off its end or
threw.  Missing: executions in which one of the events comes up, and `exit` (`exit_in_call_refuted`). -/
theorem call_restores_partial {m : Method A} {self : Option (Name × Nat)} {vs : List (Value A)} {c : Spec.Comp A} {σ σ' : Spec.State A}
    {s : St A} (hd : Spec.Run P G Never σ m self vs c σ') (hdata : Sim.Data σ s) (hi : Sim.Idle s) (hc : s.cf = .normal) :
    ∃ n v s', run P G n m self vs s = .ok v s' ∧ s'.frames = s.frames ∧ s'.cur = s.cur ∧ s'.scopes = s.scopes := by
  obtain ⟨s', v, ⟨n, he⟩, -, -, hs, -⟩ := (Sim.run_refines hd).2 s hdata hi hc
  exact ⟨n, v, s', he n (Nat.le_refl _), hs.frames, hs.cur, hs.scopes⟩

/-- **C39**, **C40** (partial), for one statement in the middle of a method: every statement of the reference semantics, in particular
`for` (`Spec.ForLoop`) and `foreach` (`Spec.EachLoop`), has the effect the reference semantics says.  Missing: the events. -/
theorem statement_meaning_partial {h : Option (Value A)} {st : Stmt A} {c : Spec.Comp A} {σ σ' : Spec.State A} {pre : List (Frame A)}
    {stk : List (Nat × Bool)} {s : St A} (hd : Spec.Exec P G Never h σ st c σ') (hr : Rel pre stk σ s) (hc : s.cf = .normal) :
    ∃ s', Executes P G st s s' ∧ s'.out = σ'.out ∧ s'.objs = σ'.objs ∧ s'.globals = σ'.globals ∧
      (c = .normal ↔ s'.cf = .normal) ∧ (c = .brk ↔ s'.cf = .brk) ∧ (c = .cont ↔ s'.cf = .cont) ∧
      ((∃ v, c = .ret v) ↔ s'.cf = .ret) ∧ ((∃ x, c = .thr x) ↔ s'.cf = .throw) ∧ ∀ x, c = .thr x → s'.exc = some x := by
  obtain ⟨s', he, hcf, hj, hr', -⟩ := Sim.exec_refines hd pre stk s hr hc
  refine ⟨s', executes_iff.mpr he, hr'.data.out, hr'.data.objs, hr'.data.globals, ?_, ?_, ?_, ?_, ?_, ?_⟩
  iterate 5 (rw [hcf]; cases c <;> simp [Sim.cfOf])
  intro x hx
  rw [hr'.data.exc, hj.thr x hx]

end Interp
end Verif
