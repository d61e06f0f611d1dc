import Verif.Interp.Switch

/-! C87: `exit` in the method a script starts with. -/

namespace Verif.Interp

open Sim (Ends)

variable {A : Type} {P : Prim A} {G : Prog A}

/-- Executing the statements from `s` on comes to an `exit` in the state `s'`, at any depth of blocks, branches of `if`, bodies of `while`
and blocks of `try`. -/
inductive Exits (P : Prim A) (G : Prog A) : List (Stmt A) → St A → St A → Prop where
  | here {e : Expr A} {b : List (Stmt A)} {s s₁ : St A} {v : Value A} :
      s.cf = .normal → Evaluates P G e s v s₁ → Exits P G (.exit e :: b) s { s₁ with exc := some v }
  | later {st : Stmt A} {b : List (Stmt A)} {s s₁ s' : St A} :
      s.cf = .normal → Executes P G st s s₁ → Exits P G b s₁ s' → Exits P G (st :: b) s s'
  | block {c b : List (Stmt A)} {s s₁ s' : St A} :
      s.cf = .normal → pushScope s = .ok () s₁ → Exits P G c s₁ s' → Exits P G (.block c :: b) s s'
  | branch {c : Expr A} {t e : Stmt A} {b : List (Stmt A)} {s s₁ s' : St A} {v : Value A} :
      s.cf = .normal → Evaluates P G c s v s₁ → Exits P G [if Spec.truthy P v then t else e] s₁ s' →
      Exits P G (.ite c t e :: b) s s'
  | round {c : Expr A} {t : Stmt A} {b : List (Stmt A)} {s s₁ s' : St A} {v : Value A} :
      s.cf = .normal → Evaluates P G c s v s₁ → Spec.truthy P v = true → Exits P G [t] s₁ s' → Exits P G (.while c t :: b) s s'
  | rounds {c : Expr A} {t : Stmt A} {b : List (Stmt A)} {s s₁ s₂ s' : St A} {v : Value A} :
      s.cf = .normal → Evaluates P G c s v s₁ → Spec.truthy P v = true → Executes P G t s₁ s₂ → s₂.cf = .normal ∨ s₂.cf = .cont →
      Exits P G [.while c t] { s₂ with cf := .normal } s' → Exits P G (.while c t :: b) s s'
  | tryBlock {c b : List (Stmt A)} {catches : List (Option (Name × Name) × List (Stmt A))} {f : Option (List (Stmt A))} {s s₁ s' : St A} :
      s.cf = .normal → pushScope s = .ok () s₁ → Exits P G c s₁ s' → Exits P G (.try c catches f :: b) s s'

theorem isTrue_eq (v : Value A) : isTrue P v = Spec.truthy P v := by cases v <;> rfl

theorem Exits.normal {b : List (Stmt A)} {s s' : St A} (h : Exits P G b s s') : s.cf = .normal := by cases h <;> assumption

/-- Statements whose first one is left by `exit`. -/
theorem ends_first {st : Stmt A} {b : List (Stmt A)} {s s' : St A} (hc : s.cf = .normal)
    (h : Ends (fun n => exec P G n st s) (.raise .exit s')) : Ends (fun n => execList P G n (st :: b) s) (.raise .exit s') := by
  obtain ⟨n, h⟩ := h
  refine ⟨n + 1, fun m hm => ?_⟩
  obtain ⟨m, rfl⟩ : ∃ k, m = k + 1 := ⟨m - 1, by omega⟩
  have h := h m (by omega)
  simp only at h
  simp only [execList, if_pos hc, h, Res.bind]

theorem ends_only {st : Stmt A} {s s' : St A} (hc : s.cf = .normal)
    (h : Ends (fun n => execList P G n [st] s) (.raise .exit s')) : Ends (fun n => exec P G n st s) (.raise .exit s') := by
  obtain ⟨n, h⟩ := h
  refine ⟨n + 1, fun m hm => ?_⟩
  have h := h (m + 1) (by omega)
  simp only [execList, if_pos hc] at h
  cases hx : exec P G m st s with
  | ok u s₁ =>
    rw [hx] at h
    match m, hm with
    | m + 1, _ => simp only [Res.bind, execList] at h; cases h
  | raise c s₁ => rw [hx] at h; cases h; exact hx
  | fatal => rw [hx] at h; cases h
  | ub => rw [hx] at h; cases h
  | fuel => rw [hx] at h; cases h

theorem ends_block {c : List (Stmt A)} {s s₁ s' : St A} (hp : pushScope s = .ok () s₁)
    (h : Ends (fun n => execList P G n c s₁) (.raise .exit s')) : Ends (fun n => execBlock P G n c s) (.raise .exit s') := by
  obtain ⟨n, h⟩ := h
  refine ⟨n + 1, fun m hm => ?_⟩
  obtain ⟨m, rfl⟩ : ∃ k, m = k + 1 := ⟨m - 1, by omega⟩
  have h := h m (by omega)
  simp only at h
  simp only [execBlock, hp, Res.bind, h]

theorem Exits.ends {b : List (Stmt A)} {s s' : St A} (h : Exits P G b s s') :
    Ends (fun n => execList P G n b s) (.raise .exit s') := by
  induction h with
  | here hc he =>
    obtain ⟨n, he⟩ := evaluates_iff.mp he
    refine ends_first hc ⟨n + 1, fun m hm => ?_⟩
    obtain ⟨m, rfl⟩ : ∃ k, m = k + 1 := ⟨m - 1, by omega⟩
    have he := he m (by omega)
    simp only at he
    simp only [exec, he, Res.tryControl]
  | later hc hx _ ih =>
    obtain ⟨n, hx⟩ := executes_iff.mp hx
    obtain ⟨k, ih⟩ := ih
    refine ⟨max n k + 1, fun m hm => ?_⟩
    obtain ⟨m, rfl⟩ : ∃ k, m = k + 1 := ⟨m - 1, by omega⟩
    have hx := hx m (by omega)
    have ih := ih m (by omega)
    simp only at hx ih
    simp only [execList, if_pos hc, hx, Res.bind, ih]
  | block hc hp _ ih =>
    obtain ⟨n, h⟩ := ends_block hp ih
    refine ends_first hc ⟨n + 1, fun m hm => ?_⟩
    obtain ⟨m, rfl⟩ : ∃ k, m = k + 1 := ⟨m - 1, by omega⟩
    simpa only [exec] using h m (by omega)
  | @branch c t e b s s₁ s' v hc he hx ih =>
    obtain ⟨n, he⟩ := evaluates_iff.mp he
    obtain ⟨k, ih⟩ := ends_only hx.normal ih
    refine ends_first hc ⟨max n k + 1, fun m hm => ?_⟩
    obtain ⟨m, rfl⟩ : ∃ k, m = k + 1 := ⟨m - 1, by omega⟩
    have he := he m (by omega)
    have ih := ih m (by omega)
    simp only at he ih
    simp only [exec, he, Res.tryControl, isTrue_eq]
    cases hv : Spec.truthy P v <;> simpa [hv] using ih
  | round hc he ht hx ih =>
    obtain ⟨n, he⟩ := evaluates_iff.mp he
    obtain ⟨k, ih⟩ := ends_only hx.normal ih
    refine ends_first hc ⟨max n k + 2, fun m hm => ?_⟩
    obtain ⟨m, rfl⟩ : ∃ k, m = k + 2 := ⟨m - 2, by omega⟩
    have he := he m (by omega)
    have ih := ih m (by omega)
    simp only at he ih
    simp only [exec, execWhile, he, Res.tryControl, isTrue_eq, ht, if_true, ih, Res.bind]
  | rounds hc he ht hb hn hx ih =>
    obtain ⟨n, he⟩ := evaluates_iff.mp he
    obtain ⟨l, hb⟩ := executes_iff.mp hb
    obtain ⟨k, ih⟩ := ends_only hx.normal ih
    refine ends_first hc ⟨max n (max k l) + 2, fun m hm => ?_⟩
    obtain ⟨m, rfl⟩ : ∃ k, m = k + 2 := ⟨m - 2, by omega⟩
    have he := he m (by omega)
    have hb := hb m (by omega)
    have ih := ih (m + 1) (by omega)
    simp only [exec] at he ih hb
    simp only [exec, execWhile, he, Res.tryControl, isTrue_eq, ht, if_true, hb, Res.bind]
    rcases hn with hn | hn <;> simp only [afterBody, hn]
    · exact ih
    · exact ih
  | tryBlock hc hp _ ih =>
    obtain ⟨n, h⟩ := ends_block hp ih
    refine ends_first hc ⟨n + 1, fun m hm => ?_⟩
    obtain ⟨m, rfl⟩ : ∃ k, m = k + 1 := ⟨m - 1, by omega⟩
    have h := h m (by omega)
    simp only at h
    simp only [exec, h, Res.bind]

/-- **C87** (partial).  When the method a script starts with comes to an `exit`, at any depth of blocks, branches, loops and try blocks, the
script ends there: it has printed exactly what was printed up to then, and its result is the value of the `exit`.
Missing: `exit` in a called method, which is undefined below a block (`exit_in_call_refuted`); `for`, `foreach`, `switch`, handlers and
`finally` blocks around the `exit`. -/
theorem exit_ends_script_partial {m : Method A} {b : List (Stmt A)} {vs : List (Value A)} {globals : AMap Name (Value A)} {s' : St A}
    (hm : m.code = .body b) (h : Exits P G b (pushFrame (start globals) none m vs) s') :
    ∃ n s, run P G n m none vs (start globals) = .raise .exit s ∧ s.out = s'.out ∧ s.exc = s'.exc ∧ s.objs = s'.objs ∧
      s.globals = s'.globals := by
  obtain ⟨n, h⟩ := h.ends
  have h := h n (Nat.le_refl _)
  simp only at h
  refine ⟨n + 1, _, by simp only [run, hm, h]; rfl, ?_⟩
  simp [dropAlias]

end Verif.Interp
