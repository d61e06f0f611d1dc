import Verif.Interp.Props

/-! C35 in both directions: what a switch statement does, and that it does nothing else; and the try statements of C31 that handle
no exception. -/

namespace Verif.Interp

variable {A : Type} {P : Prim A} {G : Prog A}

/-- The expression of a case is left by an exception, after the expressions of the cases before it were different from `v`. -/
inductive CaseLeaves (P : Prim A) (G : Prog A) (v : Value A) : List (Expr A × List (Stmt A)) → St A → CF → St A → Prop where
  | here {e : Expr A} {b : List (Stmt A)} {cases : List (Expr A × List (Stmt A))} {s s₁ : St A} {d : CF} :
      Leaves P G e s d s₁ → CaseLeaves P G v ((e, b) :: cases) s d s₁
  | later {e : Expr A} {b : List (Stmt A)} {cases : List (Expr A × List (Stmt A))} {s s₁ s₂ s₃ : St A} {w : Value A} {d : CF} :
      Evaluates P G e s w s₁ → (∃ n, compareVals P G n .eq v w s₁ = .ok false s₂) → CaseLeaves P G v cases s₂ d s₃ →
      CaseLeaves P G v ((e, b) :: cases) s d s₃

/-- The end of one round, in both directions. -/
theorem switchEnd_iff {e : Expr A} {cases : List (Expr A × List (Stmt A))} {dflt : List (Stmt A)} {s s' : St A} :
    (∃ n, switchEnd P G n e cases dflt s = .ok () s') ↔ AfterCase (Executes P G (.switch e cases dflt)) s s' := by
  constructor
  · rintro ⟨n, h⟩
    match n with
    | 0 => simp only [switchEnd] at h; cases h
    | n + 1 =>
      cases hc : s.cf <;> simp only [switchEnd, hc] at h
      case normal => cases h; exact .done (.inl hc)
      case brk => cases h; exact .done (.inr hc)
      case cont => exact .again hc ⟨n + 1, by simpa only [exec] using h⟩
      case ret => cases h; exact .leave (.inl hc)
      case throw => cases h; exact .leave (.inr (.inl hc))
      case exit => cases h; exact .leave (.inr (.inr hc))
  · intro h
    cases h with
    | done hd => exact ⟨1, by rcases hd with hd | hd <;> simp only [switchEnd, hd]⟩
    | again hd ha =>
      obtain ⟨k, hk⟩ := executes_iff.mp ha
      have hk := hk (k + 1) (by omega)
      simp only [exec] at hk
      exact ⟨k + 1, by simpa only [switchEnd, hd] using hk⟩
    | leave hd => exact ⟨1, by rcases hd with hd | hd | hd <;> simp only [switchEnd, hd]⟩

/-- One round over the cases: a block was chosen and executed, or the expression of a case was left. -/
theorem execCases_ok {v : Value A} {dflt : List (Stmt A)} {r : Bool} {s' : St A} :
    ∀ {n : Nat} {cases : List (Expr A × List (Stmt A))} {s : St A}, execCases P G n v cases dflt s = .ok r s' →
      (r = true ∧ ∃ b s₂, Chooses P G v dflt cases s b s₂ ∧ Executes P G (.block b) s₂ s') ∨
      (r = false ∧ ∃ d s₂, CaseLeaves P G v cases s d s₂ ∧ s' = { s₂ with cf := d })
  | 0, _, _, h => by simp only [execCases] at h; cases h
  | n + 1, [], s, h => by
    simp only [execCases, bind_ok_iff] at h
    obtain ⟨_, s₁, hb, h⟩ := h
    cases h
    exact .inl ⟨rfl, dflt, s, .dflt, n + 1, by simpa only [exec] using hb⟩
  | n + 1, (e, b) :: cases, s, h => by
    simp only [execCases] at h
    cases he : eval P G n e s with
    | ok w s₁ =>
      simp only [he, bind_ok_iff] at h
      obtain ⟨same, s₂, hc, h⟩ := h
      cases same with
      | true =>
        simp only [if_true, bind_ok_iff] at h
        obtain ⟨_, s₃, hb, h⟩ := h
        cases h
        exact .inl ⟨rfl, b, s₂, .hit ⟨n, he⟩ ⟨n, hc⟩, n + 1, by simpa only [exec] using hb⟩
      | false =>
        simp only [Bool.false_eq_true, if_false] at h
        rcases execCases_ok h with ⟨hr, b', s₃, h1, h2⟩ | ⟨hr, d, s₃, h1, h2⟩
        · exact .inl ⟨hr, b', s₃, .skip ⟨n, he⟩ ⟨n, hc⟩ h1, h2⟩
        · exact .inr ⟨hr, d, s₃, .later ⟨n, he⟩ ⟨n, hc⟩ h1, h2⟩
    | raise d s₁ =>
      simp only [he] at h
      cases h
      exact .inr ⟨rfl, d, s₁, .here ⟨n, he⟩, rfl⟩
    | fatal => simp only [he] at h; cases h
    | ub => simp only [he] at h; cases h
    | fuel => simp only [he] at h; cases h

theorem CaseLeaves.exec {v : Value A} {dflt : List (Stmt A)} {cases : List (Expr A × List (Stmt A))} {s s₁ : St A} {d : CF}
    (h : CaseLeaves P G v cases s d s₁) : ∃ n, ∀ m, n ≤ m → execCases P G m v cases dflt s = .ok false { s₁ with cf := d } := by
  induction h with
  | here he =>
    obtain ⟨n, he⟩ := leaves_iff.mp he
    refine ⟨n + 1, fun m hm => ?_⟩
    obtain ⟨m, rfl⟩ : ∃ k, m = k + 1 := ⟨m - 1, by omega⟩
    have he := he m (by omega)
    simp only at he
    simp only [execCases, he]
  | later he hc _ ih =>
    obtain ⟨n, he⟩ := evaluates_iff.mp he
    obtain ⟨k, hc⟩ := hc
    obtain ⟨k, hc⟩ : Sim.Ends (fun n => compareVals P G n _ _ _ _) _ :=
      .of_eq (fun n => (Sim.monoAt P G n).compareVals _ _ _ _) hc (by nofun)
    obtain ⟨l, ih⟩ := ih
    refine ⟨max n (max k l) + 1, fun m hm => ?_⟩
    obtain ⟨m, rfl⟩ : ∃ k, m = k + 1 := ⟨m - 1, by omega⟩
    have ih := ih m (by omega)
    have he := he m (by omega)
    have hc := hc m (by omega)
    simp only at hc
    simp only [execCases, he, hc, ih, Res.bind, Bool.false_eq_true, if_false]

/-- **C35**.  This is all that a switch statement can do: it evaluates its expression, executes the block of the first case whose value
equals it or else the default block, and then ends with a `break` or the end of the block, leaves by a `return` or an exception, or, for
`continue`, starts again; or the evaluation of the expression, or that of a case before the chosen one, is left by an exception. -/
theorem switch_unrolls {e : Expr A} {c : Expr A × List (Stmt A)} {cases : List (Expr A × List (Stmt A))} {dflt : List (Stmt A)}
    {s s' : St A} :
    Executes P G (.switch e (c :: cases) dflt) s s' ↔
      (∃ v s₁ b s₂ s₃, Evaluates P G e s v s₁ ∧ Chooses P G v dflt (c :: cases) s₁ b s₂ ∧ Executes P G (.block b) s₂ s₃ ∧
        AfterCase (Executes P G (.switch e (c :: cases) dflt)) s₃ s') ∨
      (∃ v s₁ d s₂, Evaluates P G e s v s₁ ∧ CaseLeaves P G v (c :: cases) s₁ d s₂ ∧ s' = { s₂ with cf := d }) ∨
      (∃ d s₁, Leaves P G e s d s₁ ∧ s' = { s₁ with cf := d }) := by
  constructor
  · rintro ⟨n, h⟩
    match n with
    | 0 => simp only [exec] at h; cases h
    | 1 => simp only [exec, execSwitch] at h; cases h
    | n + 2 =>
      simp only [exec, execSwitch, tryControl_ok_iff] at h
      rcases h with ⟨v, s₁, hv, h⟩ | ⟨d, s₁, hv, rfl⟩
      · cases hx : execCases P G n v (c :: cases) dflt s₁ with
        | ok r s₂ =>
          rcases execCases_ok hx with ⟨rfl, b, s₃, h1, h2⟩ | ⟨rfl, d, s₃, h1, rfl⟩
          · simp only [hx] at h
            exact .inl ⟨v, s₁, b, s₃, s₂, ⟨n, hv⟩, h1, h2, switchEnd_iff.1 ⟨n, h⟩⟩
          · simp only [hx] at h
            cases h
            exact .inr (.inl ⟨v, s₁, d, s₃, ⟨n, hv⟩, h1, rfl⟩)
        | raise d s₂ => simp only [hx] at h; cases h
        | fatal => simp only [hx] at h; cases h
        | ub => simp only [hx] at h; cases h
        | fuel => simp only [hx] at h; cases h
      · exact .inr (.inr ⟨d, s₁, ⟨n, hv⟩, rfl⟩)
  · rintro (⟨v, s₁, b, s₂, s₃, hv, hc, hb, ha⟩ | ⟨v, s₁, d, s₂, hv, hc, rfl⟩ | ⟨d, s₁, ⟨n, hv⟩, rfl⟩)
    · exact switch_runs_chosen hv hc hb ha
    · obtain ⟨n, hv⟩ := evaluates_iff.mp hv
      obtain ⟨m, hm⟩ := hc.exec (dflt := dflt)
      refine ⟨max n m + 2, ?_⟩
      have hv := hv (max n m) (by omega)
      have hm := hm (max n m) (by omega)
      simp only [exec, execSwitch, hv, Res.tryControl, hm]
    · exact ⟨n + 2, by simp only [exec, execSwitch, hv, Res.tryControl]⟩

/-- **C35**.  This is all that a switch statement without cases can do: it executes its default block and then ends, leaves or starts
again as any other switch statement. -/
theorem switch_without_cases_unrolls {e : Expr A} {dflt : List (Stmt A)} {s s' : St A} :
    Executes P G (.switch e [] dflt) s s' ↔
      ∃ s₁, Executes P G (.block dflt) s s₁ ∧ AfterCase (Executes P G (.switch e [] dflt)) s₁ s' := by
  constructor
  · rintro ⟨n, h⟩
    match n with
    | 0 => simp only [exec] at h; cases h
    | 1 => simp only [exec, execSwitch] at h; cases h
    | n + 2 =>
      simp only [exec, execSwitch, bind_ok_iff] at h
      obtain ⟨_, s₁, hb, h⟩ := h
      exact ⟨s₁, ⟨n + 1, by simpa only [exec] using hb⟩, switchEnd_iff.1 ⟨n, h⟩⟩
  · rintro ⟨s₁, hb, ha⟩
    exact switch_without_cases hb ha

/-- **C31**.  If no exception leaves the try block, none of the clauses is executed: the statement is its block. -/
theorem try_without_exception {b : List (Stmt A)} {catches : List (Option (Name × Name) × List (Stmt A))} {s s₁ : St A} :
    Executes P G (.block b) s s₁ → s₁.cf ≠ .throw → Executes P G (.try b catches none) s s₁ := by
  intro ⟨n, hb⟩ hc
  match n with
  | 0 => simp only [exec] at hb; cases hb
  | n + 1 =>
    simp only [exec] at hb
    exact ⟨n + 1, by simp only [exec, hb, Res.bind, if_neg hc]⟩

/-- **C31**.  A try statement without any clause ends with normal control flow when an exception leaves its block; otherwise it is its
block. -/
theorem try_without_clauses {b : List (Stmt A)} {s s' : St A} :
    Executes P G (.try b [] none) s s' ↔
      ∃ s₁, Executes P G (.block b) s s₁ ∧ s' = if s₁.cf = .throw then { s₁ with cf := .normal } else s₁ := by
  constructor
  · rintro ⟨n, h⟩
    match n with
    | 0 => simp only [exec] at h; cases h
    | n + 1 =>
      simp only [exec, bind_ok_iff] at h
      obtain ⟨_, s₁, hb, _, s₂, h, h'⟩ := h
      cases h'
      refine ⟨s₁, ⟨n + 1, by simpa only [exec] using hb⟩, ?_⟩
      by_cases hc : s₁.cf = .throw
      · simp only [hc, if_true] at h ⊢
        match n with
        | 0 => simp only [handle] at h; cases h
        | n + 1 => simp only [handle] at h; cases h; rfl
      · simp only [if_neg hc] at h ⊢
        cases h
        rfl
  · rintro ⟨s₁, hb, rfl⟩
    by_cases hc : s₁.cf = .throw
    · simp only [if_pos hc]
      exact handler_step hb hc (by nofun) ⟨1, by simp only [handle]⟩
    · simp only [if_neg hc]
      exact try_without_exception hb hc

end Verif.Interp
