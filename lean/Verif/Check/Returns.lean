import Verif.Check.Jumps

/-!
# Methods with a result

By induction on the fuel: where the compile time control flow is right about the branches, a
statement behind which it is `return` or `throw` never completes normally.
-/

namespace Verif
namespace Check
namespace Returns

open Interp

variable {A : Type}

/-- What `finalize` accepts at the end of a method with a result. -/
def Ends (c : CF) : Prop := c = .ret ∨ c = .throw

/-- The statement does not decide the check alone: for each kind of statement with several ways
through it, either it leaves the compile time control flow open, or all ways end. -/
def Balanced : Stmt A → Prop
  | .ite _ t e => Ends (flow .normal t) ↔ Ends (flow .normal e)
  | .while c b => ¬ Ends (flow .normal (.while c b))
  | .for i c s b => ¬ Ends (flow .normal (.for i c s b))
  | .foreach ty x e b => ¬ Ends (flow .normal (.foreach ty x e b))
  | .foreachIt ty x p f as b => ¬ Ends (flow .normal (.foreachIt ty x p f as b))
  | .switch e cases d =>
    ¬ Ends (flow .normal (.switch e cases d)) ∨
      ((∀ c ∈ cases, Ends (flowList .normal c.2) ∧ Jumps.FineList False c.2) ∧
        Ends (flowList .normal d) ∧ Jumps.FineList False d)
  | .try b cs f =>
    ¬ Ends (flow .normal (.try b cs f)) ∨ f.isSome ∨
      (cs ≠ [] ∧ Ends (flowList .normal b) ∧ ∀ c ∈ cs, Ends (flowList .normal c.2))
  | _ => True

theorem not_ends_normal : ¬ Ends .normal := by rintro (h | h) <;> cases h

/-! ## The compile time control flow is overwritten or kept -/

def Over (f : CF → CF) : Prop := (∀ c, f c = c) ∨ ∃ k, ∀ c, f c = k

theorem Over.comp {f g : CF → CF} (hf : Over f) (hg : Over g) : Over fun c => g (f c) := by
  rcases hg with hg | ⟨k, hg⟩
  · rcases hf with hf | ⟨k, hf⟩
    · exact .inl fun c => (hg _).trans (hf c)
    · exact .inr ⟨k, fun c => (hg _).trans (hf c)⟩
  · exact .inr ⟨k, fun c => hg _⟩

theorem Over.ends {f : CF → CF} (hf : Over f) {c : CF} (h : Ends (f c)) : Ends c ∨ Ends (f .normal) := by
  rcases hf with hf | ⟨k, hf⟩
  · rw [hf] at h; exact .inl h
  · rw [hf] at h; exact .inr (by rw [hf]; exact h)

mutual

theorem over_flow : ∀ st : Stmt A, Over fun c => flow c st
  | .nop => .inl fun c => by simp only [flow]
  | .expr _ => .inl fun c => by simp only [flow]
  | .assign _ _ => .inl fun c => by simp only [flow]
  | .decl _ _ _ => .inl fun c => by simp only [flow]
  | .print _ => .inl fun c => by simp only [flow]
  | .assert _ _ => .inl fun c => by simp only [flow]
  | .delete _ => .inl fun c => by simp only [flow]
  | .exit _ => .inr ⟨_, fun c => by simp only [flow]; rfl⟩
  | .ret _ => .inr ⟨_, fun c => by simp only [flow]; rfl⟩
  | .throw _ => .inr ⟨_, fun c => by simp only [flow]; rfl⟩
  | .brk => .inr ⟨_, fun c => by simp only [flow]; rfl⟩
  | .cont => .inr ⟨_, fun c => by simp only [flow]; rfl⟩
  | .ite _ t e => by simp only [flow]; exact (over_flow t).comp (over_flow e)
  | .while _ b => by simp only [flow]; exact over_flow b
  | .for i _ s b => by simp only [flow]; exact ((over_flow i).comp (over_flow s)).comp (over_flow b)
  | .foreach _ _ _ b => by simp only [flow]; exact over_flow b
  | .foreachIt _ _ _ _ _ b => by simp only [flow]; exact over_flow b
  | .switch _ cases d => by simp only [flow]; exact (over_cases cases).comp (over_default d)
  | .try _ cs f => .inr ⟨_, fun c => by simp only [flow]; rfl⟩
  | .block b => .inr ⟨_, fun c => by simp only [flow]; rfl⟩

theorem over_list : ∀ b : List (Stmt A), Over fun c => flowList c b
  | [] => .inl fun c => by simp only [flowList]
  | st :: b => by simp only [flowList]; exact (over_flow st).comp (over_list b)

theorem over_cases : ∀ cs : List (Expr A × List (Stmt A)), Over fun c => flowCases c cs
  | [] => .inl fun c => by simp only [flowCases]
  | (_, b) :: cs => .inr ⟨_, fun c => by simp only [flowCases]; rfl⟩

theorem over_default : ∀ b : List (Stmt A), Over fun c => flowDefault c b
  | [] => .inl fun c => by simp only [flowDefault]
  | st :: b => .inr ⟨_, fun c => by simp only [flowDefault]; rfl⟩

end

/-! ## The induction -/

variable {P : Prim A} {G : Prog A}

/-- The result is not a normal completion. -/
def NN {α : Type} (r : Res A α) : Prop := ∀ v s', r = .ok v s' → s'.cf ≠ .normal

theorem NN.bind {α β : Type} {r : Res A α} {k : α → St A → Res A β} (hk : ∀ v s', r = .ok v s' → NN (k v s')) : NN (r.bind k) := by
  intro v s' h
  cases r with
  | ok w s'' => exact hk w s'' rfl v s' h
  | _ => cases h

theorem NN.try {α : Type} {r : Res A α} {k : α → St A → Res A Unit} (hr : ∀ c s', r = .raise c s' → c ≠ .normal)
    (hk : ∀ v s', r = .ok v s' → NN (k v s')) : NN (r.tryControl k) := by
  intro v s' h
  cases r with
  | ok w s'' => exact hk w s'' rfl v s' h
  | raise c s'' => cases h; exact hr c s'' rfl
  | _ => cases h

theorem Q.raise_ne {α : Type} {a : Prop} {s : St A} {r : Res A α} (h : Jumps.Q a s r) : ∀ c s', r = .raise c s' → c ≠ .normal := by
  rintro c s' rfl
  rcases h with rfl | rfl <;> nofun

theorem Q.no_jump {α : Type} {s : St A} {r : Res A α} (h : Jumps.Q False s r) (hs : ¬ Jumps.Jump s.cf) {v : α} {s' : St A}
    (hr : r = .ok v s') : ¬ Jumps.Jump s'.cf := by
  subst hr
  exact fun hj => (h hj).elim hs id

/-- The functions that execute statements. -/
structure At (P : Prim A) (G : Prog A) (n : Nat) : Prop where
  execList : ∀ b s, EveryOf Balanced b → Ends (flowList .normal b) → NN (execList P G n b s)
  execBlock : ∀ b s, EveryOf Balanced b → Ends (flowList .normal b) → NN (execBlock P G n b s)
  exec : ∀ st s, ¬ Jumps.Jump s.cf → Every Balanced st → Ends (flow .normal st) → NN (exec P G n st s)
  handle : ∀ cs s, cs ≠ [] → EveryCatch Balanced cs → (∀ c ∈ cs, Ends (flowList .normal c.2)) → s.cf ≠ .normal →
    NN (handle P G n cs s)
  execSwitch : ∀ e cs d s, ¬ Jumps.Jump s.cf → EveryCase Balanced cs → EveryOf Balanced d →
    (∀ c ∈ cs, Ends (flowList .normal c.2) ∧ Jumps.FineList False c.2) → Ends (flowList .normal d) → Jumps.FineList False d →
    NN (execSwitch P G n e cs d s)
  execCases : ∀ v cs d s, ¬ Jumps.Jump s.cf → EveryCase Balanced cs → EveryOf Balanced d →
    (∀ c ∈ cs, Ends (flowList .normal c.2) ∧ Jumps.FineList False c.2) → Ends (flowList .normal d) → Jumps.FineList False d →
    ∀ t s', execCases P G n v cs d s = .ok t s' → s'.cf ≠ .normal ∧ ¬ Jumps.Jump s'.cf

theorem at_zero : At P G 0 := by
  constructor
  · intros; rw [Interp.execList]; nofun
  · intros; rw [Interp.execBlock]; nofun
  · intros; rw [Interp.exec]; nofun
  · intros; rw [Interp.handle]; nofun
  · intros; rw [Interp.execSwitch]; nofun
  · intro v cs d s _ _ _ _ _ _ t s' h; rw [Interp.execCases] at h; cases h

variable {n : Nat}

theorem popScope_nn {s : St A} (h : s.cf ≠ .normal) : NN (popScope s) := by
  intro v s' hp
  have := Jumps.keeps_popScope s
  rw [hp] at this
  rw [show s'.cf = s.cf from this]
  exact h

/-- With a control flow that is not normal a list of statements does nothing. -/
theorem execList_skip {b : List (Stmt A)} {s : St A} (h : s.cf ≠ .normal) : ∀ v s', execList P G n b s = .ok v s' → s' = s := by
  intro v s' he
  cases n with
  | zero => rw [Interp.execList] at he; cases he
  | succ n =>
    cases b with
    | nil => simp only [Interp.execList] at he; cases he; rfl
    | cons st b => simp only [Interp.execList, if_neg h] at he; cases he; rfl

theorem flowDefault_list {d : List (Stmt A)} (h : Ends (flowDefault .normal d)) : Ends (flowList .normal d) := by
  cases d with
  | nil => rw [flowDefault] at h; exact (not_ends_normal h).elim
  | cons st b => rw [flowDefault] at h; rw [flowList]; exact h

theorem At.exec_succ (hG : Jumps.Passes G) (h : At P G n) (st : Stmt A) (s : St A) (hs : ¬ Jumps.Jump s.cf) (hb : Every Balanced st)
    (he : Ends (flow .normal st)) : NN (Interp.exec P G (n + 1) st s) := by
  have hj := Jumps.holds (P := P) hG n
  have hbal := hb.here
  cases st with
  | ret e =>
    cases e with
    | none => simp only [Interp.exec]; intro v s' h; cases h; nofun
    | some e =>
      simp only [Interp.exec]
      refine .try (Q.raise_ne (hj.eval _ _)) fun v s hv => ?_
      cases s.frames[s.cur]? with
      | none => nofun
      | some fr =>
        dsimp only
        cases P.ret fr.ret v with
        | none => nofun
        | some v => intro v s' h; cases h; nofun
  | throw e =>
    cases e with
    | none => simp only [Interp.exec]; intro v s' h; cases h; nofun
    | some e =>
      simp only [Interp.exec]
      refine .try (Q.raise_ne (hj.eval _ _)) fun v s hv => ?_
      intro v s' h; cases h; nofun
  | ite c t e =>
    rw [Every] at hb
    simp only [Interp.exec]
    have hte : Ends (flow .normal t) ∧ Ends (flow .normal e) := by
      rw [flow] at he
      rcases (over_flow e).ends he with h1 | h1
      · exact ⟨h1, hbal.1 h1⟩
      · exact ⟨hbal.2 h1, h1⟩
    refine .try (Q.raise_ne (hj.eval _ _)) fun v s hv => ?_
    split
    · exact h.exec _ _ (Q.no_jump (hj.eval _ _) hs hv) hb.2.1 hte.1
    · exact h.exec _ _ (Q.no_jump (hj.eval _ _) hs hv) hb.2.2 hte.2
  | «while» c b => exact (hbal he).elim
  | «for» i c s b => exact (hbal he).elim
  | foreach ty x e b => exact (hbal he).elim
  | foreachIt ty x p f as b => exact (hbal he).elim
  | «switch» e cases d =>
    rcases hbal with hbal | ⟨h1, h2, h3⟩
    · exact (hbal he).elim
    · rw [Every] at hb
      simp only [Interp.exec]
      exact h.execSwitch _ _ _ _ hs hb.2.1 hb.2.2 h1 h2 h3
  | «try» b cs f =>
    rw [Every] at hb
    simp only [Interp.exec]
    cases f with
    | some f =>
      have hf : Ends (flowList .normal f) := by simpa only [flow, flowOpt] using he
      have hbf : EveryOf Balanced f := by simpa only [EveryOpt] using hb.2.2.2
      refine .bind fun _ s₁ _ => .bind fun _ s₂ _ => ?_
      dsimp only
      refine .bind fun _ s₃ h3 => ?_
      intro v s' h'
      cases h'
      have := h.execBlock f _ hbf hf _ _ h3
      rw [if_neg this]
      exact this
    | none =>
      rcases hbal with hbal | hbal | ⟨h1, h2, h3⟩
      · exact (hbal he).elim
      · cases hbal
      · refine .bind fun _ s₁ hs₁ => ?_
        have hc := h.execBlock _ _ hb.2.1 h2 _ _ hs₁
        refine .bind fun _ s₂ hs₂ => ?_
        intro v s' h'
        cases h'
        split at hs₂
        · exact h.handle _ _ h1 hb.2.2.1 h3 hc _ _ hs₂
        · cases hs₂; exact hc
  | block b =>
    rw [Every] at hb
    simp only [Interp.exec]
    exact h.execBlock _ _ hb.2 (by simpa only [flow] using he)
  | _ => simp only [flow] at he; rcases he with he | he <;> cases he

theorem switch_end {s₁ : St A} {e : Expr A} {cs : List (Expr A × List (Stmt A))} {d : List (Stmt A)}
    (h1 : s₁.cf ≠ .normal) (h2 : ¬ Jumps.Jump s₁.cf) : NN (switchEnd P G n e cs d s₁) := by
  intro v s' he
  cases n with
  | zero => rw [switchEnd] at he; cases he
  | succ n =>
    simp only [switchEnd] at he
    cases hc : s₁.cf <;> rw [hc] at he h1 h2
    · exact (h1 rfl).elim
    · exact (h2 (.inl rfl)).elim
    · exact (h2 (.inr rfl)).elim
    · cases he; rw [hc]; nofun
    · cases he; rw [hc]; nofun
    · cases he; rw [hc]; nofun

theorem At.succ (hG : Jumps.Passes G) (h : At P G n) : At P G (n + 1) where
  exec st s hs hb he := h.exec_succ hG st s hs hb he
  execList b s hb he := by
    cases b with
    | nil => rw [flowList] at he; exact (not_ends_normal he).elim
    | cons st b =>
      rw [EveryOf] at hb
      rw [flowList] at he
      simp only [Interp.execList]
      split
      · rename_i hn
        refine .bind fun _ s₁ h1 => ?_
        rcases (over_list b).ends he with he | he
        · have hc := h.exec _ _ (by rw [hn]; exact Jumps.not_jump_normal) hb.1 he _ _ h1
          intro v s' h2
          rw [execList_skip hc _ _ h2]
          exact hc
        · exact h.execList _ _ hb.2 he
      · rename_i hc
        intro v s' h2
        cases h2
        exact hc
  execBlock b s hb he := by
    simp only [Interp.execBlock]
    refine .bind fun _ s₁ _ => .bind fun _ s₂ h2 => ?_
    exact popScope_nn (h.execList _ _ hb he _ _ h2)
  handle cs s hne hb he hc := by
    cases cs with
    | nil => exact (hne rfl).elim
    | cons c cs =>
      simp only [Interp.handle]
      cases hf : findCatch P s.exc (c :: cs) with
      | none => intro v s' h; cases h; exact hc
      | some db =>
        obtain ⟨d, b⟩ := db
        dsimp only
        have hmem := Jumps.findCatch_mem hf
        refine .bind fun _ s₁ _ => .bind fun _ s₂ _ => .bind fun _ s₃ h3 => ?_
        exact popScope_nn (h.execBlock _ _ (hb.mem _ hmem) (he _ hmem) _ _ h3)
  execSwitch e cs d s hs hbc hbd hcs hd hfd := by
    have hj := Jumps.holds (P := P) hG n
    cases cs with
    | nil =>
      simp only [Interp.execSwitch]
      refine .bind fun _ s₁ h1 => ?_
      exact switch_end (h.execBlock _ _ hbd hd _ _ h1) (Q.no_jump (hj.execBlock _ _ _ hfd) hs h1)
    | cons c cs =>
      simp only [Interp.execSwitch]
      refine .try (Q.raise_ne (hj.eval _ _)) fun v s₁ hv => ?_
      have hc := h.execCases v (c :: cs) d s₁ (Q.no_jump (hj.eval _ _) hs hv) hbc hbd hcs hd hfd
      intro u s' he
      cases hr : Interp.execCases P G n v (c :: cs) d s₁ with
      | ok t s₂ =>
        rw [hr] at he
        have h2 := hc t s₂ hr
        cases t with
        | true => exact switch_end h2.1 h2.2 _ _ he
        | false => cases he; exact h2.1
      | _ => rw [hr] at he; cases he
  execCases v cs d s hs hbc hbd hcs hd hfd := by
    have hj := Jumps.holds (P := P) hG n
    have block : ∀ (b : List (Stmt A)) (s : St A), ¬ Jumps.Jump s.cf → EveryOf Balanced b → Ends (flowList .normal b) →
        Jumps.FineList False b → ∀ t s', ((Interp.execBlock P G n b s).bind fun _ s => .ok true s : Res A Bool) = .ok t s' →
        s'.cf ≠ .normal ∧ ¬ Jumps.Jump s'.cf := by
      intro b s hs h1 h2 h3 t s' he
      cases hr : Interp.execBlock P G n b s with
      | ok u s₁ =>
        rw [hr] at he
        cases he
        exact ⟨h.execBlock _ _ h1 h2 _ _ hr, Q.no_jump (hj.execBlock _ _ _ h3) hs hr⟩
      | _ => rw [hr] at he; cases he
    cases cs with
    | nil =>
      simp only [Interp.execCases]
      exact block _ _ hs hbd hd hfd
    | cons c cs =>
      obtain ⟨e, b⟩ := c
      rw [EveryCase] at hbc
      simp only [Interp.execCases]
      intro t s' he
      have h1 := hj.eval e s
      cases hr : Interp.eval P G n e s with
      | raise c s₁ =>
        rw [hr] at he h1
        cases he
        exact ⟨by rcases h1 with rfl | rfl <;> nofun, h1.not_jump⟩
      | ok w s₁ =>
        rw [hr] at he
        have hs₁ := Q.no_jump h1 hs hr
        dsimp only at he
        cases hq : Interp.compareVals P G n .eq v w s₁ with
        | ok same s₂ =>
          rw [hq, ok_bind] at he
          have hs₂ := Q.no_jump (hj.compareVals _ _ _ _) hs₁ hq
          split at he
          · have hm := hcs _ List.mem_cons_self
            exact block _ _ hs₂ hbc.1 hm.1 hm.2 _ _ he
          · exact h.execCases _ _ _ _ hs₂ hbc.2 hbd (fun c hc => hcs c (List.mem_cons_of_mem _ hc)) hd hfd _ _ he
        | _ => rw [hq] at he; cases he
      | _ => rw [hr] at he; cases he

theorem holds (hG : Jumps.Passes G) : ∀ n, At P G n
  | 0 => at_zero
  | n + 1 => (holds hG n).succ hG

end Returns
end Check
end Verif
