import Verif.Check.Model
import Verif.Check.Every
import Verif.Interp.Spec

/-!
# Which exceptions escape

By induction on an execution of the reference semantics: an exception that leaves a statement was
counted by the compiler (`thrown`), or is one the compiler does not check.
-/

namespace Verif
namespace Check
namespace Throws

open Interp Interp.Spec

variable {A : Type}

/-- A method or constructor of the program. -/
def InProg (G : Prog A) (m : Method A) : Prop := (∃ c f vs, G.method c f vs = some m) ∨ ∃ c vs, G.ctor c vs = some m

/-- The exceptions the compiler does not check: null accesses, errors of native code, and what the
methods throw that are marked with `throws`. -/
inductive Unchecked (P : Prim A) (G : Prog A) (sig : Method A → Sig A) : Value A → Prop where
  | null (x : Name) : Unchecked P G sig (P.npe x)
  | native {m : Method A} {f : List (Value A) → Except (Value A) (Value A)} {vs : List (Value A)} {x : Value A} :
      InProg G m → m.code = .native f → f vs = .error x → Unchecked P G sig x
  | declared {m : Method A} {b : List (Stmt A)} {t : Name} {x : Value A} :
      InProg G m → m.code = .body b → (sig m).throws = true → t ∈ thrownList (sig m).ty [] b → P.isA t x = true →
      Unchecked P G sig x

/-- The static type of a thrown expression is a type of its value. -/
def Typed (P : Prim A) (G : Prog A) (U : Event → Prop) (ty : Expr A → Name) (e : Expr A) : Prop :=
  ∀ σ v σ', Eval P G U σ e (.val v) σ' → P.isA (ty e) v = true

/-- The statements on which the check can be trusted: thrown expressions have their static type, there
is no `throw;`, and the handlers and the `finally` block of a `try` statement throw nothing
themselves that they do not catch. -/
def Careful (P : Prim A) (G : Prog A) (U : Event → Prop) (ty : Expr A → Name) : Stmt A → Prop
  | .throw none => False
  | .throw (some e) => Typed P G U ty e
  | .try _ cs f => (∀ c ∈ cs, thrownList ty [] c.2 = []) ∧ ∀ b, f = some b → thrownList ty [] b = []
  | _ => True

/-! ## What is thrown before does not matter -/

mutual

theorem mem_thrown {ty : Expr A → Name} {t : Name} : ∀ (st : Stmt A) (T : List Name),
    t ∈ thrown ty T st ↔ t ∈ thrown ty [] st ∨ t ∈ T
  | .nop, T => by simp [thrown]
  | .expr _, T => by simp [thrown]
  | .assign _ _, T => by simp [thrown]
  | .decl _ _ _, T => by simp [thrown]
  | .print _, T => by simp [thrown]
  | .assert _ _, T => by simp [thrown]
  | .delete _, T => by simp [thrown]
  | .exit _, T => by simp [thrown]
  | .ret _, T => by simp [thrown]
  | .throw none, T => by simp [thrown]
  | .throw (some _), T => by simp [thrown]
  | .brk, T => by simp [thrown]
  | .cont, T => by simp [thrown]
  | .ite _ a b, T => by
    simp only [thrown]; rw [mem_thrown b, mem_thrown a, mem_thrown b (thrown ty [] a), or_assoc]
  | .while _ b, T => by simp only [thrown]; rw [mem_thrown b]
  | .for i _ s b, T => by
    simp only [thrown]
    rw [mem_thrown b, mem_thrown s, mem_thrown i, mem_thrown b (thrown ty (thrown ty [] i) s), mem_thrown s (thrown ty [] i)]
    simp only [or_assoc]
  | .foreach _ _ _ b, T => by simp only [thrown]; rw [mem_thrown b]
  | .foreachIt _ _ _ _ _ b, T => by simp only [thrown]; rw [mem_thrown b]
  | .switch _ cs d, T => by
    simp only [thrown]
    rw [mem_thrownList d, mem_thrownCases cs, mem_thrownList d (thrownCases ty [] cs), or_assoc]
  | .try _ _ _, T => by simp only [thrown, List.mem_append, List.not_mem_nil, or_false]
  | .block b, T => by simp only [thrown]; rw [mem_thrownList b]

theorem mem_thrownList {ty : Expr A → Name} {t : Name} : ∀ (b : List (Stmt A)) (T : List Name),
    t ∈ thrownList ty T b ↔ t ∈ thrownList ty [] b ∨ t ∈ T
  | [], T => by simp [thrownList]
  | st :: b, T => by
    simp only [thrownList]
    rw [mem_thrownList b, mem_thrown st, mem_thrownList b (thrown ty [] st), or_assoc]

theorem mem_thrownCases {ty : Expr A → Name} {t : Name} : ∀ (cs : List (Expr A × List (Stmt A))) (T : List Name),
    t ∈ thrownCases ty T cs ↔ t ∈ thrownCases ty [] cs ∨ t ∈ T
  | [], T => by simp [thrownCases]
  | (_, b) :: cs, T => by
    simp only [thrownCases]
    rw [mem_thrownCases cs, mem_thrownList b, mem_thrownCases cs (thrownList ty [] b), or_assoc]

end

/-! ## The induction -/

variable (P : Prim A) (G : Prog A) (U : Event → Prop) (sig : Method A → Sig A)

/-- An expression only throws unchecked exceptions. -/
def OutOk {α : Type} : Out A α → Prop
  | .val _ => True
  | .thr x => Unchecked P G sig x

/-- An exception of a statement is unchecked, or one of the given types. -/
def CompOk (T : Name → Prop) (c : Comp A) : Prop := ∀ x, c = .thr x → Unchecked P G sig x ∨ ∃ t, T t ∧ P.isA t x = true

/-- Every method of the program passes the check, or is marked with `throws`. -/
def Checked : Prop := ∀ m b, InProg G m → m.code = .body b →
  EveryOf (Careful P G U (sig m).ty) b ∧ ((sig m).throws = true ∨ thrownList (sig m).ty [] b = [])

variable {P G U sig}

theorem CompOk.weaken {T T' : Name → Prop} {c : Comp A} (h : CompOk P G sig T c) (hT : ∀ t, T t → T' t) : CompOk P G sig T' c :=
  fun x hx => (h x hx).imp id fun ⟨t, ht, hi⟩ => ⟨t, hT t ht, hi⟩

theorem CompOk.quiet {T : Name → Prop} {c : Comp A} (h : ∀ x, c ≠ .thr x) : CompOk P G sig T c := fun x hx => (h x hx).elim

theorem CompOk.normal {T : Name → Prop} : CompOk P G sig T .normal := .quiet nofun
theorem CompOk.brk {T : Name → Prop} : CompOk P G sig T .brk := .quiet nofun
theorem CompOk.cont {T : Name → Prop} : CompOk P G sig T .cont := .quiet nofun
theorem CompOk.ret {T : Name → Prop} {v : Option (Value A)} : CompOk P G sig T (.ret v) := .quiet nofun

theorem OutOk.comp {T : Name → Prop} {x : Value A} (h : OutOk P G sig (.thr x : Out A (Value A))) : CompOk P G sig T (.thr x) := by
  intro y hy; cases hy; exact .inl h

theorem methodOf_in {r : Option (Name × Nat)} {f : Name} {vs : List (Value A)} {m : Bound A} (h : methodOf G r f vs = some m) : InProg G m.1 := by
  have glob : ∀ {m : Bound A}, (G.method none f vs).map (fun m => (m, (none : Option (Name × Nat)))) = some m → InProg G m.1 := by
    intro m h
    obtain ⟨m', hm', rfl⟩ := Option.map_eq_some_iff.1 h
    exact .inl ⟨_, _, _, hm'⟩
  cases r with
  | none => exact glob h
  | some co =>
    obtain ⟨cls, o⟩ := co
    simp only [methodOf] at h
    cases hm : G.method (some cls) f vs with
    | some m' => rw [hm] at h; cases h; exact .inl ⟨_, _, _, hm⟩
    | none => rw [hm] at h; exact glob h

theorem callee_in {σ : State A} {path : List Name} {f : Name} {vs : List (Value A)} {m : Bound A} (h : σ.callee G path f vs = some m) :
    InProg G m.1 := by
  cases path with
  | nil => exact methodOf_in h
  | cons x xs =>
    simp only [State.callee, State.calleeVia] at h
    cases hn : σ.name x with
    | none => rw [hn] at h; cases h
    | some wv =>
      rw [hn] at h
      obtain ⟨w, v⟩ := wv
      dsimp only at h
      cases hp : σ.fieldPath v xs with
      | none => rw [hp] at h; cases h
      | some u =>
        rw [hp] at h
        cases u with
        | obj cls o => exact methodOf_in h
        | _ => cases h

/-- An exception that no clause handles is still counted after the clauses. -/
theorem uncaught_counted {ty : Expr A → Name} {t : Name} {x : Value A} (ht : P.isA t x = true) :
    ∀ (cs : List (Option (Name × Name) × List (Stmt A))) (T : List Name), clause P x cs = none → t ∈ T →
      t ∈ thrownCatches ty T cs
  | [], T, _, h => by rw [thrownCatches]; exact h
  | (none, b) :: cs, T, hc, h => by simp [clause] at hc
  | (some (u, y), b) :: cs, T, hc, h => by
    rw [clause, List.find?_cons] at hc
    dsimp only at hc
    cases hu : P.isA u x with
    | true => rw [hu] at hc; cases hc
    | false =>
      rw [hu] at hc
      rw [thrownCatches]
      refine uncaught_counted ht cs _ hc ?_
      rw [mem_thrownList]
      refine .inr (List.mem_filter.2 ⟨h, ?_⟩)
      rw [bne_iff_ne]
      rintro rfl
      rw [ht] at hu; cases hu

theorem clause_mem {x : Value A} {cs : List (Option (Name × Name) × List (Stmt A))} {c : Option (Name × Name) × List (Stmt A)}
    (h : clause P x cs = some c) : c ∈ cs := List.mem_of_find?_eq_some h

variable (P G U sig)

def ListOk (b : List (Stmt A)) (c : Comp A) : Prop :=
  ∀ ty, EveryOf (Careful P G U ty) b → CompOk P G sig (· ∈ thrownList ty [] b) c

def StmtOk (st : Stmt A) (c : Comp A) : Prop :=
  ∀ ty, Every (Careful P G U ty) st → CompOk P G sig (· ∈ thrown ty [] st) c

def GuardOk (b : List (Stmt A)) (cs : List (Option (Name × Name) × List (Stmt A))) (c : Comp A) : Prop :=
  ∀ ty, EveryOf (Careful P G U ty) b → EveryCatch (Careful P G U ty) cs → (∀ c ∈ cs, thrownList ty [] c.2 = []) →
    CompOk P G sig (fun t => cs ≠ [] ∧ t ∈ thrownCatches ty (thrownList ty [] b) cs) c

def ForOk (iter b : Stmt A) (c : Comp A) : Prop :=
  ∀ ty, Every (Careful P G U ty) iter → Every (Careful P G U ty) b →
    CompOk P G sig (fun t => t ∈ thrown ty [] iter ∨ t ∈ thrown ty [] b) c

def CasesOk (cs : List (Expr A × List (Stmt A))) (d : List (Stmt A)) (c : Comp A) : Prop :=
  ∀ ty, EveryCase (Careful P G U ty) cs → EveryOf (Careful P G U ty) d →
    CompOk P G sig (fun t => t ∈ thrownCases ty [] cs ∨ t ∈ thrownList ty [] d) c

variable {P G U sig}

theorem run_ok (hG : Checked P G U sig) {σ σ' : State A} {m : Method A} {self : Option (Name × Nat)} {vs : List (Value A)} {c : Comp A}
    (hd : Run P G U σ m self vs c σ') : InProg G m → ∀ x, c = .thr x → Unchecked P G sig x := by
  refine Run.rec (motive_1 := fun _ _ o _ _ => OutOk P G sig o) (motive_2 := fun _ _ o _ _ => OutOk P G sig o)
      (motive_3 := fun _ _ _ _ o _ _ => OutOk P G sig o) (motive_4 := fun _ _ _ _ o _ _ => OutOk P G sig o)
      (motive_5 := fun _ m _ o _ _ => InProg G m.1 → OutOk P G sig o)
      (motive_6 := fun _ m _ _ c _ _ => InProg G m → ∀ x, c = .thr x → Unchecked P G sig x)
      (motive_7 := fun _ _ b c _ _ => ListOk P G U sig b c) (motive_8 := fun _ _ b c _ _ => ListOk P G U sig b c)
      (motive_9 := fun _ _ st c _ _ => StmtOk P G U sig st c) (motive_10 := fun _ _ b cs c _ _ => GuardOk P G U sig b cs c)
      (motive_11 := fun _ _ _ it b d _ _ => ForOk P G U sig it b d) (motive_12 := fun _ _ _ _ => True)
      (motive_13 := fun _ _ _ _ _ b d _ _ => StmtOk P G U sig b d) (motive_14 := fun _ _ _ _ => True)
      (motive_15 := fun _ _ o _ _ => OutOk P G sig o) (motive_16 := fun _ _ _ cs df d _ _ => CasesOk P G U sig cs df d)
      (motive_17 := fun _ _ _ cs df d _ _ => CasesOk P G U sig cs df d)
      ?_ ?_ ?_ ?_ ?_ ?_ ?_ ?_ ?_ ?_ ?_ ?_ ?_ ?_ ?_ ?_ ?_ ?_ ?_ ?_ ?_ ?_ ?_ ?_ ?_ ?_ ?_ ?_ ?_ ?_ ?_ ?_ ?_ ?_ ?_ ?_ ?_ ?_ ?_ ?_ ?_ ?_ ?_ ?_ ?_ ?_ ?_ ?_ ?_ ?_ ?_ ?_ ?_ ?_ ?_ ?_ ?_ ?_ ?_ ?_ ?_ ?_ ?_ ?_ ?_ ?_ ?_ ?_ ?_ ?_ ?_ ?_ ?_ ?_ ?_ ?_ ?_ ?_ ?_ ?_ ?_ ?_ ?_ ?_ ?_ ?_ ?_ ?_ ?_ ?_ ?_ ?_ ?_ ?_ ?_ ?_ ?_ ?_ ?_ ?_ ?_ ?_ ?_ ?_ ?_ ?_ ?_ ?_ ?_ ?_ ?_ ?_ ?_ ?_ ?_ ?_ ?_ ?_ ?_ ?_ ?_ ?_ ?_ ?_ ?_ ?_ ?_ ?_ ?_ ?_ ?_ hd
  all_goals first
    | (intros; trivial)
    | (intros; assumption)
    | (intros; exact Unchecked.null _)
    | (intros; exact fun _ _ => OutOk.comp (by assumption))
    | (intros; exact fun _ _ => CompOk.normal)
    | (intros; exact fun _ _ => CompOk.brk)
    | (intros; exact fun _ _ => CompOk.cont)
    | (intros; exact fun _ _ => CompOk.ret)
    | (intros; exact fun _ _ _ => OutOk.comp (by assumption))
    | (intros; exact fun _ _ _ => CompOk.normal)
    | (intros; exact fun _ _ => CompOk.quiet (by assumption))
    | (intros; exact fun _ _ _ _ => CompOk.quiet (by assumption))
    | (intros; exact fun _ _ _ _ => CompOk.normal)
    | skip
  · intros; rename_i hm _ _ _ ih; exact ih (.inr ⟨_, _, hm⟩) _ rfl
  · intros; rename_i hm _ _ _ _ ih; exact ih (methodOf_in hm)
  · intro σ σ' c cls i w x m hm _ _ ih; exact ih (methodOf_in hm) x rfl
  · intros; rename_i hm _ ih; exact ih (callee_in hm)
  · intro σ m vs g x hc hx hm; exact .native hm hc hx
  · intro σ σ' m vs x _ ih hm; exact ih hm x rfl
  · intro σ σ' m self vs b c hb _ ih hm x hx
    obtain ⟨hcare, hth⟩ := hG m b hm hb
    rcases ih _ hcare x hx with h | ⟨t, ht, hi⟩
    · exact h
    · rcases hth with hth | hth
      · exact .declared hm hb hth ht hi
      · rw [hth] at ht; cases ht
  · intro h σ σ₁ σ₂ st b c _ _ _ ih ty he
    rw [EveryOf] at he
    refine (ih ty he.2).weaken fun t ht => ?_
    rw [thrownList, mem_thrownList]; exact .inl ht
  · intro h σ σ₁ st b c _ _ ih ty he
    rw [EveryOf] at he
    refine (ih ty he.1).weaken fun t ht => ?_
    rw [thrownList, mem_thrownList]; exact .inr ht
  · intro h σ σ' e v hev _ ty he x hx
    cases hx
    exact .inr ⟨ty e, by rw [thrown]; exact List.mem_cons_self, he.here _ _ _ hev⟩
  · intro σ x _ ty he; exact he.here.elim
  · intro h σ σ₁ σ₂ c t e v d _ _ _ _ ih ty he
    rw [Every] at he
    refine (ih ty he.2.1).weaken fun t ht => ?_
    rw [thrown, mem_thrown]; exact .inr ht
  · intro h σ σ₁ σ₂ c t e v d _ _ _ _ ih ty he
    rw [Every] at he
    refine (ih ty he.2.2).weaken fun t ht => ?_
    rw [thrown, mem_thrown]; exact .inl ht
  · intro h σ σ₁ σ₂ c b v d _ _ _ _ _ ih ty he
    rw [Every] at he
    refine (ih ty he.2).weaken fun t ht => ?_
    rw [thrown]; exact ht
  · intro h σ σ₁ σ₂ init c iter b d _ _ _ ih ty he
    rw [Every] at he
    refine (ih ty he.2.2.1 he.2.2.2).weaken fun t ht => ?_
    rw [thrown, mem_thrown, mem_thrown iter]
    rcases ht with ht | ht
    · exact .inr (.inl ht)
    · exact .inl ht
  · intro h σ σ₁ init c iter b d _ _ _ ih ty he
    rw [Every] at he
    refine (ih ty he.2.1).weaken fun t ht => ?_
    rw [thrown, mem_thrown, mem_thrown iter]
    exact .inr (.inr ht)
  · intro h σ σ₁ σ₂ σ₃ ty' x coll b cls i it m d _ _ _ _ _ _ ih ty he
    rw [Every] at he
    refine (ih ty he.2).weaken fun t ht => ?_
    rw [thrown]; exact ht
  · intro h σ σ₁ σ₂ ty' x coll b cls i m y _ hm _ _ _ ih ty _
    exact OutOk.comp (ih (methodOf_in hm))
  · intro h σ σ₁ σ₂ ty' x path f args b it d _ _ _ ih ty he
    rw [Every] at he
    refine (ih ty he.2).weaken fun t ht => ?_
    rw [thrown]; exact ht
  · intro h σ σ₁ e cases dflt d _ _ ih ty he
    rw [Every] at he
    refine (ih ty he.2.1 he.2.2).weaken fun t ht => ?_
    rw [thrown, mem_thrownList]; exact ht.symm
  · intro h σ σ₁ b catches d _ ih ty he
    have hh := he.here
    rw [Every] at he
    refine (ih ty he.2.1 he.2.2.1 hh.1).weaken fun t ht => ?_
    rw [thrown, if_neg (by simpa using ht.1), List.append_nil, thrownOpt]
    exact ht.2
  · intro h σ σ₁ σ₂ b f catches d _ _ _ _ ih _ ty he
    have hh := he.here
    rw [Every] at he
    refine (ih ty he.2.1 he.2.2.1 hh.1).weaken fun t ht => ?_
    rw [thrown, if_neg (by simpa using ht.1), List.append_nil, thrownOpt, mem_thrownList]
    exact .inr ht.2
  · intro h σ σ₁ σ₂ b f catches d d' _ _ _ _ ih ty he
    have hh := he.here.2 f rfl
    rw [Every, EveryOpt] at he
    refine (ih ty he.2.2.2).weaken fun t ht => ?_
    rw [hh] at ht; cases ht
  · intro h σ σ₁ b d _ ih ty he
    rw [Every] at he
    refine (ih ty he.2).weaken fun t ht => ?_
    rw [thrown]; exact ht
  · intro h σ σ₁ b catches x _ hne hc ih ty he _ _ y hy
    cases hy
    rcases ih ty he x rfl with h | ⟨t, ht, hi⟩
    · exact .inl h
    · exact .inr ⟨t, ⟨hne, uncaught_counted hi _ _ hc ht⟩, hi⟩
  · intro h σ σ₁ σ₂ b b' catches x decl vars d _ hc _ _ _ ih ty _ hcs hq
    refine (ih ty (hcs.mem _ (clause_mem hc))).weaken fun t ht => ?_
    rw [hq _ (clause_mem hc)] at ht; cases ht
  · intro h σ σ₁ σ₂ σ₃ c iter b d d' _ _ _ _ _ _ _ _ ih ty hi _
    exact (ih ty hi).weaken fun t ht => .inl ht
  · intro h σ σ₁ σ₂ c iter b d _ _ _ _ _ ih ty _ hb
    exact (ih ty hb).weaken fun t ht => .inr ht
  · intro h σ σ₁ ty' x cls i b m y hm _ _ ih ty _
    exact OutOk.comp (ih (methodOf_in hm))
  · intro σ σ₁ cls i m o hm _ ih; exact ih (methodOf_in hm)
  · intro h σ σ₁ e dflt d _ ih ty _ hd
    exact (ih ty hd).weaken fun t ht => .inr ht
  · intro h σ σ₁ v dflt d _ ih ty _ hd
    exact (ih ty hd).weaken fun t ht => .inr ht
  · intro h σ σ₁ σ₂ σ₃ v w e b cases dflt d _ _ _ _ _ ih ty hc _
    rw [EveryCase] at hc
    refine (ih ty hc.1).weaken fun t ht => ?_
    rw [thrownCases, mem_thrownCases]; exact .inl (.inr ht)
  · intro h σ σ₁ σ₂ σ₃ v w e b cases dflt d _ _ _ _ _ ih ty hc hd
    rw [EveryCase] at hc
    refine (ih ty hc.2 hd).weaken fun t ht => ?_
    rw [thrownCases, mem_thrownCases]
    exact ht.imp .inl id

end Throws
end Check
end Verif
