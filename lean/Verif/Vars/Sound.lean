import Verif.Vars.Inv

/-!
# Careful programs keep the invariant
-/

namespace Verif.Vars

/-- Errors that are left. -/
def Benign (e : Err) : Prop :=
  e = .invalidOperation ∨ e = .memberOfNull ∨ e = .outOfFuel

def Good {α : Type} (r : Res α) (Q : α → State → Prop) : Prop :=
  match r with
  | .ok a σ => Q a σ
  | .err e => Benign e

theorem Good.bind {α β : Type} {r : Res α} {Q : α → State → Prop} {k : α → State → Res β}
    {R : β → State → Prop} (h : Good r Q) (hk : ∀ a τ, Q a τ → Good (k a τ) R) :
    Good (r.bind k) R := by
  cases r with
  | ok a σ => exact hk a σ h
  | err e => exact h

theorem Good.ok {α : Type} {r : Res α} {Q : α → State → Prop} (h : Good r Q) {a : α} {σ : State}
    (hr : r = .ok a σ) : Q a σ := by
  rw [hr] at h
  exact h

/-! ## Classes -/

theorem mem_of_findClass {cs : List ClassDecl} {n : String} {c : ClassDecl}
    (h : findClass cs n = some c) : c ∈ cs ∧ c.name = n := by
  have h1 := List.mem_of_find?_eq_some h
  have h2 := List.find?_some h
  exact ⟨h1, by simpa using h2⟩

theorem classTo_descends {P : Program} {m n : String} (h : classTo P m n = true) :
    Descends P n m := by
  unfold classTo at h
  by_cases hmn : m = n
  · subst hmn
    exact .refl _
  · cases hf : findClass P.classes n with
    | none => simp [hmn, hf] at h
    | some c =>
      simp [hmn, hf] at h
      obtain ⟨a, ha, hn⟩ := h
      obtain ⟨hc, hcn⟩ := mem_of_findClass hf
      exact .step ⟨c, hc, hcn, a, ha, hn⟩ (.refl _)

theorem fieldsOf_mem {cs : List ClassDecl} {d : String} {f : String × Ty × Bool}
    (h : f ∈ fieldsOf cs d) : ∃ c ∈ cs, f ∈ c.fields := by
  induction cs generalizing d with
  | nil => simp [fieldsOf] at h
  | cons c cs ih =>
    unfold fieldsOf at h
    split at h
    · rw [List.mem_append] at h
      rcases h with h | h
      · exact ⟨c, by simp, h⟩
      · rw [List.mem_flatMap] at h
        obtain ⟨a, -, ha⟩ := h
        split at ha
        · obtain ⟨c', hc', hf'⟩ := ih ha
          exact ⟨c', by simp [hc'], hf'⟩
        · cases ha
    · obtain ⟨c', hc', hf'⟩ := ih h
      exact ⟨c', by simp [hc'], hf'⟩

theorem fieldType_mem {P : Program} {d f : String} {t : Ty} (h : fieldType P d f = some t) :
    ∃ p ∈ fieldsOf P.classes d, p.1 = f := by
  unfold fieldType at h
  cases hf : (fieldsOf P.classes d).find? (fun p => p.1 == f) with
  | none => rw [hf] at h; cases h
  | some p => exact ⟨p, List.mem_of_find?_eq_some hf, by simpa using List.find?_some hf⟩

theorem fieldType_descends {P : Program} (hh : noHiding P = true) {d n f : String} {t : Ty}
    (hd : Descends P d n) (h : fieldType P n f = some t) : fieldType P d f = some t := by
  induction hd with
  | refl => exact h
  | @step d m n hp _ ih =>
    have hm := ih h
    obtain ⟨c, hc, rfl, a, ha, rfl⟩ := hp
    obtain ⟨p, hp, rfl⟩ := fieldType_mem hm
    unfold noHiding at hh
    rw [List.all_eq_true] at hh
    have h1 := hh c hc
    rw [List.all_eq_true] at h1
    have h2 := h1 a ha
    rw [List.all_eq_true] at h2
    have h3 := h2 p hp
    rw [decide_eq_true_eq] at h3
    rw [h3]
    exact hm

theorem known_ne {P : Program} {t : Ty} (h : known P t = true) : t ≠ .anon := by
  rintro rfl
  cases h

/-! ## Places -/

theorem path_ok {q : Bool} {P : Program} (hh : noHiding P = true) {Γ : Env} {σ : State}
    (I : Inv q P Γ σ) : ∀ (fs : List String) (l : Loc) (s t : Ty), LocTy P Γ σ.heap l s →
    pathType P s fs = some t →
    (∃ l', resolveFields σ l fs = .ok l' ∧ LocTy P Γ σ.heap l' t) ∨
      resolveFields σ l fs = .error .memberOfNull := by
  intro fs
  induction fs with
  | nil =>
    intro l s t hl ht
    have hst : s = t := by
      cases s <;> simpa [pathType] using ht
    subst hst
    obtain ⟨c, hc, -⟩ := I.read hl
    exact .inl ⟨l, by simp [resolveFields, hc], hl⟩
  | cons f fs ih =>
    intro l s t hl ht
    obtain ⟨c, hc, hk⟩ := I.read hl
    cases s with
    | anon => cases ht
    | atom a => cases ht
    | cls n =>
      have ht' : (fieldType P n f).bind (fun t => pathType P t fs) = some t := ht
      cases hf : fieldType P n f with
      | none => rw [hf] at ht'; cases ht'
      | some u =>
        rw [hf] at ht'
        unfold resolveFields
        rw [hc]
        dsimp only
        by_cases h0 : c.ref = 0
        · rw [if_pos h0]
          exact .inr rfl
        · rw [if_neg h0]
          obtain ⟨-, -, -, k4⟩ := hk
          obtain ⟨o, d, ho, hd, hdd, -⟩ := k4 h0
          exact ih _ u t ⟨o, d, ho, hd, fieldType_descends hh hdd hf⟩ ht'

/-! ## Variables not mentioned -/

theorem typeOf_weaken (W : World) (P : Program) (Γ : Env) (x : String) (t : Ty) :
    ∀ e, mentions x e = false → typeOf W P ((x, t) :: Γ) e = typeOf W P Γ e := by
  intro e
  induction e with
  | lit => intro _; rfl
  | null => intro _; rfl
  | newObj => intro _; rfl
  | place y fs =>
    intro h
    have : ¬ x = y := by rintro rfl; simp [mentions] at h
    simp only [typeOf, Env.get_cons, if_neg this]
  | newAtom a e ih => intro h; simp only [typeOf, ih h]
  | cast u e ih => intro h; simp only [typeOf, ih h]
  | ccast u e ih => intro h; simp only [typeOf, ih h]
  | call f e ih => intro h; simp only [typeOf, ih h]
  | is e c ih => intro h; simp only [typeOf, ih h]
  | eq l r ihl ihr =>
    intro h
    simp only [mentions, Bool.or_eq_false_iff] at h
    simp only [typeOf, ihl h.1, ihr h.2]
  | assign y fs e ih =>
    intro h
    simp only [mentions, Bool.or_eq_false_iff] at h
    have : ¬ x = y := by rintro rfl; simp at h
    simp only [typeOf, Env.get_cons, if_neg this, ih h.2]

theorem careful_weaken (q : Bool) (W : World) (P : Program) (Γ : Env) (x : String) (t : Ty) :
    ∀ e, mentions x e = false → careful q W P ((x, t) :: Γ) e = careful q W P Γ e := by
  intro e
  induction e with
  | lit => intro _; rfl
  | null => intro _; rfl
  | newObj => intro _; rfl
  | place y fs => intro _; rfl
  | newAtom a e ih => intro h; simp only [careful, ih h]
  | cast u e ih => intro h; simp only [careful, ih h]
  | ccast u e ih =>
    intro h
    have h' : mentions x e = false := h
    simp only [careful, ih h', typeOf_weaken W P Γ x t e h']
  | call f e ih => intro h; simp only [careful, ih h]
  | is e c ih => intro h; simp only [careful, ih h]
  | eq l r ihl ihr =>
    intro h
    simp only [mentions, Bool.or_eq_false_iff] at h
    simp only [careful, ihl h.1, ihr h.2]
  | assign y fs e ih =>
    intro h
    simp only [mentions, Bool.or_eq_false_iff] at h
    simp only [careful, ih h.2]

/-! ## Blocks -/

theorem checkStmt_extends {W : World} {P : Program} {Γ Δ : Env} {s : Stmt}
    (h : checkStmt W P Γ s = some Δ) : ∃ Θ, Δ = Θ ++ Γ := by
  cases s with
  | decl t x b init =>
    simp only [checkStmt] at h
    split at h
    · cases h
    · split at h
      · split at h
        · split at h
          · cases h; exact ⟨[(x, t)], rfl⟩
          · cases h
        · cases h
      · split at h
        · cases h
        · cases h; exact ⟨[(x, t)], rfl⟩
  | inferred t x b e =>
    simp only [checkStmt] at h
    split at h
    · cases h; exact ⟨[(x, t)], rfl⟩
    · cases h
  | expr e =>
    simp only [checkStmt] at h
    cases ht : typeOf W P Γ e with
    | none => rw [ht] at h; cases h
    | some t => rw [ht] at h; cases h; exact ⟨[], rfl⟩
  | ite e s t =>
    simp only [checkStmt] at h
    split at h
    · cases h; exact ⟨[], rfl⟩
    · cases h
  | «while» e s =>
    simp only [checkStmt] at h
    split at h
    · cases h; exact ⟨[], rfl⟩
    · cases h

theorem check_extends {W : World} {P : Program} {ss : List Stmt} {Γ Δ : Env}
    (h : check W P Γ ss = some Δ) : ∃ Θ, Δ = Θ ++ Γ := by
  induction ss generalizing Γ with
  | nil => simp only [check] at h; cases h; exact ⟨[], rfl⟩
  | cons s ss ih =>
    simp only [check] at h
    cases hs : checkStmt W P Γ s with
    | none => rw [hs] at h; cases h
    | some Θ =>
      rw [hs] at h
      obtain ⟨A, hA⟩ := ih h
      obtain ⟨B, hB⟩ := checkStmt_extends hs
      exact ⟨A ++ B, by rw [hA, hB, List.append_assoc]⟩

theorem leave_ok {q : Bool} {P : Program} {Γ Θ : Env} {σ τ : State}
    (hσ : σ.vars.length = Γ.length) (I : Inv q P (Θ ++ Γ) τ) : Inv q P Γ (leave σ τ) := by
  refine ⟨I.heap, ?_⟩
  have hl := I.vars.length
  have h := I.vars.drop (τ.vars.length - σ.vars.length)
  have hk : τ.vars.length - σ.vars.length = Θ.length := by
    rw [hl, hσ, List.length_append]
    omega
  rw [hk, List.drop_left] at h
  show Match _ (List.drop (τ.vars.length - σ.vars.length) τ.vars) Γ
  rw [hk]
  exact h

/-! ## Evaluation -/

theorem new_ok {q : Bool} {W : World} {P : Program} (hP : CarefulProgram q W P) {Γ : Env}
    {σ : State} (I : Inv q P Γ σ) (c : String) :
    Inv q P Γ (newObject P.classes c σ).2 ∧ Ext σ.heap (newObject P.classes c σ).2.heap ∧
      CellOk q P (newObject P.classes c σ).2.heap (newObject P.classes c σ).1 (.cls c) := by
  obtain ⟨hc, -, -, hq⟩ := hP
  unfold checkProgram at hc
  simp only [Bool.and_eq_true, List.all_eq_true] at hc
  have hk : ∀ f ∈ fieldsOf P.classes c, f.2.1 ≠ Ty.anon := by
    intro f hf
    obtain ⟨d, hd, hfd⟩ := fieldsOf_mem hf
    exact known_ne (hc.1.2 d hd f hfd)
  have hq' : q = true → ∀ f ∈ fieldsOf P.classes c, f.2.2 = true → isAtomTy f.2.1 = false := by
    intro h f hf
    obtain ⟨d, hd, hfd⟩ := fieldsOf_mem hf
    exact hq h d hd f hfd
  unfold newObject
  dsimp only
  have E := Ext.append σ.heap [(⟨⟨.cls c, .cls c, true, σ.heap.length + 1, 0,
    upsOf P.classes c⟩, (fieldsOf P.classes c).map (fun f => (f.1, create f.2.1 f.2.2))⟩ : Obj)]
  refine ⟨⟨push_ok I.heap _ ⟨rfl, rfl, .inr ⟨c, rfl, rfl, rfl, match_create _ _ hk hq'⟩⟩,
    I.vars.mono (CellOk.mono E)⟩, E, rfl, ⟨c, rfl⟩, rfl, fun _ => ?_⟩
  exact ⟨_, c, objAt_push _ _, rfl, .refl _, fun _ => ⟨rfl, rfl⟩⟩

theorem newAtomic_ok {q : Bool} {P : Program} {Γ : Env} {σ : State} (I : Inv q P Γ σ)
    (hq : q = false) (a : Atom) (v : Int) :
    Inv q P Γ (newAtomic a v σ).2 ∧ Ext σ.heap (newAtomic a v σ).2.heap ∧
      CellOk q P (newAtomic a v σ).2.heap (newAtomic a v σ).1 (.atom a) := by
  unfold newAtomic
  dsimp only
  have E := Ext.append σ.heap
    [(⟨⟨.atom a, .atom a, true, σ.heap.length + 1, v, []⟩, []⟩ : Obj)]
  refine ⟨⟨push_ok I.heap _ ⟨rfl, rfl, .inl ⟨a, rfl⟩⟩, I.vars.mono (CellOk.mono E)⟩, E,
    rfl, rfl, fun h => ?_, fun _ => ⟨_, objAt_push _ _, rfl⟩⟩
  rw [hq] at h
  cases h

/-- What holds after an expression of type `t`. -/
def After (q : Bool) (P : Program) (Γ : Env) (σ : State) (t : Ty) (c : Cell) (τ : State) : Prop :=
  Inv q P Γ τ ∧ Ext σ.heap τ.heap ∧ CellOk q P τ.heap c t

theorem After.trans {q : Bool} {P : Program} {Γ : Env} {σ τ υ : State} {s t : Ty} {c d : Cell}
    (h : After q P Γ σ s c τ) (k : After q P Γ τ t d υ) : After q P Γ σ t d υ :=
  ⟨k.1, h.2.1.trans k.2.1, k.2.2⟩

theorem bool_ok (q : Bool) (P : Program) (h : List Obj) (v : Int) :
    CellOk q P h (atomic .bool v) (.atom .bool) :=
  ⟨rfl, rfl, fun _ => ⟨rfl, rfl⟩, fun h => absurd rfl h⟩

theorem findFn_some {P : Program} {f : String} {s : Ty} {d : Fn} (h : findFn P f s = some d) :
    d ∈ P.fns ∧ d.ptype = s := by
  have h1 := List.mem_of_find?_eq_some h
  have h2 := List.find?_some h
  simp at h2
  exact ⟨h1, h2.2⟩

theorem castable_fits {W : World} {P : Program} {t s : Ty} (h : castable W P t s = true) :
    (∃ m n, t = .cls m ∧ s = .cls n ∧ Descends P n m) ∨ (∃ a b, t = .atom a ∧ s = .atom b) := by
  cases t <;> cases s <;> simp [castable] at h
  · exact .inr ⟨_, _, rfl, rfl⟩
  · exact .inl ⟨_, _, rfl, rfl, classTo_descends h⟩

theorem assignable_fits {W : World} {P : Program} {t s : Ty} (h : assignable W P t s = true) :
    Fits P t s ∨ ∃ a b, t = .atom a ∧ s = .atom b := by
  cases t <;> cases s <;> simp [assignable] at h
  · exact .inr ⟨_, _, rfl, rfl⟩
  · exact .inl (classTo_descends h)

theorem binAssign_good {q : Bool} {W : World} {P : Program} {Γ : Env} {σ : State}
    (I : Inv q P Γ σ) {l : Loc} {t s : Ty} (hl : LocTy P Γ σ.heap l t) {r : Cell}
    (hr : CellOk q P σ.heap r s) (hf : Fits P t s ∨ ∃ a b, t = .atom a ∧ s = .atom b) :
    Good (binAssign W σ l r) (fun _ τ => Inv q P Γ τ ∧ Ext σ.heap τ.heap) := by
  rcases I.binAssign (W := W) hl hr hf with ⟨σ', h, I', E⟩ | h
  · rw [h]
    exact ⟨I', E⟩
  · rw [h]
    exact .inl rfl

theorem Fits.refl {P : Program} {t : Ty} (h : t ≠ .anon) : Fits P t t := by
  cases t with
  | anon => exact absurd rfl h
  | atom a => rfl
  | cls n => exact Descends.refl n

theorem CellOk.ne {q : Bool} {P : Program} {h : List Obj} {c : Cell} {t : Ty}
    (k : CellOk q P h c t) : t ≠ .anon := by
  rintro rfl
  exact k

def EvalOk (q : Bool) (W : World) (P : Program) (n : Nat) : Prop :=
  ∀ e Γ σ t, Inv q P Γ σ → typeOf W P Γ e = some t → careful q W P Γ e = true →
    Good (eval W P n e σ) (After q P Γ σ t)

def StmtOk (q : Bool) (W : World) (P : Program) (n : Nat) : Prop :=
  ∀ s Γ σ Δ, Inv q P Γ σ → checkStmt W P Γ s = some Δ → carefulStmt q W P Γ s = true →
    Good (execStmt W P n s σ) (fun _ τ => Inv q P Δ τ ∧ Ext σ.heap τ.heap)

def ExecOk (q : Bool) (W : World) (P : Program) (n : Nat) : Prop :=
  ∀ ss Γ σ Δ, Inv q P Γ σ → check W P Γ ss = some Δ → carefulList q W P Γ ss = true →
    Good (exec W P n ss σ) (fun _ τ => Inv q P Δ τ ∧ Ext σ.heap τ.heap)

theorem eval_step {q : Bool} {W : World} {P : Program} (hP : CarefulProgram q W P) {n : Nat}
    (hE : EvalOk q W P n) (hX : ExecOk q W P n) : EvalOk q W P (n + 1) := by
  intro e Γ σ t I ht hc
  cases e with
  | lit a v =>
    simp only [typeOf, Option.some.injEq] at ht
    subst ht
    exact ⟨I, Ext.refl _, rfl, rfl, fun _ => ⟨rfl, rfl⟩, fun h => absurd rfl h⟩
  | null =>
    simp only [typeOf, Option.some.injEq] at ht
    subst ht
    exact ⟨I, Ext.refl _, rfl, ⟨_, rfl⟩, rfl, fun h => absurd rfl h⟩
  | place x fs =>
    simp only [typeOf] at ht
    cases hx : Γ.get x with
    | none => rw [hx] at ht; cases ht
    | some s =>
      rw [hx] at ht
      simp only [eval]
      rcases path_ok hP.2.1 I fs (.var x) s t hx ht with ⟨l, hl, hlt⟩ | hl
      · rw [show resolve σ x fs = _ from hl]
        obtain ⟨c, hc', hk⟩ := I.read hlt
        simp only [hc']
        exact ⟨I, Ext.refl _, hk⟩
      · rw [show resolve σ x fs = _ from hl]
        exact .inr (.inl rfl)
  | newObj c =>
    have htc : t = .cls c := by
      simp only [typeOf] at ht
      split at ht
      · split at ht
        · cases ht
        · cases ht; rfl
      · split at ht
        · cases ht; rfl
        · cases ht
    subst htc
    exact new_ok hP I c
  | newAtom a e =>
    simp only [typeOf] at ht
    split at ht
    · rename_i he
      cases ht
      simp only [careful, Bool.and_eq_true, Bool.not_eq_true'] at hc
      simp only [eval]
      refine (hE e Γ σ _ I he hc.2).bind fun c τ hA => ?_
      obtain ⟨I', E, -⟩ := hA
      obtain ⟨I2, E2, k2⟩ := newAtomic_ok I' hc.1 a (getValue τ.heap c)
      exact ⟨I2, E.trans E2, k2⟩
    · cases ht
  | cast u e =>
    simp only [typeOf] at ht
    split at ht
    · rename_i s he
      split at ht
      · rename_i hk
        cases ht
        simp only [Bool.and_eq_true] at hk
        simp only [careful] at hc
        simp only [eval]
        refine (hE e Γ σ _ I he hc).bind fun c τ hA => ?_
        obtain ⟨I', E, k⟩ := hA
        have hf := castable_fits hk.2
        obtain ⟨d, υ, hd, -, I2, E2, k2⟩ := cast_ok (W := W) I' k
          (hf.elim .inl (fun h => .inr (.inl h)))
        rw [hd, bind_ok]
        exact ⟨I2, E.trans E2, k2⟩
      · cases ht
    · cases ht
  | ccast u e =>
    simp only [typeOf] at ht
    split at ht
    · rename_i s he
      split at ht
      · rename_i hk
        cases ht
        simp only [careful, Bool.and_eq_true] at hc
        obtain ⟨hce, hcc⟩ := hc
        simp only [eval]
        by_cases hnull : e = .null ∧ ∃ m, t = .cls m
        · obtain ⟨rfl, m, rfl⟩ := hnull
          simp only [typeOf, Option.some.injEq] at he
          subst he
          cases n with
          | zero => exact .inr (.inr rfl)
          | succ n =>
            simp only [eval]
            rw [bind_ok]
            have k : CellOk q P σ.heap nullCell (.cls "Object") :=
              ⟨rfl, ⟨_, rfl⟩, rfl, fun h => absurd rfl h⟩
            obtain ⟨d, υ, hd, -, I2, E2, k2⟩ := cast_ok (W := W) (t := .cls m) I k
              (.inr (.inr ⟨m, rfl, rfl, rfl⟩))
            rw [hd, bind_ok]
            exact ⟨I2, E2, k2⟩
        · have hcast : castable W P t s = true := by
            split at hcc
            · exact absurd ⟨rfl, _, rfl⟩ hnull
            · rw [he] at hcc
              exact hcc
          refine (hE e Γ σ _ I he hce).bind fun c τ hA => ?_
          obtain ⟨I', E, k⟩ := hA
          have hf := castable_fits hcast
          obtain ⟨d, υ, hd, -, I2, E2, k2⟩ := cast_ok (W := W) I' k
            (hf.elim .inl (fun h => .inr (.inl h)))
          rw [hd, bind_ok]
          exact ⟨I2, E.trans E2, k2⟩
      · cases ht
    · cases ht
  | call f e =>
    simp only [typeOf] at ht
    split at ht
    · rename_i s he
      cases hfn : findFn P f s with
      | none => rw [hfn] at ht; cases ht
      | some d =>
        rw [hfn] at ht
        simp only [Option.map_some, Option.some.injEq] at ht
        subst ht
        simp only [careful] at hc
        simp only [eval]
        refine (hE e Γ σ _ I he hc).bind fun c τ hA => ?_
        obtain ⟨I', E, k⟩ := hA
        have ho : c.outer = s := by
          cases s with
          | anon => exact absurd k id
          | atom a => exact k.1
          | cls n => exact k.1
        rw [ho, hfn]
        dsimp only
        obtain ⟨hd, hps⟩ := findFn_some hfn
        subst hps
        obtain ⟨hcp, -, hcf, -⟩ := hP
        have hchk : checkFn W P d = true := by
          unfold checkProgram at hcp
          simp only [Bool.and_eq_true, List.all_eq_true] at hcp
          exact hcp.2 d hd
        unfold checkFn at hchk
        simp only [Bool.and_eq_true] at hchk
        obtain ⟨hcb, hcr⟩ := hcf d hd
        cases hbody : check W P [(d.param, d.ptype)] d.body with
        | none => rw [hbody] at hchk; cases hchk.2
        | some Δ =>
          rw [hbody] at hchk
          have hret : typeOf W P Δ d.result = some d.ret := by simpa using hchk.2
          have I0 : Inv q P [(d.param, d.ptype)]
              { τ with vars := [(d.param, bindParam τ.heap d.ptype c)] } :=
            ⟨I'.heap, .cons (bindParam_ok I'.heap k) .nil⟩
          refine (hX d.body _ _ Δ I0 hbody hcb).bind fun _ υ hB => ?_
          obtain ⟨I1, E1⟩ := hB
          refine (hE d.result Δ υ _ I1 hret (hcr Δ hbody)).bind fun r ω hC => ?_
          obtain ⟨I2, E2, k2⟩ := hC
          have Eall : Ext τ.heap ω.heap := Ext.trans E1 E2
          exact ⟨⟨I2.heap, I'.vars.mono (CellOk.mono Eall)⟩, E.trans Eall,
            anonAssign_ok I2.heap k2⟩
    · cases ht
  | is e m =>
    simp only [typeOf] at ht
    split at ht
    · rename_i s he
      split at ht
      · cases ht
        simp only [careful] at hc
        simp only [eval]
        refine (hE e Γ σ _ I he hc).bind fun c τ hA => ?_
        exact ⟨hA.1, hA.2.1, bool_ok _ _ _ _⟩
      · cases ht
    · cases ht
  | eq l r =>
    simp only [typeOf] at ht
    split at ht
    · rename_i s s' hl hr
      split at ht
      · cases ht
        simp only [careful, Bool.and_eq_true] at hc
        simp only [eval]
        refine (hE l Γ σ _ I hl hc.1).bind fun c τ hA => ?_
        refine (hE r Γ τ _ hA.1 hr hc.2).bind fun d υ hB => ?_
        exact ⟨hB.1, hA.2.1.trans hB.2.1, bool_ok _ _ _ _⟩
      · cases ht
    · cases ht
  | assign x fs e =>
    simp only [careful] at hc
    have hsplit : ∃ s u, (Γ.get x).bind (fun t => pathType P t fs) = some t ∧
        typeOf W P Γ e = some s ∧ u = s ∧ (t = s ∨ ∃ a b, t = .atom a ∧ s = .atom b) := by
      simp only [typeOf] at ht
      split at ht
      · rename_i a s h1 h2
        split at ht
        · rename_i h3
          cases ht
          refine ⟨s, s, h1, h2, rfl, .inr ?_⟩
          cases s <;> simp [assignable] at h3
          exact ⟨_, _, rfl, rfl⟩
        · cases ht
      · rename_i t' s h1 h2 h3
        split at ht
        · rename_i hts
          cases ht
          exact ⟨s, s, h2, h3, rfl, .inl hts⟩
        · cases ht
      · cases ht
    obtain ⟨s, -, hpt, hes, -, hts⟩ := hsplit
    cases hx : Γ.get x with
    | none => rw [hx] at hpt; cases hpt
    | some u =>
      rw [hx] at hpt
      simp only [eval]
      rcases path_ok hP.2.1 I fs (.var x) u t hx hpt with ⟨l, hl, hlt⟩ | hl
      · rw [show resolve σ x fs = _ from hl]
        dsimp only
        refine (hE e Γ σ _ I hes hc).bind fun r τ hA => ?_
        obtain ⟨I', E, k⟩ := hA
        have hlt' : LocTy P Γ τ.heap l t := hlt.mono E
        refine (binAssign_good (W := W) I' hlt' k ?_).bind fun _ υ hB => ?_
        · rcases hts with rfl | h
          · exact .inl (Fits.refl k.ne)
          · exact .inr h
        · obtain ⟨I2, E2⟩ := hB
          obtain ⟨c, hc', hk⟩ := I2.read (hlt'.mono E2)
          rw [hc']
          exact ⟨I2, E.trans E2, anonAssign_ok I2.heap hk⟩
      · rw [show resolve σ x fs = _ from hl]
        exact .inr (.inl rfl)

theorem typeOf_ne {q : Bool} {W : World} {P : Program} (hP : CarefulProgram q W P) {Γ : Env}
    {σ : State} (I : Inv q P Γ σ) : ∀ e t, typeOf W P Γ e = some t → t ≠ .anon := by
  obtain ⟨hc, -, -, -⟩ := hP
  unfold checkProgram at hc
  simp only [Bool.and_eq_true, List.all_eq_true] at hc
  have hpath : ∀ (fs : List String) (s t : Ty), s ≠ .anon → pathType P s fs = some t →
      t ≠ .anon := by
    intro fs
    induction fs with
    | nil =>
      intro s t hs ht
      have : s = t := by cases s <;> simpa [pathType] using ht
      rwa [← this]
    | cons f fs ih =>
      intro s t hs ht
      cases s with
      | anon => cases ht
      | atom a => cases ht
      | cls n =>
        have ht' : (fieldType P n f).bind (fun t => pathType P t fs) = some t := ht
        cases hf : fieldType P n f with
        | none => rw [hf] at ht'; cases ht'
        | some u =>
          rw [hf] at ht'
          refine ih u t ?_ ht'
          unfold fieldType at hf
          cases hp : (fieldsOf P.classes n).find? (fun p => p.1 == f) with
          | none => rw [hp] at hf; cases hf
          | some p =>
            rw [hp] at hf
            simp only [Option.map_some, Option.some.injEq] at hf
            obtain ⟨c, hcm, hpm⟩ := fieldsOf_mem (List.mem_of_find?_eq_some hp)
            rw [← hf]
            exact known_ne (hc.1.2 c hcm p hpm)
  have hplace : ∀ x fs t, (Γ.get x).bind (fun t => pathType P t fs) = some t → t ≠ .anon := by
    intro x fs t ht
    cases hx : Γ.get x with
    | none => rw [hx] at ht; cases ht
    | some s =>
      rw [hx] at ht
      obtain ⟨c, -, hk⟩ := I.vars.get hx
      exact hpath fs s t hk.ne ht
  intro e t ht
  cases e with
  | lit a v => simp only [typeOf, Option.some.injEq] at ht; subst ht; simp
  | null => simp only [typeOf, Option.some.injEq] at ht; subst ht; simp
  | place x fs => simp only [typeOf] at ht; exact hplace x fs t ht
  | newObj c =>
    simp only [typeOf] at ht
    split at ht
    · split at ht
      · cases ht
      · cases ht; simp
    · split at ht
      · cases ht; simp
      · cases ht
  | newAtom a e =>
    simp only [typeOf] at ht
    split at ht
    · cases ht; simp
    · cases ht
  | cast u e =>
    simp only [typeOf] at ht
    split at ht
    · split at ht
      · rename_i h
        cases ht
        simp only [Bool.and_eq_true] at h
        exact known_ne h.1
      · cases ht
    · cases ht
  | ccast u e =>
    simp only [typeOf] at ht
    split at ht
    · split at ht
      · rename_i h
        cases ht
        exact known_ne h
      · cases ht
    · cases ht
  | call f e =>
    simp only [typeOf] at ht
    split at ht
    · rename_i s he
      cases hfn : findFn P f s with
      | none => rw [hfn] at ht; cases ht
      | some d =>
        rw [hfn] at ht
        simp only [Option.map_some, Option.some.injEq] at ht
        subst ht
        have := hc.2 d (findFn_some hfn).1
        unfold checkFn at this
        simp only [Bool.and_eq_true] at this
        exact known_ne this.1.2
    · cases ht
  | is e c =>
    simp only [typeOf] at ht
    split at ht
    · split at ht
      · cases ht; simp
      · cases ht
    · cases ht
  | eq l r =>
    simp only [typeOf] at ht
    split at ht
    · split at ht
      · cases ht; simp
      · cases ht
    · cases ht
  | assign x fs e =>
    simp only [typeOf] at ht
    split at ht
    · split at ht
      · cases ht; simp
      · cases ht
    · rename_i h1 _
      split at ht
      · cases ht
        exact hplace x fs _ h1
      · cases ht
    · cases ht

theorem stmt_step {q : Bool} {W : World} {P : Program} (hP : CarefulProgram q W P) {n : Nat}
    (hE : EvalOk q W P n) (hS : StmtOk q W P n) (hX : ExecOk q W P n) :
    StmtOk q W P (n + 1) := by
  intro s Γ σ Δ I hck hcf
  cases s with
  | decl t x b init =>
    simp only [checkStmt] at hck
    split at hck
    · cases hck
    · rename_i hkn
      have hkn' : known P t = true := by simpa using hkn
      simp only [carefulStmt, Bool.and_eq_true, Bool.not_eq_true'] at hcf
      have hcell : CellOk q P σ.heap (create t b) t := by
        refine create_ok q P _ t b (known_ne hkn') ?_
        rintro rfl rfl
        simpa using hcf.1
      have I1 : Inv q P ((x, t) :: Γ) { σ with vars := (x, create t b) :: σ.vars } :=
        ⟨I.heap, .cons hcell I.vars⟩
      cases init with
      | none =>
        have : Δ = (x, t) :: Γ := by
          dsimp only at hck
          split at hck
          · cases hck
          · cases hck; rfl
        subst this
        exact ⟨I1, Ext.refl _⟩
      | some e =>
        dsimp only at hck
        split at hck
        · rename_i s he
          split at hck
          · rename_i has
            cases hck
            simp only [execStmt]
            refine (hE e _ _ _ I1 he hcf.2).bind fun r τ hA => ?_
            obtain ⟨I', E, k⟩ := hA
            have hl : LocTy P ((x, t) :: Γ) τ.heap (.var x) t := by
              show Env.get _ x = some t
              rw [Env.get_cons, if_pos rfl]
            have hg := binAssign_good (W := W) I' hl k (assignable_fits has)
            revert hg
            cases binAssign W τ (.var x) r with
            | err e => exact id
            | ok u υ => exact fun h => ⟨h.1, Ext.trans E h.2⟩
          · cases hck
        · cases hck
  | inferred t x b e =>
    simp only [checkStmt] at hck
    split at hck
    · rename_i he
      cases hck
      simp only [carefulStmt, Bool.and_eq_true, Bool.not_eq_true'] at hcf
      obtain ⟨⟨hq, hm⟩, hce⟩ := hcf
      simp only [execStmt]
      have ht := typeOf_ne hP I e t he
      · have hcell : CellOk q P σ.heap (create t b) t := by
          refine create_ok q P _ t b ht ?_
          rintro rfl rfl
          simpa using hq
        have I1 : Inv q P ((x, t) :: Γ) { σ with vars := (x, create t b) :: σ.vars } :=
          ⟨I.heap, .cons hcell I.vars⟩
        have he' := (typeOf_weaken W P Γ x t e hm).trans he
        have hce' := (careful_weaken q W P Γ x t e hm).trans hce
        refine (hE e _ _ _ I1 he' hce').bind fun r τ hA => ?_
        obtain ⟨I', E, k⟩ := hA
        have hl : LocTy P ((x, t) :: Γ) τ.heap (.var x) t := by
          show Env.get _ x = some t
          rw [Env.get_cons, if_pos rfl]
        have hg := binAssign_good (W := W) I' hl k (.inl (Fits.refl ht))
        revert hg
        cases binAssign W τ (.var x) r with
        | err e => exact id
        | ok u υ => exact fun h => ⟨h.1, Ext.trans E h.2⟩
    · cases hck
  | expr e =>
    simp only [checkStmt] at hck
    cases he : typeOf W P Γ e with
    | none => rw [he] at hck; cases hck
    | some t =>
      rw [he] at hck
      cases hck
      simp only [carefulStmt] at hcf
      simp only [execStmt]
      refine (hE e Γ σ _ I he hcf).bind fun c τ hA => ?_
      exact ⟨hA.1, hA.2.1⟩
  | ite e s t =>
    simp only [checkStmt] at hck
    split at hck
    · rename_i u Δ1 Δ2 he h1 h2
      cases hck
      simp only [carefulStmt, Bool.and_eq_true] at hcf
      simp only [execStmt]
      refine (hE e Γ σ _ I he hcf.1.1).bind fun c τ hA => ?_
      obtain ⟨I', E, -⟩ := hA
      have hlen := I'.vars.length
      by_cases hv : isValid W τ.heap c = true
      · rw [if_pos hv]
        refine (hX s Γ τ Δ1 I' h1 hcf.1.2).bind fun _ υ hB => ?_
        obtain ⟨Θ, rfl⟩ := check_extends h1
        exact ⟨leave_ok hlen hB.1, E.trans hB.2⟩
      · rw [if_neg hv]
        refine (hX t Γ τ Δ2 I' h2 hcf.2).bind fun _ υ hB => ?_
        obtain ⟨Θ, rfl⟩ := check_extends h2
        exact ⟨leave_ok hlen hB.1, E.trans hB.2⟩
    · cases hck
  | «while» e s =>
    have hck0 := hck
    simp only [checkStmt] at hck
    split at hck
    · rename_i u Δ1 he h1
      cases hck
      have hcf0 := hcf
      simp only [carefulStmt, Bool.and_eq_true] at hcf
      simp only [execStmt]
      refine (hE e Γ σ _ I he hcf.1).bind fun c τ hA => ?_
      obtain ⟨I', E, -⟩ := hA
      have hlen := I'.vars.length
      by_cases hv : isValid W τ.heap c = true
      · rw [if_pos hv]
        refine (hX s Γ τ Δ1 I' h1 hcf.2).bind fun _ υ hB => ?_
        obtain ⟨Θ, rfl⟩ := check_extends h1
        have I2 : Inv q P Γ (leave τ υ) := leave_ok hlen hB.1
        have hg := hS (.while e s) Γ (leave τ υ) Γ I2 hck0 hcf0
        revert hg
        cases execStmt W P n (.while e s) (leave τ υ) with
        | err e => exact id
        | ok u ω => exact fun h => ⟨h.1, (E.trans hB.2).trans h.2⟩
      · rw [if_neg hv]
        exact ⟨I', E⟩
    · cases hck

theorem exec_step {q : Bool} {W : World} {P : Program} {n : Nat}
    (hS : StmtOk q W P n) (hX : ExecOk q W P n) : ExecOk q W P (n + 1) := by
  intro ss Γ σ Δ I hck hcf
  cases ss with
  | nil =>
    simp only [check] at hck
    cases hck
    exact ⟨I, Ext.refl _⟩
  | cons s ss =>
    simp only [check] at hck
    cases hs : checkStmt W P Γ s with
    | none => rw [hs] at hck; cases hck
    | some Θ =>
      rw [hs] at hck
      simp only [carefulList, Bool.and_eq_true, hs] at hcf
      simp only [exec]
      refine (hS s Γ σ Θ I hs hcf.1).bind fun _ τ hA => ?_
      have hg := hX ss Θ τ Δ hA.1 hck hcf.2
      revert hg
      cases exec W P n ss τ with
      | err e => exact id
      | ok u υ => exact fun h => ⟨h.1, hA.2.trans h.2⟩

theorem all_ok {q : Bool} {W : World} {P : Program} (hP : CarefulProgram q W P) (n : Nat) :
    EvalOk q W P n ∧ StmtOk q W P n ∧ ExecOk q W P n := by
  induction n with
  | zero =>
    exact ⟨fun _ _ _ _ _ _ _ => .inr (.inr rfl), fun _ _ _ _ _ _ _ => .inr (.inr rfl),
      fun _ _ _ _ _ _ _ => .inr (.inr rfl)⟩
  | succ n ih =>
    obtain ⟨a, b, c⟩ := ih
    exact ⟨eval_step hP a c, stmt_step hP a b c, exec_step b c⟩

theorem Reaches.inv {q : Bool} {W : World} {P : Program} (hP : CarefulProgram q W P) {Γ : Env}
    {σ : State} (h : Reaches q W P Γ σ) : Inv q P Γ σ := by
  obtain ⟨n, ss, hck, hcf, hx⟩ := h
  have hI : Inv q P [] ⟨[], []⟩ := ⟨fun i o h => by simp at h, .nil⟩
  exact (((all_ok hP n).2.2 ss [] _ Γ hI hck hcf).ok hx).1

end Verif.Vars
