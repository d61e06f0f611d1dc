import Verif.Vars.Spec

/-!
# An invariant of the states of careful programs
-/

namespace Verif.Vars

theorem bind_ok {α β : Type} (a : α) (σ : State) (k : α → State → Res β) :
    (Res.ok a σ).bind k = k a σ := rfl

theorem bind_err {α β : Type} (e : Err) (k : α → State → Res β) :
    (Res.err e).bind k = .err e := rfl

/-! ## Lists of cells against lists of types -/

inductive Match (R : Cell → Ty → Prop) : List (String × Cell) → Env → Prop
  | nil : Match R [] []
  | cons {x : String} {c : Cell} {t : Ty} {l : List (String × Cell)} {Γ : Env} :
    R c t → Match R l Γ → Match R ((x, c) :: l) ((x, t) :: Γ)

theorem Match.mono {R S : Cell → Ty → Prop} (hRS : ∀ c t, R c t → S c t) {l : List (String × Cell)}
    {Γ : Env} (h : Match R l Γ) : Match S l Γ := by
  induction h with
  | nil => exact .nil
  | cons hr _ ih => exact .cons (hRS _ _ hr) ih

theorem Match.length {R : Cell → Ty → Prop} {l : List (String × Cell)} {Γ : Env}
    (h : Match R l Γ) : l.length = Γ.length := by
  induction h with
  | nil => rfl
  | cons _ _ ih => simp [ih]

theorem Match.drop {R : Cell → Ty → Prop} {l : List (String × Cell)} {Γ : Env}
    (h : Match R l Γ) : ∀ k, Match R (l.drop k) (List.drop k Γ) := by
  induction h with
  | nil => intro k; simpa using Match.nil
  | cons hr hm ih =>
    intro k
    cases k with
    | zero => exact .cons hr hm
    | succ k => simpa using ih k

theorem Env.get_cons (x y : String) (t : Ty) (Γ : Env) :
    Env.get ((x, t) :: Γ) y = if x = y then some t else Env.get Γ y := by
  unfold Env.get
  by_cases h : x = y <;> simp [List.find?_cons, h]

theorem getL_cons (x y : String) (c : Cell) (l : List (String × Cell)) :
    getL ((x, c) :: l) y = if x = y then some c else getL l y := by
  unfold getL
  by_cases h : x = y <;> simp [List.find?_cons, h]

theorem setL_cons (x y : String) (c d : Cell) (l : List (String × Cell)) :
    setL y d ((x, c) :: l) = if x = y then (x, d) :: l else (x, c) :: setL y d l := by
  by_cases h : x = y <;> simp [setL, h]

theorem Match.get {R : Cell → Ty → Prop} {l : List (String × Cell)} {Γ : Env}
    (h : Match R l Γ) {x : String} {t : Ty} (hx : Env.get Γ x = some t) :
    ∃ c, getL l x = some c ∧ R c t := by
  induction h with
  | nil => simp [Env.get] at hx
  | @cons y c s l Γ hr _ ih =>
    rw [Env.get_cons] at hx
    rw [getL_cons]
    by_cases hy : y = x
    · rw [if_pos hy] at hx ⊢
      cases hx
      exact ⟨c, rfl, hr⟩
    · rw [if_neg hy] at hx ⊢
      exact ih hx

theorem Match.set {R : Cell → Ty → Prop} {l : List (String × Cell)} {Γ : Env}
    (h : Match R l Γ) {x : String} {t : Ty} {d : Cell} (hx : Env.get Γ x = some t) (hd : R d t) :
    Match R (setL x d l) Γ := by
  induction h with
  | nil => simp [Env.get] at hx
  | @cons y c s l Γ hr hm ih =>
    rw [Env.get_cons] at hx
    rw [setL_cons]
    by_cases hy : y = x
    · rw [if_pos hy] at hx ⊢
      cases hx
      exact .cons hd hm
    · rw [if_neg hy] at hx ⊢
      exact .cons hr (ih hx)

theorem getL_setL_self {l : List (String × Cell)} {x : String} {c d : Cell}
    (h : getL l x = some c) : getL (setL x d l) x = some d := by
  induction l with
  | nil => simp [getL] at h
  | cons p l ih =>
    obtain ⟨y, e⟩ := p
    rw [getL_cons] at h
    rw [setL_cons]
    by_cases hy : y = x
    · rw [if_pos hy, getL_cons, if_pos hy]
    · rw [if_neg hy] at h
      rw [if_neg hy, getL_cons, if_neg hy]
      exact ih h

theorem getL_setL_ne {l : List (String × Cell)} {x y : String} {d : Cell} (h : y ≠ x) :
    getL (setL x d l) y = getL l y := by
  induction l with
  | nil => rfl
  | cons p l ih =>
    obtain ⟨z, e⟩ := p
    rw [setL_cons]
    by_cases hz : z = x
    · rw [if_pos hz, getL_cons, getL_cons, if_neg (fun e => h (e.symm.trans hz)),
        if_neg (fun e => h (e.symm.trans hz))]
    · rw [if_neg hz, getL_cons, getL_cons, ih]

/-! ## Memory -/

theorem objAt_succ (h : List Obj) (i : Nat) : objAt h (i + 1) = h[i]? := by
  simp [objAt]

theorem objAt_zero (h : List Obj) : objAt h 0 = none := by simp [objAt]

theorem objAt_some {h : List Obj} {r : Nat} {o : Obj} (ho : objAt h r = some o) :
    ∃ i, r = i + 1 ∧ h[i]? = some o := by
  cases r with
  | zero => rw [objAt_zero] at ho; cases ho
  | succ i => exact ⟨i, rfl, by rwa [objAt_succ] at ho⟩

/-- Objects stay where they are and keep their type. -/
def Ext (h h' : List Obj) : Prop :=
  ∀ r o, objAt h r = some o → ∃ o', objAt h' r = some o' ∧ o'.cell.type = o.cell.type

theorem Ext.refl (h : List Obj) : Ext h h := fun _ o ho => ⟨o, ho, rfl⟩

theorem Ext.trans {h h' h'' : List Obj} (a : Ext h h') (b : Ext h' h'') : Ext h h'' := by
  intro r o ho
  obtain ⟨o', ho', ht⟩ := a r o ho
  obtain ⟨o'', ho'', ht'⟩ := b r o' ho'
  exact ⟨o'', ho'', ht'.trans ht⟩

theorem Ext.append (h k : List Obj) : Ext h (h ++ k) := by
  intro r o ho
  obtain ⟨i, rfl, hi⟩ := objAt_some ho
  refine ⟨o, ?_, rfl⟩
  rw [objAt_succ]
  have hl : i < h.length := (List.getElem?_eq_some_iff.mp hi).1
  rw [List.getElem?_append_left hl]
  exact hi

/-! ## The invariant -/

def CellOk (q : Bool) (P : Program) (h : List Obj) (c : Cell) : Ty → Prop
  | .anon => False
  | .atom a => c.outer = .atom a ∧ c.type = .atom a ∧ (q = true → c.ref = 0 ∧ c.isRef = false) ∧
    (c.ref ≠ 0 → ∃ o, objAt h c.ref = some o ∧ o.cell.type = .atom a)
  | .cls n => c.outer = .cls n ∧ (∃ m, c.type = .cls m) ∧ c.value = 0 ∧
    (c.ref ≠ 0 → ∃ o d, objAt h c.ref = some o ∧ o.cell.type = .cls d ∧ Descends P d n ∧
      (c.isRef = true → c.type = .cls d ∧ c.ups = upsOf P.classes d))

theorem CellOk.mono {q : Bool} {P : Program} {h h' : List Obj} (e : Ext h h') (c : Cell) (t : Ty)
    (k : CellOk q P h c t) : CellOk q P h' c t := by
  cases t with
  | anon => exact k
  | atom a =>
    obtain ⟨k1, k2, k3, k4⟩ := k
    refine ⟨k1, k2, k3, fun hr => ?_⟩
    obtain ⟨o, ho, ht⟩ := k4 hr
    obtain ⟨o', ho', ht'⟩ := e _ _ ho
    exact ⟨o', ho', ht'.trans ht⟩
  | cls n =>
    obtain ⟨k1, k2, k3, k4⟩ := k
    refine ⟨k1, k2, k3, fun hr => ?_⟩
    obtain ⟨o, d, ho, ht, hd⟩ := k4 hr
    obtain ⟨o', ho', ht'⟩ := e _ _ ho
    exact ⟨o', d, ho', ht'.trans ht, hd⟩

/-- The types of the members of a class. -/
def fieldTypes (P : Program) (d : String) : Env :=
  (fieldsOf P.classes d).map (fun f => (f.1, f.2.1))

theorem fieldType_get (P : Program) (d f : String) :
    fieldType P d f = Env.get (fieldTypes P d) f := by
  unfold fieldType Env.get fieldTypes
  generalize fieldsOf P.classes d = l
  induction l with
  | nil => rfl
  | cons p l ih =>
    by_cases h : p.1 = f
    · simp [h]
    · simpa [List.find?_cons, h] using ih

def ObjOk (q : Bool) (P : Program) (h : List Obj) (i : Nat) (o : Obj) : Prop :=
  o.cell.ref = i + 1 ∧ o.cell.isRef = true ∧
  ((∃ a, o.cell.type = .atom a) ∨
    ∃ d, o.cell.type = .cls d ∧ o.cell.value = 0 ∧ o.cell.ups = upsOf P.classes d ∧
      Match (CellOk q P h) o.fields (fieldTypes P d))

theorem ObjOk.mono {q : Bool} {P : Program} {h h' : List Obj} (e : Ext h h') {i : Nat} {o : Obj}
    (k : ObjOk q P h i o) : ObjOk q P h' i o := by
  obtain ⟨k1, k2, k3⟩ := k
  refine ⟨k1, k2, ?_⟩
  rcases k3 with k3 | ⟨d, a, b, c, k3⟩
  · exact .inl k3
  · exact .inr ⟨d, a, b, c, k3.mono (CellOk.mono e)⟩

def HeapOk (q : Bool) (P : Program) (h : List Obj) : Prop :=
  ∀ i o, h[i]? = some o → ObjOk q P h i o

structure Inv (q : Bool) (P : Program) (Γ : Env) (σ : State) : Prop where
  heap : HeapOk q P σ.heap
  vars : Match (CellOk q P σ.heap) σ.vars Γ

/-- A place of a type. -/
def LocTy (P : Program) (Γ : Env) (h : List Obj) : Loc → Ty → Prop
  | .var x, t => Γ.get x = some t
  | .field r f, t => ∃ o d, objAt h r = some o ∧ o.cell.type = .cls d ∧ fieldType P d f = some t

theorem LocTy.mono {P : Program} {Γ : Env} {h h' : List Obj} (e : Ext h h') {l : Loc} {t : Ty}
    (k : LocTy P Γ h l t) : LocTy P Γ h' l t := by
  cases l with
  | var x => exact k
  | field r f =>
    obtain ⟨o, d, ho, ht, hf⟩ := k
    obtain ⟨o', ho', ht'⟩ := e _ _ ho
    exact ⟨o', d, ho', ht'.trans ht, hf⟩

theorem Inv.read {q : Bool} {P : Program} {Γ : Env} {σ : State} (I : Inv q P Γ σ) {l : Loc} {t : Ty}
    (hl : LocTy P Γ σ.heap l t) : ∃ c, readLoc σ l = some c ∧ CellOk q P σ.heap c t := by
  cases l with
  | var x => exact I.vars.get hl
  | field r f =>
    obtain ⟨o, d, ho, ht, hf⟩ := hl
    obtain ⟨i, rfl, hi⟩ := objAt_some ho
    obtain ⟨-, -, k3⟩ := I.heap i o hi
    rcases k3 with ⟨a, ha⟩ | ⟨d', hd', -, -, hm⟩
    · rw [ht] at ha; cases ha
    · rw [ht] at hd'
      cases hd'
      rw [fieldType_get] at hf
      obtain ⟨c, hc, hk⟩ := hm.get hf
      exact ⟨c, by simp [readLoc, ho, hc], hk⟩

/-- One object is changed, but not its type. -/
theorem heap_modify {q : Bool} {P : Program} {h : List Obj} (H : HeapOk q P h) {i : Nat} {o : Obj}
    (ho : h[i]? = some o) (g : Obj → Obj) (hg : ObjOk q P h i (g o))
    (ht : (g o).cell.type = o.cell.type) :
    HeapOk q P (h.modify i g) ∧ Ext h (h.modify i g) := by
  have e : Ext h (h.modify i g) := by
    intro r o' ho'
    obtain ⟨j, rfl, hj⟩ := objAt_some ho'
    rw [objAt_succ, List.getElem?_modify]
    by_cases hij : i = j
    · subst hij
      rw [ho] at hj
      cases hj
      exact ⟨g o, by simp [ho], ht⟩
    · exact ⟨o', by simp [hij, hj], rfl⟩
  refine ⟨?_, e⟩
  intro j o' ho'
  rw [List.getElem?_modify] at ho'
  by_cases hij : i = j
  · subst hij
    simp [ho] at ho'
    subst ho'
    exact hg.mono e
  · simp [hij] at ho'
    exact (H j o' ho').mono e

theorem Inv.write {q : Bool} {P : Program} {Γ : Env} {σ : State} (I : Inv q P Γ σ) {l : Loc}
    {t : Ty} (hl : LocTy P Γ σ.heap l t) {c : Cell} (hc : CellOk q P σ.heap c t) :
    Inv q P Γ (writeLoc σ c l) ∧ Ext σ.heap (writeLoc σ c l).heap := by
  cases l with
  | var x => exact ⟨⟨I.heap, I.vars.set hl hc⟩, Ext.refl _⟩
  | field r f =>
    obtain ⟨o, d, ho, ht, hf⟩ := hl
    obtain ⟨i, rfl, hi⟩ := objAt_some ho
    have k := I.heap i o hi
    have hok : ObjOk q P σ.heap i { o with fields := setL f c o.fields } := by
      obtain ⟨k1, k2, k3⟩ := k
      refine ⟨k1, k2, ?_⟩
      rcases k3 with k3 | ⟨d', a, b, e, k3⟩
      · exact .inl k3
      · refine .inr ⟨d', a, b, e, ?_⟩
        rw [ht] at a
        cases a
        rw [fieldType_get] at hf
        exact k3.set hf hc
    obtain ⟨hH, hE⟩ := heap_modify I.heap hi
      (fun o => { o with fields := setL f c o.fields }) hok rfl
    exact ⟨⟨hH, I.vars.mono (CellOk.mono hE)⟩, hE⟩

theorem Inv.setValue {q : Bool} {P : Program} {Γ : Env} {σ : State} (I : Inv q P Γ σ) {r : Nat}
    {o : Obj} (ho : objAt σ.heap r = some o) {v : Int}
    (hv : (∃ d, o.cell.type = .cls d) → v = 0) :
    Inv q P Γ { σ with heap := setHeapValue σ.heap r v } ∧
      Ext σ.heap (setHeapValue σ.heap r v) := by
  obtain ⟨i, rfl, hi⟩ := objAt_some ho
  have hok : ObjOk q P σ.heap i { o with cell := { o.cell with value := v } } := by
    obtain ⟨k1, k2, k3⟩ := I.heap i o hi
    refine ⟨k1, k2, ?_⟩
    rcases k3 with k3 | ⟨d, a, b, e, k3⟩
    · exact .inl k3
    · exact .inr ⟨d, a, hv ⟨d, a⟩, e, k3⟩
  obtain ⟨hH, hE⟩ := heap_modify I.heap hi
    (fun o => { o with cell := { o.cell with value := v } }) hok rfl
  exact ⟨⟨hH, I.vars.mono (CellOk.mono hE)⟩, hE⟩

theorem getValue_cls {q : Bool} {P : Program} {h : List Obj} (H : HeapOk q P h) {c : Cell}
    {n : String} (k : CellOk q P h c (.cls n)) : getValue h c = 0 := by
  obtain ⟨-, -, hv, hr⟩ := k
  unfold getValue
  cases ho : objAt h c.ref with
  | none => exact hv
  | some o =>
    obtain ⟨i, hi, hi'⟩ := objAt_some ho
    obtain ⟨o', d, ho', hd, -⟩ := hr (by omega)
    rw [ho] at ho'
    cases ho'
    obtain ⟨-, -, k3⟩ := H i o hi'
    rcases k3 with ⟨a, ha⟩ | ⟨d', -, hv', -⟩
    · rw [hd] at ha; cases ha
    · exact hv'

/-! ## Assignment -/

/-- A value of type `s` may be put where `t` is expected. -/
def Fits (P : Program) : Ty → Ty → Prop
  | .atom a, .atom b => a = b
  | .cls m, .cls n => Descends P n m
  | _, _ => False

theorem Descends.trans {P : Program} {a b c : String} (h : Descends P a b) (k : Descends P b c) :
    Descends P a c := by
  induction h with
  | refl => exact k
  | step p _ ih => exact .step p (ih k)

theorem Inv.objAssign {q : Bool} {P : Program} {Γ : Env} {σ : State} (I : Inv q P Γ σ) {l : Loc}
    {t s : Ty} (hl : LocTy P Γ σ.heap l t) {c r : Cell} (hc : CellOk q P σ.heap c t)
    (hr : CellOk q P σ.heap r s) (hf : Fits P t s) :
    Inv q P Γ (objAssign σ l c r) ∧ Ext σ.heap (objAssign σ l c r).heap := by
  unfold Vars.objAssign
  dsimp only
  cases t with
  | anon => exact absurd hc id
  | atom a =>
    cases s with
    | anon => exact absurd hf id
    | cls n => exact absurd hf id
    | atom b =>
      cases (hf : a = b)
      obtain ⟨c1, c2, c3, c4⟩ := hc
      obtain ⟨r1, r2, r3, r4⟩ := hr
      have ho : (if c.outer = .anon then r.outer else c.outer) = .atom a := by
        rw [c1]; rfl
      rw [ho]
      by_cases hR : r.isRef = true
      · rw [if_pos hR]
        exact I.write hl ⟨rfl, r2, r3, r4⟩
      · rw [if_neg hR]
        have hR' : r.isRef = false := by simpa using hR
        by_cases h0 : c.ref ≠ 0
        · rw [if_pos h0]
          obtain ⟨o, ho', hto⟩ := c4 h0
          obtain ⟨I1, E1⟩ := I.write (c := { c with
            type := r.type, ups := r.ups, isRef := r.isRef, outer := .atom a }) hl
            ⟨rfl, r2, fun hq => ⟨(c3 hq).1, (r3 hq).2⟩, c4⟩
          obtain ⟨o', ho1, ht1⟩ := E1 _ _ ho'
          obtain ⟨I2, E2⟩ := I1.setValue (v := getValue σ.heap r) ho1
            (by rintro ⟨d, hd⟩; rw [ht1, hto] at hd; cases hd)
          exact ⟨I2, E1.trans E2⟩
        · rw [if_neg h0]
          exact I.write hl ⟨rfl, r2, fun hq => ⟨(c3 hq).1, (r3 hq).2⟩, fun h => absurd h h0⟩
  | cls n =>
    cases s with
    | anon => exact absurd hf id
    | atom n => exact absurd hf id
    | cls m =>
      have hv := getValue_cls I.heap hr
      obtain ⟨c1, c2, c3, c4⟩ := hc
      obtain ⟨r1, r2, r3, r4⟩ := hr
      have ho : (if c.outer = .anon then r.outer else c.outer) = .cls n := by
        rw [c1]; rfl
      rw [ho]
      by_cases hR : r.isRef = true
      · rw [if_pos hR]
        refine I.write hl ⟨rfl, r2, c3, fun h0 => ?_⟩
        obtain ⟨o, d, ho', hd, hdd, hk⟩ := r4 h0
        exact ⟨o, d, ho', hd, hdd.trans hf, hk⟩
      · rw [if_neg hR]
        have hR' : r.isRef = false := by simpa using hR
        by_cases h0 : c.ref ≠ 0
        · rw [if_pos h0]
          obtain ⟨o, d, ho', hto, hdd, -⟩ := c4 h0
          obtain ⟨I1, E1⟩ := I.write (c := { c with
            type := r.type, ups := r.ups, isRef := r.isRef, outer := .cls n }) hl
            ⟨rfl, r2, c3, fun _ => ⟨o, d, ho', hto, hdd, fun h => absurd h hR⟩⟩
          obtain ⟨o', ho1, ht1⟩ := E1 _ _ ho'
          obtain ⟨I2, E2⟩ := I1.setValue (v := getValue σ.heap r) ho1 (fun _ => hv)
          exact ⟨I2, E1.trans E2⟩
        · rw [if_neg h0]
          exact I.write hl ⟨rfl, r2, hv, fun h => absurd h h0⟩

/-- What an assignment may end in. -/
theorem Inv.binAssign {q : Bool} {W : World} {P : Program} {Γ : Env} {σ : State}
    (I : Inv q P Γ σ) {l : Loc} {t s : Ty} (hl : LocTy P Γ σ.heap l t) {r : Cell}
    (hr : CellOk q P σ.heap r s)
    (hf : Fits P t s ∨ ∃ a b, t = .atom a ∧ s = .atom b) :
    (∃ σ', binAssign W σ l r = .ok () σ' ∧ Inv q P Γ σ' ∧ Ext σ.heap σ'.heap) ∨
      binAssign W σ l r = .err .invalidOperation := by
  obtain ⟨c, hc, hk⟩ := I.read hl
  unfold Vars.binAssign
  rw [hc]
  dsimp only
  cases t with
  | anon => exact absurd hk id
  | atom a =>
    have ⟨c1, c2, c3, c4⟩ := hk
    cases s with
    | anon => exact absurd hr id
    | cls n =>
      rcases hf with hf | ⟨_, _, _, h⟩
      · exact absurd hf id
      · cases h
    | atom b =>
      have ⟨r1, r2, r3, r4⟩ := hr
      by_cases hab : a = b
      · subst hab
        rw [if_pos (.inr (by rw [r2, c2]))]
        obtain ⟨I', E⟩ := I.objAssign hl hk hr rfl
        exact .inl ⟨_, rfl, I', E⟩
      · rw [if_neg (by rw [r2, c2]; rintro (h | h) <;> cases h; exact hab rfl)]
        rw [c2]
        have ha : CellOk q P σ.heap (atomic a (W.convert a (getValue σ.heap r))) (.atom a) :=
          ⟨rfl, rfl, fun _ => ⟨rfl, rfl⟩, fun h => absurd rfl h⟩
        obtain ⟨I', E⟩ := I.objAssign hl hk ha rfl
        exact .inl ⟨_, rfl, I', E⟩
  | cls n =>
    have ⟨c1, ⟨m, c2⟩, c3, c4⟩ := hk
    have hf' : Fits P (.cls n) s := by
      rcases hf with hf | ⟨_, _, h, _⟩
      · exact hf
      · cases h
    obtain ⟨I', E⟩ := I.objAssign hl hk hr hf'
    split
    · exact .inl ⟨_, rfl, I', E⟩
    · rw [c2]
      dsimp only
      split
      · exact .inl ⟨_, rfl, I', E⟩
      · split
        · exact .inl ⟨_, rfl, I', E⟩
        · exact .inr rfl

/-! ## Creation, casts, parameters -/

theorem create_ok (q : Bool) (P : Program) (h : List Obj) (t : Ty) (b : Bool)
    (ht : t ≠ .anon) (hq : q = true → b = true → isAtomTy t = false) :
    CellOk q P h (create t b) t := by
  cases t with
  | anon => exact absurd rfl ht
  | atom a =>
    refine ⟨rfl, rfl, fun h => ⟨rfl, ?_⟩, fun h => absurd rfl h⟩
    cases b with
    | false => rfl
    | true => cases hq h rfl
  | cls n => exact ⟨rfl, ⟨n, rfl⟩, rfl, fun h => absurd rfl h⟩

theorem anonAssign_ok {q : Bool} {P : Program} {h : List Obj} (H : HeapOk q P h) {c : Cell} {t : Ty}
    (k : CellOk q P h c t) : CellOk q P h (anonAssign h c) t := by
  cases t with
  | anon => exact absurd k id
  | atom a =>
    obtain ⟨k1, k2, k3, k4⟩ := k
    refine ⟨k1, k2, fun hq => ?_, ?_⟩
    · obtain ⟨h0, hb⟩ := k3 hq
      simp [anonAssign, hb]
    · intro h0
      unfold anonAssign at h0 ⊢
      dsimp only at h0 ⊢
      by_cases hR : c.isRef = true
      · rw [if_pos hR] at h0 ⊢
        exact k4 h0
      · rw [if_neg hR] at h0
        exact absurd rfl h0
  | cls n =>
    have hv := getValue_cls H k
    obtain ⟨k1, k2, k3, k4⟩ := k
    refine ⟨k1, k2, ?_, ?_⟩
    · simp [anonAssign, hv]
    · intro h0
      unfold anonAssign at h0 ⊢
      dsimp only at h0 ⊢
      by_cases hR : c.isRef = true
      · rw [if_pos hR] at h0 ⊢
        exact k4 h0
      · rw [if_neg hR] at h0
        exact absurd rfl h0

theorem bindParam_ok {q : Bool} {P : Program} {h : List Obj} (H : HeapOk q P h) {c : Cell} {t : Ty}
    (k : CellOk q P h c t) : CellOk q P h (bindParam h t c) t := by
  unfold bindParam
  cases t with
  | anon => exact absurd k id
  | atom a =>
    obtain ⟨k1, k2, k3, k4⟩ := k
    cases ho : objAt h c.ref with
    | none => exact ⟨rfl, rfl, fun _ => ⟨rfl, rfl⟩, fun h => absurd rfl h⟩
    | some o =>
      obtain ⟨i, hi, hi'⟩ := objAt_some ho
      obtain ⟨o', ho', ht⟩ := k4 (by omega)
      rw [ho] at ho'
      cases ho'
      obtain ⟨hr, -, -⟩ := H i o hi'
      refine ⟨rfl, ht, fun hq => ?_, fun _ => ⟨o, ?_, ht⟩⟩
      · have := (k3 hq).1
        omega
      · show objAt h o.cell.ref = some o
        rw [hr, ← hi, ho]
  | cls n =>
    have hv := getValue_cls H k
    obtain ⟨k1, k2, k3, k4⟩ := k
    cases ho : objAt h c.ref with
    | none => exact ⟨rfl, ⟨n, rfl⟩, hv, fun h => absurd rfl h⟩
    | some o =>
      obtain ⟨i, hi, hi'⟩ := objAt_some ho
      obtain ⟨o', d, ho', ht, hd, -⟩ := k4 (by omega)
      rw [ho] at ho'
      cases ho'
      obtain ⟨hr, -, hu⟩ := H i o hi'
      refine ⟨rfl, ⟨d, ht⟩, rfl, fun _ => ⟨o, d, ?_, ht, hd, fun _ => ⟨ht, ?_⟩⟩⟩
      · show objAt h o.cell.ref = some o
        rw [hr, ← hi, ho]
      · rcases hu with ⟨a, ha⟩ | ⟨d', hd', -, hu, -⟩
        · rw [ht] at ha; cases ha
        · rw [ht] at hd'
          cases hd'
          exact hu

theorem match_create {q : Bool} {P : Program} (h : List Obj)
    (fs : List (String × Ty × Bool)) (hk : ∀ f ∈ fs, f.2.1 ≠ .anon)
    (hq : q = true → ∀ f ∈ fs, f.2.2 = true → isAtomTy f.2.1 = false) :
    Match (CellOk q P h) (fs.map (fun f => (f.1, create f.2.1 f.2.2)))
      (fs.map (fun f => (f.1, f.2.1))) := by
  induction fs with
  | nil => exact .nil
  | cons f fs ih =>
    refine .cons (create_ok q P h _ _ (hk f (by simp)) (fun a b => hq a f (by simp) b)) ?_
    exact ih (fun g hg => hk g (by simp [hg])) (fun a g hg => hq a g (by simp [hg]))

theorem push_ok {q : Bool} {P : Program} {h : List Obj} (H : HeapOk q P h) (o : Obj)
    (ho : ObjOk q P (h ++ [o]) h.length o) : HeapOk q P (h ++ [o]) := by
  intro i o' hi
  by_cases hl : i < h.length
  · rw [List.getElem?_append_left hl] at hi
    exact (H i o' hi).mono (Ext.append h [o])
  · rw [List.getElem?_append_right (by omega)] at hi
    cases hk : i - h.length with
    | zero =>
      rw [hk] at hi
      simp at hi
      subst hi
      have : i = h.length := by omega
      rw [this]
      exact ho
    | succ k => rw [hk] at hi; simp at hi

theorem objAt_push (h : List Obj) (o : Obj) : objAt (h ++ [o]) (h.length + 1) = some o := by
  rw [objAt_succ]
  simp

/-- A cast, as far as its result is seen. -/
theorem cast_ok {q : Bool} {W : World} {P : Program} {Γ : Env} {σ : State} (I : Inv q P Γ σ)
    {c : Cell} {s t : Ty} (k : CellOk q P σ.heap c s)
    (hf : (∃ m n, t = .cls m ∧ s = .cls n ∧ Descends P n m) ∨
      (∃ a b, t = .atom a ∧ s = .atom b) ∨ (∃ m, t = .cls m ∧ s = .cls "Object" ∧ c.ref = 0)) :
    ∃ d υ, typecast W t c σ = .ok d υ ∧ υ.vars = σ.vars ∧ Inv q P Γ υ ∧ Ext σ.heap υ.heap ∧
      CellOk q P υ.heap (anonAssign υ.heap d) t := by
  rcases hf with ⟨m, n, rfl, rfl, hd⟩ | ⟨a, b, rfl, rfl⟩ | ⟨m, rfl, rfl, h0⟩
  · obtain ⟨k1, k2, k3, k4⟩ := k
    refine ⟨_, _, rfl, rfl, I, Ext.refl _, anonAssign_ok I.heap ⟨rfl, k2, k3, fun h0 => ?_⟩⟩
    obtain ⟨o, d, ho, ht, hdd, hk⟩ := k4 h0
    exact ⟨o, d, ho, ht, hdd.trans hd, hk⟩
  · obtain ⟨k1, k2, k3, k4⟩ := k
    unfold typecast
    dsimp only
    rw [k2]
    dsimp only
    by_cases h0 : c.ref ≠ 0
    · rw [if_pos h0]
      obtain ⟨o, ho, hto⟩ := k4 h0
      obtain ⟨I', E⟩ := I.setValue (v := W.convert a (getValue σ.heap c)) ho
        (by rintro ⟨d, hd⟩; rw [hto] at hd; cases hd)
      exact ⟨_, _, rfl, rfl, I', E, rfl, rfl, fun _ => ⟨rfl, rfl⟩, fun h => absurd rfl h⟩
    · rw [if_neg h0]
      exact ⟨_, _, rfl, rfl, I, Ext.refl _, rfl, rfl, fun _ => ⟨rfl, rfl⟩,
        fun h => absurd rfl h⟩
  · obtain ⟨k1, k2, k3, k4⟩ := k
    exact ⟨_, _, rfl, rfl, I, Ext.refl _,
      anonAssign_ok I.heap ⟨rfl, k2, k3, fun h => absurd h0 h⟩⟩

end Verif.Vars
