import Verif.Objs.Ctor

/-! # C132: `new` runs a constructor of the class, destruction its destructor -/

namespace Verif.Objs

open Scope (Meth Vis Res resolveMethod Accepts Param firstApplicable)

/-! ## Specification -/

/-- `m` is a constructor that takes arguments of these types. -/
def IsCtor (m : Meth) (args : List String) : Prop := m.name = "Constructor" ∧ Accepts m.sig args

/-- `m` is a destructor: a method called `Destructor` that can be called without arguments. -/
def IsDtor (m : Meth) : Prop := m.name = "Destructor" ∧ Accepts m.sig []

/-- The class itself and its ancestors down to `Object`. -/
def lineage (c : Chain) : List (List Meth) := c ++ [[objectConstructor]]

/-- `m` belongs to the first class of the list that has a method with property `P`, and is one. -/
def Nearest (P : Meth → Prop) (ls : List (List Meth)) (m : Meth) : Prop :=
  ∃ pre l post, ls = pre ++ l :: post ∧ m ∈ l ∧ P m ∧ ∀ l' ∈ pre, ∀ m' ∈ l', ¬ P m'

/-! ## The lookup -/

/-- The first method of the list that is accessible at level `v` and applicable. -/
private abbrev fa (n : String) (args : List String) (v : Vis) (l : List Meth) := firstApplicable l n args v

theorem fa_some {n args v l m} (h : firstApplicable l n args v = some m) :
    m ∈ l ∧ v ≤ m.vis ∧ m.name = n ∧ Accepts m.sig args := by
  unfold firstApplicable at h
  have h1 := List.find?_some h
  simp only [Bool.and_eq_true, decide_eq_true_eq, beq_iff_eq, Scope.isSignatureValid_iff] at h1
  exact ⟨List.mem_of_find?_eq_some h, h1.1, h1.2.1, h1.2.2⟩

theorem fa_none {n args v l} (h : firstApplicable l n args v = none) :
    ∀ m ∈ l, ¬ (v ≤ m.vis ∧ m.name = n ∧ Accepts m.sig args) := by
  intro m hm ⟨h1, h2, h3⟩
  unfold firstApplicable at h
  have := List.find?_eq_none.1 h m hm
  rw [← Scope.isSignatureValid_iff] at h3
  simp [h1, h2, h3] at this

/-- What `Object::resolveMethod` returns in a chain, level by level. -/
def found (n : String) (args : List String) : Vis → Chain → Option Meth
  | v, [] => firstApplicable [objectConstructor] n args v
  | v, l :: c =>
    let r1 := (firstApplicable l n args v).or (if v = .designtime then none else found n args v c)
    match found n args v.atLeastProt c with
    | none => r1
    | some t => match r1 with
      | none => some t
      | some m => if t.final then some t else some m

def toRes : Option Meth → Res Meth
  | none => .none
  | some m => .found m

theorem objectOf_isObject (c : Chain) : (objectOf c).isObject = true := by cases c <;> rfl

theorem objectResolveM_toRes (a b : Option Meth) (r3 : Res Meth) :
    Scope.objectResolveM (toRes a) (toRes b) r3 true =
      toRes (match b with
        | none => a
        | some t => match a with
          | none => some t
          | some m => if t.final then some t else some m) := by
  cases a with
  | none => cases b <;> cases r3 <;> simp [Scope.objectResolveM, Scope.objectResolveM.third, toRes]
  | some m =>
    cases b with
    | none => cases r3 <;> simp [Scope.objectResolveM, Scope.objectResolveM.third, toRes]
    | some t =>
      cases ht : t.final <;> cases r3 <;> simp [Scope.objectResolveM, Scope.objectResolveM.third, toRes, ht]

theorem methodResolveM_toRes (own rb : Option Meth) (s : Scope.Sym) (rp : Res Meth) (p : Scope.Scope) (v : Vis) :
    Scope.methodResolveM own (some (.sym s)) (toRes rb) rp p true v =
      toRes (own.or (if v = .designtime then none else rb)) := by
  cases own with
  | some m => simp [Scope.methodResolveM, toRes]
  | none =>
    by_cases hv : v = .designtime <;> cases rb <;>
      simp [Scope.methodResolveM, Scope.methodResolveM.parent, toRes, hv]

theorem base_declared (l : List Meth) :
    Scope.ownDecl [("base", ⟨0, .pub⟩)] [] l [] "base" .designtime = some (.sym ⟨0, .pub⟩) := by
  have : Scope.ownSymbol [("base", ⟨0, .pub⟩)] [] "base" .designtime = some (.sym ⟨0, .pub⟩) := by decide
  simp [Scope.ownDecl, this]

theorem resolve_objectOf (n : String) (args : List String) : ∀ (c : Chain) (v : Vis),
    resolveMethod (objectOf c) n args true v = toRes (found n args v c) := by
  intro c
  induction c with
  | nil =>
    intro v
    simp only [objectOf, resolveMethod, found]
    have hb : Scope.ownDecl [] [] [objectConstructor] [] "base" .designtime = none := by decide
    rw [hb]
    have hx : firstApplicable [] n args v = none := rfl
    rw [hx]
    cases firstApplicable [objectConstructor] n args v <;>
      simp [Scope.methodResolveM, Scope.methodResolveM.parent, Scope.objectResolveM, Scope.objectResolveM.third,
        Scope.baseResult, toRes]
  | cons l c ih =>
    intro v
    have hx : firstApplicable [] n args v = none := rfl
    simp only [objectOf, resolveMethod, found, base_declared, hx, Option.or_none, Scope.baseResult,
      objectOf_isObject, if_true, ih, methodResolveM_toRes, objectResolveM_toRes]

/-- What `MethodScope::resolveMethod` finds in a class and its ancestors. -/
def foundClass (n : String) (args : List String) (v : Vis) : Chain → Option Meth
  | [] => firstApplicable [objectConstructor] n args v
  | l :: c => (firstApplicable l n args v).or (if v = .designtime then none else foundClass n args v c)

theorem resolve_classOf (n : String) (args : List String) (v : Vis) : ∀ (c : Chain),
    resolveMethod (classOf c) n args true v = toRes (foundClass n args v c) := by
  intro c
  induction c with
  | nil =>
    simp only [classOf, resolveMethod, foundClass]
    have hb : Scope.ownDecl [] [] [objectConstructor] [] "base" .designtime = none := by decide
    rw [hb]
    have hx : firstApplicable [] n args v = none := rfl
    rw [hx]
    cases firstApplicable [objectConstructor] n args v <;>
      simp [Scope.methodResolveM, Scope.methodResolveM.parent, toRes]
  | cons l c ih =>
    have hx : firstApplicable [] n args v = none := rfl
    simp only [classOf, resolveMethod, foundClass, base_declared, hx, Option.or_none, ih, methodResolveM_toRes]

/-! ## Lists of classes -/

theorem nearest_cons {P : Meth → Prop} {l : List Meth} {ls : List (List Meth)} {m : Meth}
    (h : Nearest P ls m) (hl : ∀ m' ∈ l, ¬ P m') : Nearest P (l :: ls) m := by
  obtain ⟨pre, k, post, rfl, hm, hp, hpre⟩ := h
  refine ⟨l :: pre, k, post, rfl, hm, hp, fun l' h' => ?_⟩
  rcases List.mem_cons.1 h' with rfl | h'
  · exact hl
  · exact hpre l' h'

theorem nearest_head {P : Meth → Prop} {l : List Meth} {ls : List (List Meth)} {m : Meth}
    (hm : m ∈ l) (hp : P m) : Nearest P (l :: ls) m :=
  ⟨[], l, ls, rfl, hm, hp, fun _ h => nomatch h⟩

theorem foundClass_spec (n : String) (args : List String) (v : Vis) (hv : v ≠ .designtime) (c : Chain) :
    match foundClass n args v c with
    | some m => Nearest (fun m => v ≤ m.vis ∧ m.name = n ∧ Accepts m.sig args) (lineage c) m
    | none => ∀ l ∈ lineage c, ∀ m ∈ l, ¬ (v ≤ m.vis ∧ m.name = n ∧ Accepts m.sig args) := by
  induction c with
  | nil =>
    simp only [foundClass]
    cases h : firstApplicable [objectConstructor] n args v with
    | some m => obtain ⟨h1, h2⟩ := fa_some h; exact nearest_head h1 h2
    | none =>
      intro l hl
      simp only [lineage, List.nil_append, List.mem_singleton] at hl
      subst hl
      exact fa_none h
  | cons l c ih =>
    simp only [foundClass, if_neg hv]
    cases h : firstApplicable l n args v with
    | some m => obtain ⟨h1, h2⟩ := fa_some h; exact nearest_head h1 h2
    | none =>
      simp only [Option.none_or]
      cases h2 : foundClass n args v c with
      | some m => rw [h2] at ih; exact nearest_cons ih (fa_none h)
      | none =>
        rw [h2] at ih
        intro k hk
        rcases List.mem_cons.1 hk with rfl | hk
        · exact fa_none h
        · exact ih k hk

/-- Without final methods of that name in the ancestors, the object finds what the class finds. -/
theorem found_eq (n : String) (args : List String) (v : Vis) (hv : Vis.prot ≤ v) (c : Chain)
    (hf : ∀ l ∈ lineage c, ∀ m ∈ l, m.name = n → Accepts m.sig args → Vis.prot ≤ m.vis → m.final = false) :
    found n args v c = foundClass n args v c := by
  have hd : v ≠ .designtime := by intro h; subst h; revert hv; decide
  have ha : v.atLeastProt = v := by cases v <;> first | rfl | (revert hv; decide)
  induction c with
  | nil => rfl
  | cons l c ih =>
    have ih := ih (fun k hk => hf k (List.mem_cons_of_mem _ hk))
    simp only [found, foundClass, ha, ih, if_neg hd]
    cases h1 : firstApplicable l n args v with
    | none => cases h2 : foundClass n args v c <;> simp
    | some m =>
      cases h2 : foundClass n args v c with
      | none => simp
      | some t =>
        have := foundClass_spec n args v hd c
        rw [h2] at this
        obtain ⟨pre, k, post, hk, hm, hp, -⟩ := this
        have ht := hf k (List.mem_cons_of_mem _ (show k ∈ lineage c by rw [hk]; simp)) t hm hp.2.1 hp.2.2
          (show Vis.prot.rank ≤ t.vis.rank from Nat.le_trans hv hp.1)
        simp [ht]

/-- Whatever an object finds at a level is a method of one of its classes, applicable, and accessible at that
level. -/
theorem found_mem (n : String) (args : List String) : ∀ (c : Chain) (v : Vis) (m : Meth), found n args v c = some m →
    v ≤ m.vis ∧ m.name = n ∧ Accepts m.sig args ∧ ∃ l ∈ lineage c, m ∈ l := by
  intro c
  induction c with
  | nil =>
    intro v m h
    obtain ⟨h1, h2, h3, h4⟩ := fa_some h
    exact ⟨h2, h3, h4, _, List.mem_singleton_self _, h1⟩
  | cons l c ih =>
    intro v m h
    have hle : v ≤ v.atLeastProt := by cases v <;> decide
    have up : ∀ {v' m'}, found n args v' c = some m' → v ≤ v' →
        v ≤ m'.vis ∧ m'.name = n ∧ Accepts m'.sig args ∧ ∃ k ∈ lineage (l :: c), m' ∈ k := by
      intro v' m' h' hv
      obtain ⟨a, b, d, k, hk, hm⟩ := ih _ _ h'
      exact ⟨Nat.le_trans hv a, b, d, k, List.mem_cons_of_mem _ hk, hm⟩
    have r1 : ∀ m', (firstApplicable l n args v).or (if v = .designtime then none else found n args v c) = some m' →
        v ≤ m'.vis ∧ m'.name = n ∧ Accepts m'.sig args ∧ ∃ k ∈ lineage (l :: c), m' ∈ k := by
      intro m' h'
      rcases Option.or_eq_some_iff.1 h' with h' | ⟨-, h'⟩
      · obtain ⟨h1, h2, h3, h4⟩ := fa_some h'
        exact ⟨h2, h3, h4, l, List.mem_cons_self .., h1⟩
      · split at h'
        · cases h'
        · exact up h' (Nat.le_refl _)
    simp only [found] at h
    cases ht : found n args v.atLeastProt c with
    | none => rw [ht] at h; exact r1 m h
    | some t =>
      rw [ht] at h
      cases hr : (firstApplicable l n args v).or (if v = .designtime then none else found n args v c) with
      | none => simp only [hr] at h; cases h; exact up ht hle
      | some q =>
        simp only [hr] at h
        split at h
        · cases h; exact up ht hle
        · cases h; exact r1 _ hr

theorem construct_eq (c : Chain) (args : List String) :
    construct c args = match found "Constructor" args .prot c with
      | some m => .runs m
      | none => .notFound := by
  unfold construct
  rw [resolve_objectOf]
  cases found "Constructor" args .prot c <;> rfl

theorem compileNew_eq (c : Chain) (args : List String) :
    compileNew c args = foundClass "Constructor" args .priv c := by
  unfold compileNew
  rw [resolve_classOf]
  cases foundClass "Constructor" args .priv c <;> rfl

/-- If an object finds a constructor, so did the compiler. -/
theorem compiled_of_found {c : Chain} {args : List String} {m : Meth}
    (h : found "Constructor" args .prot c = some m) : ∃ m', compileNew c args = some m' := by
  rw [compileNew_eq]
  obtain ⟨hv, hn, ha, l, hl, hm⟩ := found_mem _ _ _ _ _ h
  have := foundClass_spec "Constructor" args .priv (by decide) c
  cases hf : foundClass "Constructor" args .priv c with
  | some m' => exact ⟨m', rfl⟩
  | none =>
    rw [hf] at this
    exact absurd ⟨Nat.le_trans (by decide) hv, hn, ha⟩ (this l hl m hm)

theorem newExpr_runs_iff (c : Chain) (args : List String) (m : Meth) :
    newExpr c args = .runs m ↔ found "Constructor" args .prot c = some m := by
  unfold newExpr
  rw [construct_eq]
  constructor
  · intro h
    split at h
    · cases h
    · split at h
      · cases h; assumption
      · cases h
  · intro h
    obtain ⟨m', h'⟩ := compiled_of_found h
    rw [h', h]

/-! ## The theorems -/

theorem found_own (n : String) (l : List Meth) (c : Chain) (args : List String) (m : Meth)
    (hm : m ∈ l) (hc : m.name = n ∧ Accepts m.sig args) (hv : Vis.prot ≤ m.vis)
    (huniq : ∀ m' ∈ l, m'.name = n ∧ Accepts m'.sig args → m' = m)
    (hfin : ∀ k ∈ c, ∀ m' ∈ k, m'.name = n ∧ Accepts m'.sig args → m'.final = false) :
    found n args .prot (l :: c) = some m := by
  simp only [found]
  have h1 : firstApplicable l n args .prot = some m := by
    cases h : firstApplicable l n args .prot with
    | none => exact absurd ⟨hv, hc.1, hc.2⟩ (fa_none h m hm)
    | some m' =>
      obtain ⟨a, -, b, d⟩ := fa_some h
      rw [huniq m' a ⟨b, d⟩]
  rw [h1]
  simp only [Option.some_or, show Vis.prot.atLeastProt = Vis.prot from rfl]
  cases ht : found n args .prot c with
  | none => rfl
  | some t =>
    obtain ⟨-, b, d, k, hk, htk⟩ := found_mem _ _ _ _ _ ht
    have hf : t.final = false := by
      rcases List.mem_append.1 hk with hk | hk
      · exact hfin k hk t htk ⟨b, d⟩
      · rw [List.mem_singleton.1 hk, List.mem_singleton] at htk
        rw [htk]; rfl
    simp [hf]

/-- What the property asks for, where the code does it: if the class itself has exactly one constructor that takes
the arguments, it is not private, and no ancestor has a `final` one that takes them, then that constructor runs. -/
theorem own_constructor_runs_partial (l : List Meth) (c : Chain) (args : List String) (m : Meth)
    (hm : m ∈ l) (hc : IsCtor m args) (hv : Vis.prot ≤ m.vis)
    (huniq : ∀ m' ∈ l, IsCtor m' args → m' = m)
    (hfin : ∀ k ∈ c, ∀ m' ∈ k, IsCtor m' args → m'.final = false) :
    newExpr (l :: c) args = .runs m :=
  (newExpr_runs_iff ..).2 (found_own _ l c args m hm hc hv huniq hfin)

/-- Which constructor runs in general, without `final` constructors: that of the nearest class that has a
constructor that takes the arguments and is not private. -/
theorem nearest_constructor_runs (c : Chain) (args : List String) (m : Meth)
    (hfin : ∀ k ∈ c, ∀ m' ∈ k, IsCtor m' args → m'.final = false) (h : newExpr c args = .runs m) :
    Nearest (fun m => Vis.prot ≤ m.vis ∧ IsCtor m args) (lineage c) m := by
  rw [newExpr_runs_iff, found_eq _ _ _ (by decide)] at h
  · have := foundClass_spec "Constructor" args .prot (by decide) c
    rw [h] at this
    exact this
  · intro k hk m' hm' hn ha _
    rcases List.mem_append.1 hk with hk | hk
    · exact hfin k hk m' hm' ⟨hn, ha⟩
    · rw [List.mem_singleton.1 hk, List.mem_singleton] at hm'
      rw [hm']; rfl

/-- The compiler rejects `new` exactly if no class of the lineage, `Object` included, has a constructor that takes
the arguments. -/
theorem new_rejected_iff (c : Chain) (args : List String) (hd : ∀ l ∈ c, ∀ m ∈ l, m.vis ≠ .designtime) :
    newExpr c args = .rejected ↔ ∀ l ∈ lineage c, ∀ m ∈ l, ¬ IsCtor m args := by
  have hs := foundClass_spec "Constructor" args .priv (by decide) c
  have hvis : ∀ l ∈ lineage c, ∀ m ∈ l, Vis.priv ≤ m.vis := by
    intro l hl m hm
    rcases List.mem_append.1 hl with hl | hl
    · have := hd l hl m hm
      cases h : m.vis <;> first | (exact absurd h this) | decide
    · rw [List.mem_singleton.1 hl, List.mem_singleton] at hm
      rw [hm]; decide
  unfold newExpr
  rw [compileNew_eq]
  cases hf : foundClass "Constructor" args .priv c with
  | none =>
    rw [hf] at hs
    simp only [true_iff]
    intro l hl m hm hc
    exact hs l hl m hm ⟨hvis l hl m hm, hc.1, hc.2⟩
  | some m =>
    rw [hf] at hs
    obtain ⟨pre, l, post, hl, hm, hp, -⟩ := hs
    simp only [construct_eq]
    constructor
    · intro h; split at h <;> cases h
    · intro h; exact absurd ⟨hp.2.1, hp.2.2⟩ (h l (by rw [hl]; simp) m hm)

/-- A private constructor never runs by `new`, not even where the class itself creates its objects. -/
theorem private_constructor_never_runs (c : Chain) (args : List String) (m : Meth) (h : newExpr c args = .runs m) :
    m.vis = .prot ∨ m.vis = .pub := by
  rw [newExpr_runs_iff] at h
  have := (found_mem _ _ _ _ _ h).1
  revert this
  cases m.vis
  · intro h; exact absurd h (by decide)
  · intro h; exact absurd h (by decide)
  · intro _; exact Or.inl rfl
  · intro _; exact Or.inr rfl

/-- Refuted: making the constructor private does not keep others from creating objects.  Whatever the class
declares, if each of its constructors that can be called without arguments is private, then `new C()` succeeds all
the same, wherever it is written, and runs a constructor of an ancestor instead. -/
theorem private_constructor_refuted (l : List Meth) (c : Chain)
    (hpriv : ∀ m ∈ l, IsCtor m [] → m.vis = .priv ∨ m.vis = .designtime) :
    ∃ m, newExpr (l :: c) [] = .runs m ∧ ∃ k ∈ lineage c, m ∈ k := by
  have hobj : ∀ c : Chain, ∃ m, found "Constructor" [] .prot c = some m := by
    intro c
    induction c with
    | nil => exact ⟨objectConstructor, by decide⟩
    | cons l c ih =>
      obtain ⟨t, ht⟩ := ih
      simp only [found, show Vis.prot.atLeastProt = Vis.prot from rfl, ht]
      cases (firstApplicable l "Constructor" [] .prot).or (if Vis.prot = .designtime then none else some t) with
      | none => exact ⟨_, rfl⟩
      | some q =>
        by_cases hf : t.final = true
        · exact ⟨t, by simp [hf]⟩
        · exact ⟨q, by simp [hf]⟩
  obtain ⟨t, ht⟩ := hobj c
  refine ⟨t, ?_, (found_mem _ _ _ _ _ ht).2.2.2⟩
  rw [newExpr_runs_iff]
  simp only [found, show Vis.prot.atLeastProt = Vis.prot from rfl, ht]
  have : firstApplicable l "Constructor" [] .prot = none := by
    cases h : firstApplicable l "Constructor" [] .prot with
    | none => rfl
    | some m =>
      obtain ⟨a, b, d, e⟩ := fa_some h
      rcases hpriv m a ⟨d, e⟩ with h | h <;> rw [h] at b <;> exact absurd b (by decide)
  rw [this]
  simp

/-- Refuted: "if a specialized constructor is implemented, the default constructor cannot be used"
(`Object.cpp:174`).  If no constructor of the class can be called without arguments, `new C()` still succeeds, and
runs no constructor of the class. -/
theorem specialized_constructor_refuted (l : List Meth) (c : Chain) (hspec : ∀ m ∈ l, ¬ IsCtor m []) :
    ∃ m, newExpr (l :: c) [] = .runs m ∧ ∃ k ∈ lineage c, m ∈ k :=
  private_constructor_refuted l c (fun m hm hc => absurd hc (hspec m hm))

/-- Refuted: if a private constructor is the only one in the lineage that takes the arguments, the compiler accepts
the program and the expression fails when it is evaluated. -/
theorem private_constructor_fails_late_refuted (l : List Meth) (c : Chain) (args : List String) (m : Meth)
    (hm : m ∈ l) (hc : IsCtor m args) (hp : m.vis = .priv)
    (honly : ∀ k ∈ lineage (l :: c), ∀ m' ∈ k, IsCtor m' args → m'.vis = .priv) :
    newExpr (l :: c) args = .notFound := by
  unfold newExpr
  rw [compileNew_eq, construct_eq]
  have hs := foundClass_spec "Constructor" args .priv (by decide) (l :: c)
  cases hf : foundClass "Constructor" args .priv (l :: c) with
  | none =>
    rw [hf] at hs
    exact absurd ⟨by rw [hp]; decide, hc.1, hc.2⟩ (hs l (List.mem_cons_self ..) m hm)
  | some q =>
    simp only
    cases hr : found "Constructor" args .prot (l :: c) with
    | none => rfl
    | some q =>
      obtain ⟨a, b, d, k, hk, hq⟩ := found_mem _ _ _ _ _ hr
      rw [honly k hk q hq ⟨b, d⟩] at a
      exact absurd a (by decide)

/-- Refuted: a `final` constructor of the direct ancestor replaces the one of the class. -/
theorem final_constructor_refuted (l k : List Meth) (c : Chain) (args : List String) (t : Meth)
    (ht : t ∈ k) (hc : IsCtor t args) (hv : Vis.prot ≤ t.vis) (hf : t.final = true)
    (huniq : ∀ m' ∈ k, IsCtor m' args → m' = t)
    (hfin : ∀ j ∈ c, ∀ m' ∈ j, IsCtor m' args → m'.final = false) :
    newExpr (l :: k :: c) args = .runs t := by
  have h := own_constructor_runs_partial k c args t ht hc hv huniq hfin
  rw [newExpr_runs_iff] at h ⊢
  rw [found]
  simp only [show Vis.prot.atLeastProt = Vis.prot from rfl, h]
  cases (firstApplicable l "Constructor" args .prot).or (if Vis.prot = .designtime then none else some t) with
  | none => rfl
  | some q => simp [hf]

/-- A class in which no constructor is declared gets one that takes no arguments, and it runs. -/
theorem default_constructor_runs (id : Nat) (l : List Meth) (c : Chain) (hno : ∀ m ∈ l, m.name ≠ "Constructor")
    (hfin : ∀ k ∈ c, ∀ m' ∈ k, IsCtor m' [] → m'.final = false) :
    newExpr (addDefault id l :: c) [] = .runs { id := id, name := "Constructor", vis := .pub, sig := [] } := by
  have hadd : addDefault id l = l ++ [{ id := id, name := "Constructor", vis := .pub, sig := [] }] := by
    unfold addDefault
    rw [if_neg]
    simp only [List.any_eq_true, Bool.and_eq_true, beq_iff_eq, decide_eq_true_eq, not_exists, not_and]
    intro m hm hn
    exact absurd hn (hno m hm)
  rw [hadd]
  apply own_constructor_runs_partial
  · simp
  · exact ⟨rfl, Nat.le_refl _, fun i a p h => by simp at h, fun i p _ h => by simp at h⟩
  · show Vis.prot ≤ Vis.pub; decide
  · intro m' hm' hc'
    rcases List.mem_append.1 hm' with h | h
    · exact absurd hc'.1 (hno m' h)
    · exact List.mem_singleton.1 h
  · exact hfin

/-! ## Destruction -/

theorem destructorOf_eq (c : Chain) : destructorOf c = found "Destructor" [] .priv c := by
  unfold destructorOf
  rw [resolve_objectOf]
  cases found "Destructor" [] .priv c <;> rfl

/-- Without `final` destructors, also private ones are found: the object finds what the class finds. -/
theorem found_priv_eq (n : String) (args : List String) (c : Chain)
    (hf : ∀ l ∈ lineage c, ∀ m ∈ l, m.name = n → Accepts m.sig args → Vis.prot ≤ m.vis → m.final = false) :
    found n args .priv c = foundClass n args .priv c := by
  induction c with
  | nil => rfl
  | cons l c ih =>
    have hf' := fun k hk => hf k (List.mem_cons_of_mem l hk)
    have ih := ih hf'
    simp only [found, foundClass, ih, show Vis.priv.atLeastProt = Vis.prot from rfl]
    rw [found_eq _ _ _ (by decide) _ hf']
    cases h2 : foundClass n args .prot c with
    | none => rfl
    | some t =>
      have hs := foundClass_spec n args .prot (by decide) c
      rw [h2] at hs
      obtain ⟨pre, k, post, hk, hm, hp, -⟩ := hs
      have hkm : k ∈ lineage c := by rw [hk]; simp
      have ht := hf' k hkm t hm hp.2.1 hp.2.2 hp.1
      have hs2 := foundClass_spec n args .priv (by decide) c
      cases h3 : foundClass n args .priv c with
      | none =>
        rw [h3] at hs2
        exact absurd ⟨Nat.le_trans (by decide) hp.1, hp.2⟩ (hs2 k hkm t hm)
      | some q =>
        cases firstApplicable l n args .priv <;> simp [ht]

/-- When an object is destroyed the destructor of the nearest class that declares one runs, private or not; none
runs exactly if none is declared.  (`final` destructors are left out, see `final_destructor_refuted`.)  The
destructors of further ancestors run only if the script calls them. -/
theorem nearest_destructor_runs_partial (c : Chain) (hd : ∀ l ∈ c, ∀ m ∈ l, m.vis ≠ .designtime)
    (hfin : ∀ k ∈ c, ∀ m ∈ k, IsDtor m → m.final = false) :
    (∀ m, destructorOf c = some m → Nearest IsDtor c m) ∧
    (destructorOf c = none ↔ ∀ l ∈ c, ∀ m ∈ l, ¬ IsDtor m) := by
  have hobj : ∀ m ∈ [objectConstructor], m.name ≠ "Destructor" := by
    intro m hm; rw [List.mem_singleton.1 hm]; decide
  have e : destructorOf c = foundClass "Destructor" [] .priv c := by
    rw [destructorOf_eq, found_priv_eq]
    intro k hk m hm hn ha _
    rcases List.mem_append.1 hk with hk | hk
    · exact hfin k hk m hm ⟨hn, ha⟩
    · rw [List.mem_singleton.1 hk] at hm
      exact absurd hn (hobj m hm)
  have hvis : ∀ l ∈ c, ∀ m ∈ l, Vis.priv ≤ m.vis := by
    intro l hl m hm
    have := hd l hl m hm
    cases h : m.vis <;> first | (exact absurd h this) | decide
  have hs := foundClass_spec "Destructor" [] .priv (by decide) c
  rw [e]
  cases hf : foundClass "Destructor" [] .priv c with
  | none =>
    rw [hf] at hs
    refine ⟨fun m h => (nomatch h), ⟨fun _ l hl m hm hc => ?_, fun _ => rfl⟩⟩
    exact hs l (List.mem_append_left _ hl) m hm ⟨hvis l hl m hm, hc.1, hc.2⟩
  | some q =>
    rw [hf] at hs
    obtain ⟨pre, k, post, hk, hm, hp, hpre⟩ := hs
    -- the class it belongs to is not `Object`
    have hlast : ∃ post', c = pre ++ k :: post' := by
      unfold lineage at hk
      rcases List.append_eq_append_iff.1 hk with ⟨a, ha, hb⟩ | ⟨a, ha, hb⟩
      · cases a with
        | nil =>
          simp at hb
          rw [← hb.1] at hm
          exact absurd hp.2.1 (hobj q hm)
        | cons x a => simp at hb
      · cases a with
        | nil =>
          simp at hb
          rw [hb.1] at hm
          exact absurd hp.2.1 (hobj q hm)
        | cons x a =>
          simp only [List.cons_append, List.cons.injEq] at hb
          exact ⟨a, by rw [ha, hb.1]⟩
    obtain ⟨post', hc⟩ := hlast
    have hn : Nearest IsDtor c q := by
      refine ⟨pre, k, post', hc, hm, hp.2, fun l' hl' m' hm' hd' => ?_⟩
      exact hpre l' hl' m' hm' ⟨hvis l' (by rw [hc]; simp [hl']) m' hm', hd'.1, hd'.2⟩
    refine ⟨fun m h => by injection h with h; rw [← h]; exact hn, ⟨fun h => (nomatch h), fun h => ?_⟩⟩
    exact absurd hp.2 (h k (by rw [hc]; simp) q hm)

/-- Refuted with `final`: the destructor of the class does not run if the direct ancestor has a `final` one that is
not private. -/
theorem final_destructor_refuted (l k : List Meth) (c : Chain) (t : Meth) (ht : t ∈ k) (hd : IsDtor t)
    (hv : Vis.prot ≤ t.vis) (hf : t.final = true) (huniq : ∀ m' ∈ k, IsDtor m' → m' = t)
    (hfin : ∀ j ∈ c, ∀ m' ∈ j, IsDtor m' → m'.final = false) : destructorOf (l :: k :: c) = some t := by
  rw [destructorOf_eq, found]
  simp only [show Vis.priv.atLeastProt = Vis.prot from rfl, found_own _ k c [] t ht hd hv huniq hfin]
  cases (firstApplicable l "Destructor" [] .priv).or
    (if Vis.priv = .designtime then none else found "Destructor" [] .priv (k :: c)) with
  | none => rfl
  | some q => simp [hf]

/-! ## Cases that meet the hypotheses -/

/-- `class Base { public void Constructor(int) }`,
`class Derived extends Base { private void Constructor(); public void Constructor(string, int = 0); private void Destructor() }`. -/
def demoBase : List Meth := [{ id := 1, name := "Constructor", vis := .pub, sig := [⟨"int", false⟩] }]

def demoDerived : List Meth :=
  [{ id := 2, name := "Constructor", vis := .priv, sig := [] },
   { id := 3, name := "Constructor", vis := .pub, sig := [⟨"string", false⟩, ⟨"int", true⟩] },
   { id := 4, name := "Destructor", vis := .priv, sig := [] }]

/-- `new Derived("x")` runs the second constructor of `Derived`; `new Derived()` runs the one of `Object`;
`new Derived(1)` runs the one of `Base`; `new Derived(true)` is rejected; destruction runs the private destructor. -/
example : newExpr [demoDerived, demoBase] ["string"] = .runs demoDerived[1] ∧
    newExpr [demoDerived, demoBase] [] = .runs objectConstructor ∧
    newExpr [demoDerived, demoBase] ["int"] = .runs demoBase[0] ∧
    newExpr [demoDerived, demoBase] ["bool"] = .rejected ∧
    destructorOf [demoDerived, demoBase] = some demoDerived[2] := by
  decide +kernel

/-- A private constructor with a parameter, in a class without other ancestors: compiled, fails when evaluated. -/
example : newExpr [[{ id := 1, name := "Constructor", vis := .priv, sig := [⟨"int", false⟩] }]] ["int"] = .notFound := by
  decide +kernel

theorem demo_accepts : IsCtor demoDerived[1] ["string"] := by
  refine ⟨rfl, (Scope.isSignatureValid_iff _ _).1 (by decide)⟩

/-- The hypotheses of `own_constructor_runs_partial`. -/
example : newExpr [demoDerived, demoBase] ["string"] = .runs demoDerived[1] := by
  apply own_constructor_runs_partial _ _ _ _ (by decide) demo_accepts (by decide)
  · intro m' hm' hc
    have : ∀ m ∈ demoDerived, m.name = "Constructor" ∧ Scope.isSignatureValid m.sig ["string"] = true →
        m = demoDerived[1] := by decide
    exact this m' hm' ⟨hc.1, (Scope.isSignatureValid_iff _ _).2 hc.2⟩
  · intro k hk m' hm' _
    rw [List.mem_singleton.1 hk] at hm'
    rw [List.mem_singleton.1 hm']

/-- The hypotheses of `private_constructor_refuted`. -/
example : ∃ m, newExpr [demoDerived, demoBase] [] = .runs m ∧ ∃ k ∈ lineage [demoBase], m ∈ k := by
  apply private_constructor_refuted
  intro m hm hc
  have : ∀ m ∈ demoDerived, m.name = "Constructor" ∧ Scope.isSignatureValid m.sig [] = true →
      m.vis = .priv ∨ m.vis = .designtime := by decide
  exact this m hm ⟨hc.1, (Scope.isSignatureValid_iff _ _).2 hc.2⟩

/-- The hypotheses of `nearest_destructor_runs_partial`. -/
example : destructorOf [demoDerived, demoBase] ≠ none := by
  have h := nearest_destructor_runs_partial [demoDerived, demoBase] (by decide)
    (fun k hk m hm _ => (by decide : ∀ k ∈ [demoDerived, demoBase], ∀ m ∈ k, m.final = false) k hk m hm)
  intro hn
  exact h.2.1 hn demoDerived (by simp) demoDerived[2] (by decide) ⟨rfl, (Scope.isSignatureValid_iff _ _).1 (by decide)⟩

end Verif.Objs
