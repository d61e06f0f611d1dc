import Verif.Classes.Model
import Verif.Scope.Lemmas

/-!
# What the rules for classes guarantee
-/

namespace Verif
namespace Classes

/-! ## C48: redefining methods -/

/-- A method of the tables that the new method redefines: it has the same name and would accept a call with
arguments of the types of the new method's parameters. -/
def Redefines (t : Tables) (m old : Method) : Prop :=
  (old ∈ t.own ∨ old ∈ t.ext) ∧ old.name = m.name ∧ Scope.Accepts old.sig m.types

/-- The rules for a redefinition. -/
structure Allowed (old new : Method) : Prop where
  overridable : old.layout = .abstract ∨ old.layout = .virtual
  notFinal : old.layout ≠ .final
  notStatic : old.layout ≠ .static
  declared : new.kind = .method → new.layout = .override ∨ new.layout = .abstract
  constReturn : old.constReturn = new.constReturn
  constMethod : old.constMethod = new.constMethod
  ret : old.ret = new.ret

/-- Different methods have different addresses. -/
def Distinct (t : Tables) : Prop := ∀ x y, (x ∈ t.own ∨ x ∈ t.ext) → (y ∈ t.own ∨ y ∈ t.ext) → x.id = y.id → x = y

theorem resolve_some {t : Tables} {m o : Method} (h : t.resolve m.name m.types = some o) : Redefines t m o := by
  unfold Tables.resolve at h
  rcases Option.or_eq_some_iff.1 h with h | ⟨-, h⟩
  · have := List.find?_some h
    simp only [Bool.and_eq_true, beq_iff_eq, Scope.isSignatureValid_iff] at this
    exact ⟨.inl (List.mem_of_find?_eq_some h), this⟩
  · have := List.find?_some h
    simp only [Bool.and_eq_true, beq_iff_eq, Scope.isSignatureValid_iff] at this
    exact ⟨.inr (List.mem_of_find?_eq_some h), this⟩

theorem resolve_none {t : Tables} {m : Method} : t.resolve m.name m.types = none ↔ ∀ old, ¬ Redefines t m old := by
  unfold Tables.resolve
  rw [Option.or_eq_none_iff, List.find?_eq_none, List.find?_eq_none]
  simp only [Bool.and_eq_true, beq_iff_eq, Scope.isSignatureValid_iff, Redefines]
  constructor
  · rintro ⟨h1, h2⟩ old ⟨ho | ho, hr⟩
    · exact h1 old ho hr
    · exact h2 old ho hr
  · intro h
    exact ⟨fun o ho hr => h o ⟨.inl ho, hr⟩, fun o ho hr => h o ⟨.inr ho, hr⟩⟩

/-- What `defineMethod` does, by the method it finds. -/
theorem defineMethod_cases (t : Tables) (m : Method) (k : Nat) :
    ((∀ old, ¬ Redefines t m old) ∧ t.defineMethod m k = t.insert m k) ∨
    (∃ old, Redefines t m old ∧ ¬ Allowed old m ∧ t.defineMethod m k = (.rejected, t)) ∨
    (∃ old, Redefines t m old ∧ Allowed old m ∧
      t.defineMethod m k = if t.ext.any fun x => x.id = old.id then (.undefined, t.undefine old) else (t.undefine old).insert m k) := by
  unfold Tables.defineMethod
  cases h : t.resolve m.name m.types with
  | none => exact .inl ⟨resolve_none.1 h, rfl⟩
  | some old =>
    refine .inr ?_
    have hr := resolve_some h
    dsimp only
    split
    · rename_i h1
      simp only [ne_eq, Bool.and_eq_true, decide_eq_true_eq] at h1
      exact .inl ⟨old, hr, fun ha => ha.overridable.elim h1.1 h1.2, rfl⟩
    · rename_i h1
      split
      · rename_i h2
        simp only [ne_eq, Bool.and_eq_true, decide_eq_true_eq] at h2
        exact .inl ⟨old, hr, fun ha => (ha.declared h2.1.1).elim h2.2 h2.1.2, rfl⟩
      · rename_i h2
        split
        · rename_i h3; exact .inl ⟨old, hr, fun ha => h3 ha.constReturn, rfl⟩
        · rename_i h3
          split
          · rename_i h4; exact .inl ⟨old, hr, fun ha => h4 ha.constMethod, rfl⟩
          · rename_i h4
            split
            · rename_i h5; exact .inl ⟨old, hr, fun ha => ha.notFinal h5, rfl⟩
            · rename_i h5
              split
              · rename_i h6; exact .inl ⟨old, hr, fun ha => ha.notStatic h6, rfl⟩
              · rename_i h6
                split
                · rename_i h7; exact .inl ⟨old, hr, fun ha => h7 ha.ret, rfl⟩
                · rename_i h7
                  refine .inr ⟨old, hr, ⟨?_, h5, h6, ?_, ?_, ?_, ?_⟩, rfl⟩
                  · simp only [ne_eq, Bool.and_eq_true, decide_eq_true_eq, not_and, Decidable.not_not] at h1
                    by_cases ha : old.layout = .abstract
                    · exact .inl ha
                    · exact .inr (h1 ha)
                  · intro hk
                    simp only [ne_eq, Bool.and_eq_true, decide_eq_true_eq, not_and, Decidable.not_not] at h2
                    by_cases ha : m.layout = .abstract
                    · exact .inr ha
                    · exact .inl (h2 ⟨hk, ha⟩)
                  · exact Decidable.not_not.1 h3
                  · exact Decidable.not_not.1 h4
                  · exact Decidable.not_not.1 h7

theorem mem_take_drop {α : Type} {l : List α} {k : Nat} {a x : α} : x ∈ l.take k ++ a :: l.drop k ↔ x = a ∨ x ∈ l := by
  have h : x ∈ l ↔ x ∈ l.take k ∨ x ∈ l.drop k := by
    rw [← List.mem_append, List.take_append_drop]
  rw [List.mem_append, List.mem_cons, h]
  constructor
  · rintro (h | h | h)
    · exact .inr (.inl h)
    · exact .inl h
    · exact .inr (.inr h)
  · rintro (h | h | h)
    · exact .inr (.inl h)
    · exact .inl h
    · exact .inr (.inr h)

/-- **C48**.  A redefinition is accepted only if every method it redefines is abstract or virtual, neither final
nor static, the new method is declared as override or abstract, and constness and return type agree. -/
theorem override_rules {t t' : Tables} {m : Method} {k : Nat} (hd : Distinct t) (h : t.defineMethod m k = (.accepted, t'))
    {old : Method} (hr : Redefines t m old) : Allowed old m := by
  rcases defineMethod_cases t m k with ⟨h1, h2⟩ | ⟨o, -, -, h2⟩ | ⟨o, ho, ha, h2⟩
  · exact absurd hr (h1 old)
  · rw [h2] at h; cases h
  · rw [h2] at h
    split at h
    · cases h
    · rename_i hx
      unfold Tables.insert at h
      split at h
      · cases h
      · rename_i hn
        by_cases hid : old.id = o.id
        · rw [hd old o hr.1 ho.1 hid]; exact ha
        · refine absurd ⟨?_, hr.2⟩ (resolve_none.1 hn old)
          rcases hr.1 with h | h
          · exact .inl (by simp [Tables.undefine, h, hid])
          · exact .inr h

/-- **C48**.  An accepted redefinition replaces the redefined method and keeps all others. -/
theorem override_replaces {t t' : Tables} {m : Method} {k : Nat} (hd : Distinct t) (h : t.defineMethod m k = (.accepted, t')) :
    t'.ext = t.ext ∧ ∀ x, x ∈ t'.own ↔ x = m ∨ (x ∈ t.own ∧ ¬ Redefines t m x) := by
  rcases defineMethod_cases t m k with ⟨h1, h2⟩ | ⟨o, -, -, h2⟩ | ⟨o, ho, ha, h2⟩
  · rw [h2, Tables.insert, resolve_none.2 h1] at h
    cases h
    refine ⟨rfl, fun x => ?_⟩
    rw [mem_take_drop]
    constructor
    · rintro (h | h)
      · exact .inl h
      · exact .inr ⟨h, h1 x⟩
    · rintro (h | h)
      · exact .inl h
      · exact .inr h.1
  · rw [h2] at h; cases h
  · rw [h2] at h
    split at h
    · cases h
    · rename_i hx
      unfold Tables.insert at h
      split at h
      · cases h
      · rename_i hn
        cases h
        refine ⟨rfl, fun x => ?_⟩
        rw [mem_take_drop]
        have hn := resolve_none.1 hn
        simp only [Tables.undefine, List.mem_filter, decide_eq_true_eq]
        constructor
        · rintro (h | ⟨h, hne⟩)
          · exact .inl h
          · refine .inr ⟨h, fun hr => hn x ⟨.inl ?_, hr.2⟩⟩
            simp [Tables.undefine, h, hne]
        · rintro (h | ⟨h, hne⟩)
          · exact .inl h
          · refine .inr ⟨h, fun hid => hne ?_⟩
            rw [hd x o (.inl h) ho.1 hid]
            exact ho

/-- **C48** (partial).  A rejected redefinition changes nothing, if at most one method is redefined.
Missing: a definition that redefines two methods; it is rejected, but the first of them is lost
(`rejected_unchanged_refuted`). -/
theorem rejected_unchanged_partial {t t' : Tables} {m : Method} {k : Nat} (h : t.defineMethod m k = (.rejected, t'))
    (hu : ∀ x y, Redefines t m x → Redefines t m y → x = y) : t' = t := by
  rcases defineMethod_cases t m k with ⟨h1, h2⟩ | ⟨o, -, -, h2⟩ | ⟨o, ho, ha, h2⟩
  · rw [h2, Tables.insert, resolve_none.2 h1] at h
    cases h
  · rw [h2] at h; cases h; rfl
  · rw [h2] at h
    split at h
    · cases h
    · rename_i hx
      unfold Tables.insert at h
      split at h
      · rename_i o' hs
        exfalso
        obtain ⟨hm, hr⟩ := resolve_some hs
        have hm' : o' ∈ t.own ∨ o' ∈ t.ext := by
          rcases hm with hm | hm
          · exact .inl (List.mem_filter.1 hm).1
          · exact .inr hm
        have := hu o' o ⟨hm', hr⟩ ho
        subst this
        rcases hm with hm | hm
        · have := (List.mem_filter.1 hm).2
          simp at this
        · simp only [List.any_eq_true, decide_eq_true_eq, not_exists, not_and] at hx
          exact hx o' hm rfl
      · cases h

/-- **C48** (partial).  If a single own method is redefined and the rules are met, the redefinition is accepted. -/
theorem override_accepted_partial {t : Tables} {m old : Method} {k : Nat} (hr : Redefines t m old) (ho : ∀ x ∈ t.ext, x.id ≠ old.id)
    (hu : ∀ x, Redefines t m x → x = old) (ha : Allowed old m) : (t.defineMethod m k).1 = .accepted := by
  rcases defineMethod_cases t m k with ⟨h1, h2⟩ | ⟨o, h1, h2, h3⟩ | ⟨o, h1, h2, h3⟩
  · exact absurd hr (h1 old)
  · rw [hu o h1] at h2; exact absurd ha h2
  · have := hu o h1
    subst this
    rw [h3, if_neg (by simpa using ho), Tables.insert, resolve_none.2]
    rintro x ⟨hx, hx'⟩
    rcases hx with hx | hx
    · have hm := List.mem_filter.1 hx
      have := hu x ⟨.inl hm.1, hx'⟩
      subst this
      simp at hm
    · have := hu x ⟨.inr hx, hx'⟩
      subst this
      exact ho x hx rfl

/-- `virtual void f( int )`, `virtual void f( int, int = 0 )`, then `override void f( int )`: rejected, but a
method is gone. -/
theorem rejected_unchanged_refuted :
    let t : Tables := ⟨[], [⟨1, "f", [⟨"int", false⟩], "void", .virtual, .method, false, true, .pub⟩,
      ⟨2, "f", [⟨"int", false⟩, ⟨"int", true⟩], "void", .virtual, .method, false, true, .pub⟩], []⟩
    let m : Method := ⟨3, "f", [⟨"int", false⟩], "void", .override, .method, false, true, .pub⟩
    (t.defineMethod m 2).1 = .rejected ∧ (t.defineMethod m 2).2.own.map Method.id = [2] := by
  decide

/-- A member variable of the same name is lost with an accepted redefinition. -/
theorem member_lost_refuted :
    let t : Tables := ⟨["f", "g"], [⟨1, "f", [], "void", .virtual, .method, false, true, .pub⟩], []⟩
    let m : Method := ⟨2, "f", [], "void", .override, .method, false, true, .pub⟩
    (t.defineMethod m 0).1 = .accepted ∧ (t.defineMethod m 0).2.symbols = ["g"] := by
  decide

/-- Redefining a method that has been taken over from an ancestor reads the deleted method. -/
theorem inherited_redefinition_refuted {t : Tables} {m old : Method} {k : Nat} (hr : Redefines t m old) (ho : old ∈ t.ext)
    (hu : ∀ x, Redefines t m x → x = old) (ha : Allowed old m) : (t.defineMethod m k).1 = .undefined := by
  rcases defineMethod_cases t m k with ⟨h1, h2⟩ | ⟨o, h1, h2, h3⟩ | ⟨o, h1, h2, h3⟩
  · exact absurd hr (h1 old)
  · rw [hu o h1] at h2; exact absurd ha h2
  · have := hu o h1
    subst this
    rw [h3, if_pos (List.any_eq_true.2 ⟨o, ho, by simp⟩)]

/-- **C48**.  A class takes over exactly the public and the protected methods its ancestor declares. -/
theorem inherited_methods (t parent : Tables) :
    (t.inherit parent).own = t.own ∧ (t.inherit parent).symbols = t.symbols ∧
    ∀ x, x ∈ (t.inherit parent).ext ↔ x ∈ t.ext ∨ (x ∈ parent.own ∧ (x.vis = .pub ∨ x.vis = .prot)) := by
  refine ⟨rfl, rfl, fun x => ?_⟩
  have : decide (Scope.Vis.prot.rank ≤ x.vis.rank) = true ↔ x.vis = .pub ∨ x.vis = .prot := by
    cases x.vis <;> simp [Scope.Vis.rank]
  simp only [Tables.inherit, List.mem_append, List.mem_filter, this]

/-- Since ancestors are taken over after the methods have been defined, the rules are not checked for inherited
methods: a class redefines a final method of its ancestor with another return type. -/
theorem final_inherited_refuted : ∃ parent child : List (Method × Nat), ∃ p c old new,
    analyse {} parent = some p ∧ analyse {} child = some c ∧ old ∈ (c.inherit p).ext ∧ new ∈ (c.inherit p).own ∧
      Redefines (c.inherit p) new old ∧ old.layout = .final ∧ old.ret ≠ new.ret := by
  refine ⟨[(⟨1, "f", [⟨"int", false⟩], "void", .final, .method, false, true, .pub⟩, 0)],
    [(⟨2, "f", [⟨"int", false⟩], "string", .virtual, .method, false, true, .pub⟩, 0)], _, _,
    ⟨1, "f", [⟨"int", false⟩], "void", .final, .method, false, true, .pub⟩,
    ⟨2, "f", [⟨"int", false⟩], "string", .virtual, .method, false, true, .pub⟩, rfl, rfl, by decide, by decide, ?_, rfl, by decide⟩
  exact ⟨by decide, rfl, (Scope.isSignatureValid_iff _ _).1 (by decide)⟩

/-- The hypotheses of the theorems above: an abstract method next to an overload, and its implementation. -/
def shape : Tables := ⟨["mName"], [⟨1, "area", [], "float", .abstract, .method, false, true, .pub⟩,
  ⟨2, "area", [⟨"int", false⟩], "float", .final, .method, false, true, .pub⟩], []⟩
def implementation : Method := ⟨3, "area", [], "float", .override, .method, false, true, .pub⟩

example : Distinct shape ∧ (shape.defineMethod implementation 1).1 = .accepted ∧
    Redefines shape implementation ⟨1, "area", [], "float", .abstract, .method, false, true, .pub⟩ := by
  refine ⟨?_, by decide, by decide, rfl, (Scope.isSignatureValid_iff _ _).1 (by decide)⟩
  intro x y hx hy h
  simp only [shape, List.mem_cons, List.not_mem_nil, or_false] at hx hy
  rcases hx with rfl | rfl <;> rcases hy with rfl | rfl <;> first | rfl | cases h

example : (shape.defineMethod { implementation with ret := "int" } 1).1 = .rejected := by decide

/-! ## C49: ancestors -/

/-- `a` is a direct ancestor of `c`. -/
def Parent (P : Program) (c a : String) : Prop := ∃ C, P.find c = some C ∧ a ∈ C.ancestors

/-- `a` is an ancestor of `c`, direct or not. -/
inductive Above (P : Program) : String → String → Prop
  | direct {c a : String} (h : Parent P c a) : Above P c a
  | step {c b a : String} (h : Parent P c b) (h' : Above P b a) : Above P c a

/-- No class is its own ancestor. -/
def Acyclic (P : Program) : Prop := ∀ c, ¬ Above P c c

theorem Above.trans {P : Program} {a b c : String} (h : Above P a b) (h' : Above P b c) : Above P a c := by
  induction h with
  | direct h => exact .step h h'
  | step h _ ih => exact .step h (ih h')

/-- The classes in the order in which they have been prepared, latest first: each is known, and its direct
ancestors have been prepared before. -/
def Ordered (P : Program) : List String → Prop
  | [] => True
  | c :: l => (∀ a, Parent P c a → a ∈ l) ∧ (P.find c).isSome = true ∧ Ordered P l

theorem Ordered.above {P : Program} {c a : String} (h : Above P c a) : ∀ {l : List String}, Ordered P l → c ∈ l → a ∈ l := by
  induction h with
  | @direct c a h =>
    intro l
    induction l with
    | nil => intro _ h; cases h
    | cons x l ih =>
      rintro ⟨h1, -, h3⟩ hc
      rcases List.mem_cons.1 hc with rfl | hc
      · exact List.mem_cons_of_mem _ (h1 a h)
      · exact List.mem_cons_of_mem _ (ih h3 hc)
  | @step c b a h _ ih =>
    intro l hl hc
    refine ih hl ?_
    clear ih
    induction l with
    | nil => cases hc
    | cons x l ih =>
      obtain ⟨h1, -, h3⟩ := hl
      rcases List.mem_cons.1 hc with rfl | hc
      · exact List.mem_cons_of_mem _ (h1 b h)
      · exact List.mem_cons_of_mem _ (ih h3 hc)

theorem Ordered.acyclic {P : Program} : ∀ {l : List String}, Ordered P l → ∀ c ∈ l, ¬ Above P c c
  | [], _, _, hc => by cases hc
  | x :: l, ⟨h1, h2, h3⟩, c, hc => by
    intro h
    by_cases hcl : c ∈ l
    · exact Ordered.acyclic h3 c hcl h
    · rcases List.mem_cons.1 hc with rfl | hc
      · cases h with
        | direct h => exact hcl (h1 c h)
        | step h h' => exact hcl (Ordered.above h' h3 (h1 _ h))
      · exact hcl hc

theorem Ordered.split {P : Program} : ∀ {l₁ l₂ : List String} {c a : String}, Ordered P (l₁ ++ c :: l₂) → Parent P c a → a ∈ l₂
  | [], _, _, a, h, hp => h.1 a hp
  | _ :: _, _, _, _, h, hp => Ordered.split h.2.2 hp

theorem prepareAll_ordered {P : Program} {n : Nat}
    (ih : ∀ s s' c, prepare P n s c = some (.ok s') → Ordered P s.prepared →
      Ordered P s'.prepared ∧ c ∈ s'.prepared ∧ ∀ x ∈ s.prepared, x ∈ s'.prepared) :
    ∀ (as : List String) (s s' : State) (c : String), prepareAll P n s c as = some (.ok s') → Ordered P s.prepared →
      Ordered P s'.prepared ∧ (∀ a ∈ as, a ∈ s'.prepared) ∧ ∀ x ∈ s.prepared, x ∈ s'.prepared := by
  intro as
  induction as with
  | nil =>
    intro s s' c h ho
    rw [prepareAll] at h
    cases h
    exact ⟨ho, by simp, fun _ h => h⟩
  | cons a as iha =>
    intro s s' c h ho
    rw [prepareAll] at h
    split at h
    · cases h
    · split at h
      · cases h
      · split at h
        · rename_i s₁ hs₁
          have h₁ : Ordered P s₁.prepared ∧ a ∈ s₁.prepared ∧ ∀ x ∈ s.prepared, x ∈ s₁.prepared := by
            split at hs₁
            · rename_i hc
              cases hs₁
              exact ⟨ho, by simpa using hc, fun _ h => h⟩
            · exact ih _ _ _ hs₁ ho
          split at h
          · cases h
          · rename_i xs _
            obtain ⟨h2, h3, h4⟩ := iha _ _ _ h h₁.1
            refine ⟨h2, ?_, fun x hx => h4 x (h₁.2.2 x hx)⟩
            intro b hb
            rcases List.mem_cons.1 hb with rfl | hb
            · exact h4 _ h₁.2.1
            · exact h3 b hb
        · rename_i hne
          exact absurd h (hne _)

theorem prepare_ordered {P : Program} : ∀ (n : Nat) (s s' : State) (c : String), prepare P n s c = some (.ok s') → Ordered P s.prepared →
    Ordered P s'.prepared ∧ c ∈ s'.prepared ∧ ∀ x ∈ s.prepared, x ∈ s'.prepared := by
  intro n
  induction n with
  | zero => intro s s' c h; rw [prepare] at h; cases h
  | succ n ih =>
    intro s s' c h ho
    rw [prepare] at h
    split at h
    · cases h
    · rename_i C hC
      split at h
      · rename_i s₁ hs₁
        cases h
        obtain ⟨h1, h2, h3⟩ := prepareAll_ordered ih _ _ _ _ hs₁ ho
        refine ⟨⟨?_, by simp [hC], h1⟩, List.mem_cons_self, fun x hx => List.mem_cons_of_mem _ (h3 x hx)⟩
        rintro a ⟨C', hC', ha⟩
        rw [hC] at hC'
        cases hC'
        exact h2 a ha
      · rename_i hne
        exact absurd h (hne _)

theorem prepareProgram_ordered {P : Program} {n : Nat} : ∀ (cs : List String) (s s' : State), prepareProgram P n s cs = some (.ok s') →
    Ordered P s.prepared → Ordered P s'.prepared ∧ (∀ c ∈ cs, c ∈ s'.prepared) ∧ ∀ x ∈ s.prepared, x ∈ s'.prepared := by
  intro cs
  induction cs with
  | nil =>
    intro s s' h ho
    rw [prepareProgram] at h
    cases h
    exact ⟨ho, by simp, fun _ h => h⟩
  | cons c cs ih =>
    intro s s' h ho
    rw [prepareProgram] at h
    split at h
    · rename_i s₁ hs₁
      have h₁ : Ordered P s₁.prepared ∧ c ∈ s₁.prepared ∧ ∀ x ∈ s.prepared, x ∈ s₁.prepared := by
        split at hs₁
        · rename_i hc
          cases hs₁
          exact ⟨ho, by simpa using hc, fun _ h => h⟩
        · exact prepare_ordered _ _ _ _ hs₁ ho
      obtain ⟨h2, h3, h4⟩ := ih _ _ h h₁.1
      refine ⟨h2, ?_, fun x hx => h4 x (h₁.2.2 x hx)⟩
      intro b hb
      rcases List.mem_cons.1 hb with rfl | hb
      · exact h4 _ h₁.2.1
      · exact h3 b hb
    · rename_i hne
      exact absurd h (hne _)

/-- **C49**.  If the classes of a program are prepared successfully, then every class and every ancestor of it is
known and prepared, each class after its direct ancestors, and none is its own ancestor. -/
theorem prepared_after_ancestors {P : Program} {n : Nat} {cs : List String} {s : State} (h : prepareProgram P n {} cs = some (.ok s)) :
    (∀ c ∈ cs, c ∈ s.prepared ∧ ∀ a, Above P c a → a ∈ s.prepared) ∧
    (∀ c ∈ s.prepared, (P.find c).isSome = true ∧ ¬ Above P c c) ∧
    ∀ l₁ c l₂, s.prepared = l₁ ++ c :: l₂ → ∀ a, Parent P c a → a ∈ l₂ := by
  obtain ⟨h1, h2, -⟩ := prepareProgram_ordered cs {} s h trivial
  refine ⟨fun c hc => ⟨h2 c hc, fun a ha => h1.above ha (h2 c hc)⟩, fun c hc => ⟨?_, h1.acyclic c hc⟩, ?_⟩
  · clear h2 h
    generalize s.prepared = l at h1 hc
    induction l with
    | nil => cases hc
    | cons x l ih =>
      rcases List.mem_cons.1 hc with rfl | hc
      · exact h1.2.1
      · exact ih h1.2.2 hc
  · intro l₁ c l₂ he a ha
    rw [he] at h1
    exact h1.split ha

/-- **C49**.  A program with a class that is its own ancestor is never accepted. -/
theorem cycle_never_accepted {P : Program} {n : Nat} {cs : List String} {c : String} (hc : c ∈ cs) (h : Above P c c) :
    ∀ s, prepareProgram P n {} cs ≠ some (.ok s) := by
  intro s hs
  obtain ⟨h1, h2, -⟩ := prepared_after_ancestors hs
  exact (h2 c (h1 c hc).1).2 h

/-- Every cycle of the ancestor relation has at most two members: a class cannot be an ancestor of its direct
ancestor without being a direct one. -/
def ShortCycles (P : Program) : Prop := ∀ c a, Parent P c a → Above P a c → Parent P a c

theorem Acyclic.short {P : Program} (h : Acyclic P) : ShortCycles P := fun c _ h1 h2 => absurd (.step h1 h2) (h c)

open Classical in
/-- The number of classes among a class and its ancestors. -/
noncomputable def rank (P : Program) (c : String) : Nat := (P.keys).countP fun x => x = c ∨ Above P c x

theorem countP_lt {α : Type} {p q : α → Bool} : ∀ {l : List α}, (∀ x ∈ l, p x = true → q x = true) → (∃ x ∈ l, q x = true ∧ p x = false) →
    l.countP p < l.countP q
  | [], _, h => by obtain ⟨x, hx, -⟩ := h; cases hx
  | a :: l, h, h' => by
    have hle : l.countP p ≤ l.countP q := List.countP_mono_left fun x hx => h x (List.mem_cons_of_mem _ hx)
    obtain ⟨x, hx, hq, hp⟩ := h'
    rcases List.mem_cons.1 hx with rfl | hx
    · rw [List.countP_cons_of_pos hq, List.countP_cons_of_neg (by simp [hp])]
      omega
    · have := countP_lt (l := l) (fun x hx => h x (List.mem_cons_of_mem _ hx)) ⟨x, hx, hq, hp⟩
      by_cases ha : p a = true
      · rw [List.countP_cons_of_pos ha, List.countP_cons_of_pos (h a (by simp) ha)]
        omega
      · rw [List.countP_cons_of_neg ha]
        rw [List.countP_cons]
        split <;> omega

theorem find_mem_keys {P : Program} {c : String} {C : Class} (h : P.find c = some C) : c ∈ P.keys := by
  induction P with
  | nil => cases h
  | cons x P ih =>
    obtain ⟨k, v⟩ := x
    simp only [AMap.find] at h
    simp only [AMap.keys, List.map_cons, List.mem_cons]
    by_cases hk : k = c
    · exact .inl hk.symm
    · rw [if_neg hk] at h
      exact .inr (ih h)

theorem rank_lt {P : Program} {c a : String} (h : Parent P c a) (h' : ¬ Above P a c) (hne : a ≠ c) : rank P a < rank P c := by
  unfold rank
  obtain ⟨C, hC, ha⟩ := h
  refine countP_lt ?_ ⟨c, find_mem_keys hC, by simp, by simp [Ne.symm hne, h']⟩
  intro x _ hx
  simp only [decide_eq_true_eq] at hx ⊢
  rcases hx with rfl | hx
  · exact .inr (.direct ⟨C, hC, ha⟩)
  · exact .inr (.step ⟨C, hC, ha⟩ hx)

open Classical in
theorem rank_le (P : Program) (c : String) : rank P c ≤ P.length := by
  unfold rank
  have := List.countP_le_length (p := fun x => decide (x = c ∨ Above P c x)) (l := P.keys)
  simpa [AMap.keys] using this

theorem inheritsFrom_iff {C : Class} {c : String} : C.inheritsFrom c = true ↔ c ∈ C.ancestors := by
  simp [Class.inheritsFrom]

theorem prepareAll_ends {P : Program} {n : Nat} {c : String} {C : Class} (hP : ShortCycles P) (hC : P.find c = some C)
    (ih : ∀ s a, rank P a < n → prepare P n s a ≠ none) (hn : rank P c ≤ n) :
    ∀ (as : List String) (s : State), (∀ a ∈ as, a ∈ C.ancestors) → prepareAll P n s c as ≠ none := by
  intro as
  induction as with
  | nil => intro s _; rw [prepareAll]; simp
  | cons a as iha =>
    intro s has
    rw [prepareAll]
    split
    · simp
    · rename_i A hA
      split
      · simp
      · rename_i hi
        rw [inheritsFrom_iff] at hi
        have hp : Parent P c a := ⟨C, hC, has a (by simp)⟩
        have hna : ¬ Parent P a c := by
          rintro ⟨A', hA', h⟩
          rw [hA] at hA'
          cases hA'
          exact hi h
        have hnab : ¬ Above P a c := fun h => hna (hP c a hp h)
        have hne : a ≠ c := by
          rintro rfl
          exact hna hp
        have hlt := rank_lt hp hnab hne
        split
        · split
          · simp
          · exact iha _ fun b hb => has b (List.mem_cons_of_mem _ hb)
        · rename_i hr
          split
          · simp
          · exact ih s a (by omega)

theorem prepare_ends {P : Program} (hP : ShortCycles P) : ∀ (n : Nat) (s : State) (c : String), rank P c < n → prepare P n s c ≠ none := by
  intro n
  induction n with
  | zero => intro s c h; omega
  | succ n ih =>
    intro s c h
    rw [prepare]
    split
    · simp
    · rename_i C hC
      have := prepareAll_ends hP hC (fun s a ha => ih s a ha) (by omega) C.ancestors s fun _ h => h
      split
      · simp
      · exact this

theorem prepareProgram_ends {P : Program} (hP : ShortCycles P) {n : Nat} (hn : P.length < n) : ∀ (cs : List String) (s : State),
    prepareProgram P n s cs ≠ none := by
  intro cs
  induction cs with
  | nil => intro s; rw [prepareProgram]; simp
  | cons c cs ih =>
    intro s
    rw [prepareProgram]
    split
    · exact ih _
    · split
      · simp
      · exact prepare_ends hP n s c (by have := rank_le P c; omega)

/-- **C49** (partial).  A program with a class that is its own ancestor is rejected with an error, if no cycle of
the ancestor relation has more than two members; the nesting never exceeds the number of classes.
Missing: longer cycles; for them the preparation never ends (`long_cycle_refuted`). -/
theorem cycle_rejected_partial {P : Program} (hP : ShortCycles P) {cs : List String} {c : String} (hc : c ∈ cs) (h : Above P c c)
    {n : Nat} (hn : P.length < n) : ∃ e, prepareProgram P n {} cs = some (.error e) := by
  cases hr : prepareProgram P n {} cs with
  | none => exact absurd hr (prepareProgram_ends hP hn cs {})
  | some r =>
    cases r with
    | error e => exact ⟨e, rfl⟩
    | ok s => exact absurd hr (cycle_never_accepted hc h s)

/-- The symbols a class takes over from its direct ancestors have different names. -/
def NoClash (P : Program) : Prop := ∀ c C, P.find c = some C →
  (C.ancestors.flatMap fun a => ((P.find a).map Class.symbols).getD []).Nodup

/-- Every direct ancestor is a class of the program. -/
def Closed (P : Program) : Prop := ∀ c a, Parent P c a → ∃ A, P.find a = some A

theorem takeOver_ok : ∀ {xs h : List String}, (h ++ xs).Nodup → takeOver h xs = .ok (xs.reverse ++ h)
  | [], h, _ => by simp [takeOver]
  | x :: xs, h, hn => by
    have hx : x ∉ h := by
      intro hx
      have := (List.nodup_append.1 hn).2.2 x hx x (by simp)
      exact this rfl
    rw [takeOver, if_neg (by simpa using hx), takeOver_ok]
    · simp
    · have : (h ++ x :: xs).Perm (x :: h ++ xs) := List.perm_middle
      exact this.nodup_iff.1 hn

/-- Before a class is prepared it has taken over nothing. -/
def Fresh (P : Program) (r : Nat) (s : State) : Prop := ∀ x, rank P x < r → x ∉ s.prepared → s.external.find x = none

theorem prepareAll_ok {P : Program} {n : Nat} {c : String} {C : Class} (hA : Acyclic P) (hK : Closed P) (hC : P.find c = some C)
    (ih : ∀ s a, rank P a < n → (P.find a).isSome = true → a ∉ s.prepared → Fresh P (rank P a + 1) s →
      ∃ s', prepare P n s a = some (.ok s') ∧ (∀ x ∈ s.prepared, x ∈ s'.prepared) ∧ a ∈ s'.prepared ∧
        Fresh P (rank P a + 1) s' ∧ ∀ y, rank P a ≤ rank P y → y ≠ a → s'.external.find y = s.external.find y ∧ (y ∈ s'.prepared → y ∈ s.prepared))
    (hn : rank P c ≤ n) :
    ∀ (as : List String) (s : State), (∀ a ∈ as, a ∈ C.ancestors) → Fresh P (rank P c) s →
      ((s.external.find c).getD [] ++ as.flatMap fun a => ((P.find a).map Class.symbols).getD []).Nodup →
      ∃ s', prepareAll P n s c as = some (.ok s') ∧ (∀ x ∈ s.prepared, x ∈ s'.prepared) ∧ Fresh P (rank P c) s' ∧
        ∀ y, rank P c ≤ rank P y → y ≠ c → s'.external.find y = s.external.find y ∧ (y ∈ s'.prepared → y ∈ s.prepared) := by
  intro as
  induction as with
  | nil =>
    intro s _ hf _
    exact ⟨s, by rw [prepareAll], fun _ h => h, hf, fun _ _ _ => ⟨rfl, fun h => h⟩⟩
  | cons a as iha =>
    intro s has hf hnd
    have hp : Parent P c a := ⟨C, hC, has a (by simp)⟩
    obtain ⟨A, hAa⟩ := hK c a hp
    have hnab : ¬ Above P a c := fun h => hA c (.step hp h)
    have hne : a ≠ c := by rintro rfl; exact hA _ (.direct hp)
    have hlt := rank_lt hp hnab hne
    have hi : A.inheritsFrom c = false := by
      rw [← Bool.not_eq_true, inheritsFrom_iff]
      intro h
      exact hnab (.direct ⟨A, hAa, h⟩)
    -- the ancestor is prepared
    have h1 : ∃ s₁, (if s.prepared.contains a then some (.ok s) else prepare P n s a) = some (.ok s₁) ∧
        (∀ x ∈ s.prepared, x ∈ s₁.prepared) ∧ Fresh P (rank P c) s₁ ∧
        ∀ y, rank P c ≤ rank P y → s₁.external.find y = s.external.find y ∧ (y ∈ s₁.prepared → y ∈ s.prepared) := by
      by_cases hap : a ∈ s.prepared
      · exact ⟨s, by simp [hap], fun _ h => h, hf, fun _ _ => ⟨rfl, fun h => h⟩⟩
      · obtain ⟨s₁, h1, h2, h2', h3, h4⟩ := ih s a (by omega) (by simp [hAa]) hap (fun x hx hx' => hf x (by omega) hx')
        refine ⟨s₁, by simp [hap, h1], h2, ?_, fun y hy => h4 y (by omega) (by rintro rfl; omega)⟩
        intro x hx hx'
        by_cases hxa : rank P x < rank P a + 1
        · exact h3 x hxa hx'
        · have hxne : x ≠ a := by rintro rfl; omega
          rw [(h4 x (by omega) hxne).1]
          exact hf x hx fun h => hx' (h2 x h)
    obtain ⟨s₁, h1, h2, h3, h4⟩ := h1
    have hsym : ((P.find a).map Class.symbols).getD [] = A.symbols := by simp [hAa]
    rw [List.flatMap_cons, hsym, ← List.append_assoc] at hnd
    have hext := (h4 c (Nat.le_refl _)).1
    have htake : takeOver ((s₁.external.find c).getD []) A.symbols = .ok (A.symbols.reverse ++ (s.external.find c).getD []) := by
      rw [hext]
      exact takeOver_ok (List.nodup_append.1 hnd).1
    let s₂ : State := { s₁ with external := s₁.external.set c (A.symbols.reverse ++ (s.external.find c).getD []) }
    have hs₂ : ∀ y, y ≠ c → s₂.external.find y = s₁.external.find y := fun y hy => AMap.find_set_ne (Ne.symm hy) _ _
    obtain ⟨s', h5, h6, h7, h8⟩ := iha s₂ (fun b hb => has b (List.mem_cons_of_mem _ hb))
      (by
        intro x hx hx'
        have : x ≠ c := by rintro rfl; omega
        rw [hs₂ x this]
        exact h3 x hx hx')
      (by
        have : s₂.external.find c = some (A.symbols.reverse ++ (s.external.find c).getD []) := AMap.find_set_self _ _ _
        rw [this, Option.getD_some]
        refine List.Perm.nodup_iff (List.Perm.append_right _ ?_) |>.2 hnd
        exact (List.Perm.append_right _ (List.reverse_perm _)).trans List.perm_append_comm)
    refine ⟨s', ?_, fun x hx => h6 x (h2 x hx), h7, ?_⟩
    · rw [prepareAll, hAa]
      dsimp only
      rw [hi, if_neg (by simp), h1]
      dsimp only
      rw [htake]
      exact h5
    · intro y hy hyc
      obtain ⟨h9, h10⟩ := h8 y hy hyc
      rw [h9, hs₂ y hyc]
      exact ⟨(h4 y hy).1, fun h => (h4 y hy).2 (h10 h)⟩

theorem prepare_ok {P : Program} (hA : Acyclic P) (hK : Closed P) (hN : NoClash P) : ∀ (n : Nat) (s : State) (c : String), rank P c < n →
    (P.find c).isSome = true → c ∉ s.prepared → Fresh P (rank P c + 1) s →
      ∃ s', prepare P n s c = some (.ok s') ∧ (∀ x ∈ s.prepared, x ∈ s'.prepared) ∧ c ∈ s'.prepared ∧
        Fresh P (rank P c + 1) s' ∧ ∀ y, rank P c ≤ rank P y → y ≠ c → s'.external.find y = s.external.find y ∧ (y ∈ s'.prepared → y ∈ s.prepared) := by
  intro n
  induction n with
  | zero => intro s c h; omega
  | succ n ih =>
    intro s c h hc hcp hf
    obtain ⟨C, hC⟩ := Option.isSome_iff_exists.1 hc
    obtain ⟨s', h1, h2, h3, h4⟩ := prepareAll_ok hA hK hC ih (by omega) C.ancestors s (fun _ h => h)
      (fun x hx hx' => hf x (by omega) hx') (by
        rw [hf c (by omega) hcp]
        exact hN c C hC)
    refine ⟨{ s' with prepared := c :: s'.prepared }, ?_, fun x hx => List.mem_cons_of_mem _ (h2 x hx), List.mem_cons_self, ?_, ?_⟩
    · rw [prepare, hC]
      dsimp only
      rw [h1]
    · intro x hx hx'
      simp only [List.mem_cons, not_or] at hx'
      by_cases hxc : rank P x < rank P c
      · exact h3 x hxc hx'.2
      · show s'.external.find x = none
        rw [(h4 x (by omega) hx'.1).1]
        exact hf x hx fun h => hx'.2 (h2 x h)
    · intro y hy hyc
      obtain ⟨h5, h6⟩ := h4 y hy hyc
      refine ⟨h5, fun h => ?_⟩
      rcases List.mem_cons.1 h with h | h
      · exact absurd h hyc
      · exact h6 h

theorem prepareProgram_ok {P : Program} (hA : Acyclic P) (hK : Closed P) (hN : NoClash P) {n : Nat} (hn : P.length < n) :
    ∀ (cs : List String) (s : State), (∀ c ∈ cs, (P.find c).isSome = true) → (∀ x, x ∉ s.prepared → s.external.find x = none) →
      ∃ s', prepareProgram P n s cs = some (.ok s') := by
  intro cs
  induction cs with
  | nil => intro s _ _; exact ⟨s, by rw [prepareProgram]⟩
  | cons c cs ih =>
    intro s hk hf
    by_cases hc : c ∈ s.prepared
    · obtain ⟨s', h⟩ := ih s (fun x hx => hk x (List.mem_cons_of_mem _ hx)) hf
      exact ⟨s', by simp [prepareProgram, hc, h]⟩
    · have := rank_le P c
      obtain ⟨s₁, h1, h2, h3, h4, h5⟩ := prepare_ok hA hK hN n s c (by omega) (hk c (by simp)) hc (fun x _ hx' => hf x hx')
      obtain ⟨s', h⟩ := ih s₁ (fun x hx => hk x (List.mem_cons_of_mem _ hx)) (by
        intro x hx
        by_cases hxc : rank P x < rank P c + 1
        · exact h4 x hxc hx
        · have hne : x ≠ c := by rintro rfl; omega
          rw [(h5 x (by omega) hne).1]
          exact hf x fun h => hx (h2 x h))
      exact ⟨s', by simp [prepareProgram, hc, h1, h]⟩

/-- **C49**.  Every program in which no class is its own ancestor, all ancestors exist, and no class takes over
the same name from two ancestors, is processed successfully; the nesting never exceeds the number of
classes.  (`prepared_after_ancestors` says what success means.) -/
theorem acyclic_processed {P : Program} (hA : Acyclic P) (hK : Closed P) (hN : NoClash P) {cs : List String}
    (hc : ∀ c ∈ cs, (P.find c).isSome = true) {n : Nat} (hn : P.length < n) : ∃ s, prepareProgram P n {} cs = some (.ok s) :=
  prepareProgram_ok hA hK hN hn cs {} hc fun _ _ => rfl

/-- `A extends B`, `B extends C`, `C extends A`. -/
def threeCycle : Program := [("A", ⟨["B"], []⟩), ("B", ⟨["C"], []⟩), ("C", ⟨["A"], []⟩)]

theorem threeCycle_endless : ∀ (n : Nat) (E : AMap String (List String)) (c : String), c ∈ ["A", "B", "C"] → prepare threeCycle n ⟨[], E⟩ c = none := by
  intro n
  induction n with
  | zero => intro E c _; rw [prepare]
  | succ n ih =>
    intro E c hc
    have hA : prepare threeCycle n ⟨[], E⟩ "A" = none := ih E "A" (by simp)
    have hB : prepare threeCycle n ⟨[], E⟩ "B" = none := ih E "B" (by simp)
    have hC : prepare threeCycle n ⟨[], E⟩ "C" = none := ih E "C" (by simp)
    simp only [List.mem_cons, List.not_mem_nil, or_false] at hc
    rcases hc with rfl | rfl | rfl
    · rw [prepare, show threeCycle.find "A" = some ⟨["B"], []⟩ from rfl]
      dsimp only
      rw [prepareAll, show threeCycle.find "B" = some ⟨["C"], []⟩ from rfl]
      simp [Class.inheritsFrom, hB]
    · rw [prepare, show threeCycle.find "B" = some ⟨["C"], []⟩ from rfl]
      dsimp only
      rw [prepareAll, show threeCycle.find "C" = some ⟨["A"], []⟩ from rfl]
      simp [Class.inheritsFrom, hC]
    · rw [prepare, show threeCycle.find "C" = some ⟨["A"], []⟩ from rfl]
      dsimp only
      rw [prepareAll, show threeCycle.find "A" = some ⟨["B"], []⟩ from rfl]
      simp [Class.inheritsFrom, hA]

/-- A cycle of three classes is neither accepted nor rejected: the preparation never ends. -/
theorem long_cycle_refuted : Above threeCycle "A" "A" ∧ ∀ n, prepareProgram threeCycle n {} ["A", "B", "C"] = none := by
  constructor
  · have h1 : Parent threeCycle "A" "B" := ⟨_, rfl, by simp⟩
    have h2 : Parent threeCycle "B" "C" := ⟨_, rfl, by simp⟩
    have h3 : Parent threeCycle "C" "A" := ⟨_, rfl, by simp⟩
    exact .step h1 (.step h2 (.direct h3))
  · intro n
    simp [prepareProgram, threeCycle_endless n [] "A" (by simp)]

/-- A program for `acyclic_processed`: a diamond, with a symbol that two classes take over. -/
def diamond : Program := [("D", ⟨["B", "C"], []⟩), ("B", ⟨["A"], ["x"]⟩), ("C", ⟨["A"], ["y"]⟩), ("A", ⟨[], ["z"]⟩)]

theorem diamond_parent {c a : String} (h : Parent diamond c a) :
    (c = "D" ∧ (a = "B" ∨ a = "C")) ∨ ((c = "B" ∨ c = "C") ∧ a = "A") := by
  obtain ⟨C, hC, ha⟩ := h
  simp only [diamond, AMap.find] at hC
  by_cases h1 : c = "D"
  · subst h1; cases hC; simpa using ha
  · rw [if_neg (Ne.symm h1)] at hC
    by_cases h2 : c = "B"
    · subst h2; cases hC; simpa using ha
    · rw [if_neg (Ne.symm h2)] at hC
      by_cases h3 : c = "C"
      · subst h3; cases hC; simpa using ha
      · rw [if_neg (Ne.symm h3)] at hC
        by_cases h4 : c = "A"
        · subst h4; cases hC; simp at ha
        · rw [if_neg (Ne.symm h4)] at hC; cases hC

example : Acyclic diamond ∧ Closed diamond ∧ NoClash diamond := by
  refine ⟨?_, ?_, ?_⟩
  · have key : ∀ c a, Above diamond c a → (c = "D" ∧ a ≠ "D") ∨ ((c = "B" ∨ c = "C") ∧ a = "A") := by
      intro c a h
      induction h with
      | direct h =>
        rcases diamond_parent h with ⟨rfl, rfl | rfl⟩ | h
        · exact .inl ⟨rfl, by decide⟩
        · exact .inl ⟨rfl, by decide⟩
        · exact .inr h
      | step h _ ih =>
        rcases diamond_parent h with ⟨rfl, rfl | rfl⟩ | ⟨h1, rfl⟩
        · rcases ih with ⟨h, -⟩ | ⟨-, rfl⟩
          · exact absurd h (by decide)
          · exact .inl ⟨rfl, by decide⟩
        · rcases ih with ⟨h, -⟩ | ⟨-, rfl⟩
          · exact absurd h (by decide)
          · exact .inl ⟨rfl, by decide⟩
        · rcases ih with ⟨h, -⟩ | ⟨h | h, -⟩ <;> exact absurd h (by decide)
    intro c h
    rcases key c c h with ⟨h1, h2⟩ | ⟨h1, h2⟩
    · exact h2 h1
    · subst h2
      rcases h1 with h1 | h1 <;> exact absurd h1 (by decide)
  · intro c a h
    rcases diamond_parent h with ⟨-, rfl | rfl⟩ | ⟨-, rfl⟩ <;> exact ⟨_, rfl⟩
  · intro c C hC
    simp only [diamond, AMap.find] at hC
    repeat' (split at hC)
    all_goals first | (cases hC; decide) | cases hC

/-- And for `cycle_rejected_partial`: a class that inherits from itself. -/
example : ShortCycles [("A", ⟨["A"], []⟩)] ∧ Above [("A", ⟨["A"], []⟩)] "A" "A" := by
  refine ⟨fun c a h _ => ?_, .direct ⟨_, rfl, by simp⟩⟩
  obtain ⟨C, hC, ha⟩ := h
  simp only [AMap.find] at hC
  split at hC
  · cases hC
    simp only [List.mem_cons, List.not_mem_nil, or_false] at ha
    subst ha
    rename_i hc _
    subst hc
    exact ⟨_, rfl, by simp⟩
  · cases hC

end Classes
end Verif
