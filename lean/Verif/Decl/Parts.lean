import Verif.Decl.Spec
import Verif.Brackets.Props

/-! # The parts of declarations are read as they are written -/

namespace Verif.Decl

open Verif.Str (Text)
open Verif.Lex (Tok Ty Cat)
open Verif.Expr (Res expect)

/-- The list begins with a token of one of these kinds, which is no special word unless it is a reserved one. -/
def Starts (tys : List Ty) (ts : List Tok) : Prop :=
  ∃ t r, ts = t :: r ∧ t.ty ∈ tys ∧ (t.content ∈ noNames → t.ty ∈ [Ty.RESERVED_WORD, .MODIFIER])

theorem no_word {tys : List Ty} {t : Tok} (h1 : t.ty ∈ tys) (h2 : t.content ∈ noNames → t.ty ∈ [Ty.RESERVED_WORD, .MODIFIER])
    (hn : Ty.RESERVED_WORD ∉ tys ∧ Ty.MODIFIER ∉ tys) : t.content ∉ noNames := by
  intro h
  have := h2 h
  simp only [List.mem_cons, List.not_mem_nil, or_false] at this
  rcases this with e | e
  · exact hn.1 (e ▸ h1)
  · exact hn.2 (e ▸ h1)

theorem Starts.mono {a b : List Ty} {ts : List Tok} (h : Starts a ts) (hab : ∀ x ∈ a, x ∈ b := by decide) : Starts b ts := by
  obtain ⟨t, r, e, h1, h2⟩ := h
  exact ⟨t, r, e, hab _ h1, h2⟩

theorem Starts.append {a : List Ty} {ts : List Tok} (h : Starts a ts) (us : List Tok) : Starts a (ts ++ us) := by
  obtain ⟨t, r, e, h1, h2⟩ := h
  exact ⟨t, r ++ us, by simp [e], h1, h2⟩

theorem Is.starts {ty : Ty} {w : String} {t : Tok} (h : Is ty w t) 
    (hw : w.toList ∈ noNames → ty ∈ [Ty.RESERVED_WORD, .MODIFIER] := by decide) (r : List Tok) : Starts [ty] (t :: r) :=
  ⟨t, r, rfl, by simp [h.1], by rw [h.2.1, h.1]; exact hw⟩

theorem NameTok.starts {n : Text} {t : Tok} (h : NameTok n t) (r : List Tok) : Starts [.IDENTIFIER] (t :: r) :=
  ⟨t, r, rfl, by simp [h.1], by rw [h.2.1]; exact fun e => absurd e h.2.2.2⟩

/-- The mutability of a method, which may be missing. -/
theorem attr_next {α : Type} {P : α → Tok → Prop} {o : Option α} {ts rest : List Tok} {ty : Ty} {f : Text → α} {d : α}
    (h : Opt P o ts) (hP : ∀ a t, P a t → t.ty = ty ∧ f t.content = a) (hr : ∃ t r, rest = t :: r ∧ t.ty ≠ ty) :
    attr ty f d (ts ++ rest) = .ok (o.getD d) rest := by
  cases o with
  | none =>
    cases h
    obtain ⟨t, r, rfl, h1⟩ := hr
    simp [attr, h1]
  | some a =>
    obtain ⟨t, rfl, ht⟩ := h
    simp [attr, hP a t ht]

/-- A part that may be missing only adds its own kind to the possible beginnings. -/
theorem Opt.starts {α : Type} {P : α → Tok → Prop} {o : Option α} {ts rest : List Tok} {ty : Ty} {tys : List Ty} (h : Opt P o ts)
    (hP : ∀ a t, P a t → t.ty = ty ∧ (t.content ∈ noNames → t.ty ∈ [Ty.RESERVED_WORD, .MODIFIER])) (hr : Starts tys rest) : Starts (ty :: tys) (ts ++ rest) := by
  cases o with
  | none => cases h; exact hr.mono (by intro x hx; simp [hx])
  | some a =>
    obtain ⟨t, rfl, ht⟩ := h
    exact ⟨t, rest, rfl, by simp [(hP a t ht).1], (hP a t ht).2⟩

theorem attr_opt {α : Type} {P : α → Tok → Prop} {o : Option α} {ts rest : List Tok} {ty : Ty} {tys : List Ty} {f : Text → α} {d : α}
    (h : Opt P o ts) (hP : ∀ a t, P a t → t.ty = ty ∧ f t.content = a) (hr : Starts tys rest) (hn : ty ∉ tys := by decide) :
    attr ty f d (ts ++ rest) = .ok (o.getD d) rest := by
  cases o with
  | none =>
    cases h
    obtain ⟨t, r, rfl, h1, _⟩ := hr
    have : t.ty ≠ ty := fun e => hn (e ▸ h1)
    simp [attr, this]
  | some a =>
    obtain ⟨t, rfl, ht⟩ := h
    simp [attr, hP a t ht]

theorem mutTok {a : Mut} {t : Tok} (h : MutTok a t) : t.ty = .MUTABILITY ∧ mutOf t.content = a := by
  cases a <;> simp only [MutTok] at h
  · exact ⟨h.1, by rw [h.2.1]; decide⟩
  · exact ⟨h.1, by rw [h.2.1]; decide⟩

theorem featureTok {a : Feature} {t : Tok} (h : FeatureTok a t) : t.ty = .LANGUAGE_FEATURE_STATE ∧ featureOf t.content = a := by
  cases a <;> simp only [FeatureTok] at h <;> exact ⟨h.1, by rw [h.2.1]; decide⟩

theorem layoutTok {a : Layout} {t : Tok} (h : LayoutTok a t) : t.ty = .MEMORY_LAYOUT ∧ layoutOf t.content = a := by
  cases a <;> simp only [LayoutTok] at h <;> exact ⟨h.1, by rw [h.2.1]; decide⟩

theorem visTok {a : Vis} {t : Tok} (h : VisTok a t) : t.ty = .VISIBILITY ∧ visOf t.content = some a := by
  cases a <;> simp only [VisTok] at h <;> exact ⟨h.1, by rw [h.2.1]; decide⟩

theorem refTok {a : Bool} {t : Tok} (h : RefTok a t) :
    t.ty = .ACCESS_MODE ∧ accessOf t.content = if a then .byReference else .unspecified := by
  cases a <;> simp only [RefTok] at h <;> exact ⟨h.1, by rw [h.2.1]; decide⟩

theorem visTok_word {a : Vis} {t : Tok} (h : VisTok a t) : t.ty = .VISIBILITY ∧
    (t.content ∈ noNames → t.ty ∈ [Ty.RESERVED_WORD, .MODIFIER]) := by
  cases a <;> simp only [VisTok] at h <;> exact ⟨h.1, by rw [h.2.1, h.1]; decide⟩

theorem featureTok_word {a : Feature} {t : Tok} (h : FeatureTok a t) : t.ty = .LANGUAGE_FEATURE_STATE ∧
    (t.content ∈ noNames → t.ty ∈ [Ty.RESERVED_WORD, .MODIFIER]) := by
  cases a <;> simp only [FeatureTok] at h <;> exact ⟨h.1, by rw [h.2.1, h.1]; decide⟩

theorem layoutTok_word {a : Layout} {t : Tok} (h : LayoutTok a t) : t.ty = .MEMORY_LAYOUT ∧
    (t.content ∈ noNames → t.ty ∈ [Ty.RESERVED_WORD, .MODIFIER]) := by
  cases a <;> simp only [LayoutTok] at h <;> exact ⟨h.1, by rw [h.2.1, h.1]; decide⟩

theorem mutTok_word {a : Mut} {t : Tok} (h : MutTok a t) : t.ty = .MUTABILITY ∧
    (t.content ∈ noNames → t.ty ∈ [Ty.RESERVED_WORD, .MODIFIER]) := by
  cases a <;> simp only [MutTok] at h <;> exact ⟨h.1, by rw [h.2.1, h.1]; decide⟩

theorem refTok_word {a : Bool} {t : Tok} (h : RefTok a t) : t.ty = .ACCESS_MODE ∧
    (t.content ∈ noNames → t.ty ∈ [Ty.RESERVED_WORD, .MODIFIER]) := by
  cases a <;> simp only [RefTok] at h <;> exact ⟨h.1, by rw [h.2.1, h.1]; decide⟩

theorem visibility_opt {o : Option Vis} {ts rest : List Tok} {tys : List Ty} (h : Opt VisTok o ts) (d : Vis) (hr : Starts tys rest)
    (hn : Ty.VISIBILITY ∉ tys := by decide) : visibility d (ts ++ rest) = .ok (o.getD d) rest := by
  cases o with
  | none =>
    cases h
    obtain ⟨t, r, rfl, h1, _⟩ := hr
    have : t.ty ≠ .VISIBILITY := fun e => hn (e ▸ h1)
    simp [visibility, this]
  | some a =>
    obtain ⟨t, rfl, ht⟩ := h
    simp [visibility, visTok ht]

theorem accessMode_opt {o : Option Bool} {ts rest : List Tok} {tys : List Ty} (h : Opt RefTok o ts) (d : Access) (hr : Starts tys rest)
    (hn : Ty.ACCESS_MODE ∉ tys ∧ Ty.RESERVED_WORD ∉ tys ∧ Ty.MODIFIER ∉ tys := by decide) : accessMode d (ts ++ rest) = .ok (accessText d o) rest := by
  cases o with
  | none =>
    cases h
    obtain ⟨t, r, rfl, h1, h2⟩ := hr
    have e1 : t.ty ≠ .ACCESS_MODE := fun e => hn.1 (e ▸ h1)
    have e2 : t.content ≠ "default".toList := fun e => no_word h1 h2 hn.2 (by rw [e]; decide)
    simp only [List.nil_append, accessMode, e1, e2, or_self, if_false, accessText]
  | some a =>
    obtain ⟨t, rfl, ht⟩ := h
    have := refTok ht
    cases a <;> simp [accessMode, this, accessText]

theorem exceptions_opt {o : Option Bool} {ts rest : List Tok} {tys : List Ty} (h : Opt ThrowsTok o ts) (d : Bool) (hr : Starts tys rest)
    (hn : Ty.RESERVED_WORD ∉ tys ∧ Ty.MODIFIER ∉ tys := by decide) : exceptions d (ts ++ rest) = .ok (o.getD d) rest := by
  cases o with
  | none =>
    cases h
    obtain ⟨t, r, rfl, h1, h2⟩ := hr
    have e1 : t.content ≠ "nothrow".toList := fun e => no_word h1 h2 hn (by rw [e]; decide)
    have e2 : t.content ≠ "throws".toList := fun e => no_word h1 h2 hn (by rw [e]; decide)
    simp only [List.nil_append, exceptions, e1, e2, if_false, Option.getD_none]
  | some a =>
    obtain ⟨t, rfl, ht⟩ := h
    cases a <;> simp only [ThrowsTok] at ht
    · simp [exceptions, ht.2.1]
    · have : ("throws".toList : Text) ≠ "nothrow".toList := by decide
      simp only [List.cons_append, List.nil_append, exceptions, ht.2.1, this, if_false, if_true, Option.getD_some]

/-! ## Types -/

theorem Path.starts {ns : List Text} {ts : List Tok} (h : Path ns ts) : Starts [.IDENTIFIER] ts := by
  cases h with
  | one h => exact h.starts _
  | more h _ _ => exact h.starts _

theorem Path.ne_nil {ns : List Text} {ts : List Tok} (h : Path ns ts) : ∃ n ms, ns = n :: ms := by
  cases h <;> exact ⟨_, _, rfl⟩

theorem identify_path {ns : List Text} {ts : List Tok} (h : Path ns ts) {tys : List Ty} {rest : List Tok} (hr : Starts tys rest)
    (hn : Ty.OPERATOR_SCOPE ∉ tys := by decide) : identify (ts ++ rest) = .ok (dotted ns) rest := by
  induction h with
  | @one n t h =>
    obtain ⟨u, r, rfl, h1, _⟩ := hr
    have : u.ty ≠ .OPERATOR_SCOPE := fun e => hn (e ▸ h1)
    simp [identify, h.1, h.2.1, this, dotted]
  | @more n t d ns ts h hd hp ih =>
    obtain ⟨m, ms, rfl⟩ := hp.ne_nil
    simp only [List.cons_append, identify, h.1, if_true, hd.1, ne_eq, not_true_eq_false, if_false, ih, Res.bind, h.2.1, hd.2.1, dotted]
    simp

theorem constraint_none {tys : List Ty} {rest : List Tok} (hr : Starts tys rest) (hn : Ty.COLON ∉ tys := by decide) :
    constraint rest = .ok [] rest := by
  obtain ⟨u, r, rfl, h1, _⟩ := hr
  have : u.ty ≠ .COLON := fun e => hn (e ▸ h1)
  simp [constraint, this]

theorem ArgText.length {a : ArgSrc} {ts : List Tok} (h : ArgText a ts) : 1 ≤ ts.length := by cases h <;> simp

theorem argList_arg {a : ArgSrc} {ts : List Tok} (h : ArgText a ts) {rest : List Tok} {tys : List Ty} (hr : Starts tys rest)
    (n : Nat) (hn : Ty.COLON ∉ tys := by decide) : argList (n + 1) (ts ++ rest) =
      (comma rest).bind fun _ ts => (argList n ts).bind fun as ts => .ok (⟨a.name, a.bound.getD []⟩ :: as) ts := by
  cases h with
  | plain h =>
    simp only [List.cons_append, List.nil_append, argList, h.1, reduceCtorEq, if_false, constraint_none hr hn, Res.bind, h.2.1,
      Option.getD_none]
  | bound h hc hb =>
    simp only [List.cons_append, List.nil_append, argList, h.1, reduceCtorEq, if_false, constraint, hc.1, hb.1, if_true, Res.bind,
      h.2.1, hb.2.1, Option.getD_some]

theorem argList_commas {as : List ArgSrc} {ts : List Tok} (h : Commas ArgText as ts) {g : Tok} (hg : Is .COMPARE_GREATER ">" g)
    (rest : List Tok) : ∀ n, ts.length < n → argList n (ts ++ g :: rest) = .ok (argsOf as) rest := by
  induction h with
  | @one a ts h =>
    intro n hn
    obtain ⟨k, rfl⟩ : ∃ k, n = k + 2 := ⟨n - 2, by have := h.length; omega⟩
    rw [argList_arg h (hg.starts (by decide) rest)]
    simp [comma, hg.1, Res.bind, argList, argsOf]
  | @more a as ts c us h hc _ ih =>
    intro n hn
    simp only [List.length_append, List.length_cons] at hn
    obtain ⟨k, rfl⟩ : ∃ k, n = k + 1 := ⟨n - 1, by omega⟩
    rw [List.append_assoc, List.cons_append, argList_arg h (hc.starts (by decide) _)]
    simp only [comma, hc.1, if_true, Res.bind]
    rw [ih k (by omega)]
    simp [argsOf]

theorem ArgsText.starts {as : List ArgSrc} {ts rest : List Tok} (h : ArgsText as ts) {tys : List Ty} (hr : Starts tys rest) :
    Starts (.COMPARE_LESS :: tys) (ts ++ rest) := by
  cases h with
  | none => exact hr.mono (by intro x hx; simp [hx])
  | some hl _ _ => exact (hl.starts (by decide) _).mono (by simp)

theorem typeArgs_text {as : List ArgSrc} {ts : List Tok} (h : ArgsText as ts) {tys : List Ty} {rest : List Tok} (hr : Starts tys rest)
    (hn : Ty.COMPARE_LESS ∉ tys := by decide) : typeArgs (ts ++ rest) = .ok (argsOf as) rest := by
  cases h with
  | none =>
    obtain ⟨u, r, rfl, h1, _⟩ := hr
    have : u.ty ≠ .COMPARE_LESS := fun e => hn (e ▸ h1)
    simp [typeArgs, this, argsOf]
  | some hl hc hg =>
    simp only [List.cons_append, typeArgs, hl.1, if_true, List.append_assoc, List.nil_append]
    exact argList_commas hc hg rest _ (by simp; omega)

theorem TypeText.starts {d : TypeSrc} {ts : List Tok} (h : TypeText d ts) : Starts [.IDENTIFIER] ts := by
  cases h with
  | mk hp _ _ => exact hp.starts.append _

theorem typeDeclaration_text {d : TypeSrc} {ts : List Tok} (h : TypeText d ts) {tys : List Ty} {rest : List Tok} (hr : Starts tys rest)
    (h1 : Ty.OPERATOR_SCOPE ∉ tys := by decide) (h2 : Ty.COMPARE_LESS ∉ tys := by decide) (h3 : Ty.MUTABILITY ∉ tys := by decide) :
    typeDeclaration (ts ++ rest) = .ok (typeOf d) rest := by
  cases h with
  | @mk p a m hp ha hm =>
    have s1 := hm.starts (fun _ _ => mutTok_word) hr
    have s2 := ha.starts s1
    simp only [typeDeclaration, List.append_assoc]
    rw [identify_path hp s2 (by simp [h1])]
    simp only [Res.bind]
    rw [typeArgs_text ha s1 (by simp [h2])]
    simp only []
    rw [attr_opt hm (fun _ _ => mutTok) hr h3]
    rfl

/-! ## Ancestors -/

theorem Commas.starts {α : Type} {P : α → List Tok → Prop} {as : List α} {ts : List Tok} {tys : List Ty} (h : Commas P as ts)
    (hP : ∀ a ts, P a ts → Starts tys ts) : Starts tys ts := by
  cases h with
  | one h => exact hP _ _ h
  | more h _ _ => exact (hP _ _ h).append _

theorem ParentText.starts {p : Parent} {ts : List Tok} (h : ParentText p ts) : Starts [.IDENTIFIER] ts := by
  cases h with
  | mk hp _ => exact hp.starts.append _

theorem ParentText.length {p : Parent} {ts : List Tok} (h : ParentText p ts) : 1 ≤ ts.length := by
  obtain ⟨t, r, rfl, _⟩ := h.starts; simp

theorem ancestor_parent {p : Parent} {ts : List Tok} (h : ParentText p ts) {tys : List Ty} {rest : List Tok} (hr : Starts tys rest)
    (rel : Relation) (k : List Tok → Res (List Ancestor)) (h1 : Ty.OPERATOR_SCOPE ∉ tys := by decide)
    (h2 : Ty.COMPARE_LESS ∉ tys := by decide) : ancestor rel k (ts ++ rest) =
      (k rest).bind fun more ts => .ok (⟨dotted p.path, argsOf p.args, rel⟩ :: more) ts := by
  have hs := h.starts.append rest
  cases h with
  | @mk n a hp ha =>
    obtain ⟨t, r, e, ht, _⟩ := hs
    simp only [List.mem_singleton] at ht
    rw [e]
    simp only [ancestor, ht, ne_eq, not_true_eq_false, if_false]
    rw [← e, List.append_assoc, identify_path hp (ha.starts hr) (by simp [h1])]
    simp only [Res.bind]
    rw [typeArgs_text ha hr h2]

/-- A token that ends a list of ancestors. -/
def Ends (ts : List Tok) : Prop := Starts [.BRACKET_CURLY_OPEN, .SEMICOLON] ts

/-- The loop at a name. -/
theorem ancestorLoop_name {ts : List Tok} (hs : Starts [.IDENTIFIER] ts) (n : Nat) (b : Bool) (rel : Relation) :
    ancestorLoop (n + 1) b rel ts = ancestor rel (ancestorLoop n b rel) ts := by
  obtain ⟨t, r, rfl, ht, hc⟩ := hs
  have hw := no_word ht hc (by decide)
  simp only [List.mem_singleton] at ht
  have e1 : t.content ≠ "extends".toList := fun e => hw (by rw [e]; decide)
  have e2 : t.content ≠ "implements".toList := fun e => hw (by rw [e]; decide)
  have e3 : t.content ≠ "replicates".toList := fun e => hw (by rw [e]; decide)
  simp only [ancestorLoop, e1, e2, e3, ht, if_false, reduceCtorEq]

/-- The loop at its end. -/
theorem ancestorLoop_end {ts : List Tok} (hs : Ends ts) (n : Nat) (b : Bool) (rel : Relation) :
    ancestorLoop (n + 1) b rel ts = .ok [] ts := by
  obtain ⟨t, r, rfl, ht, hc⟩ := hs
  have hw := no_word ht hc (by decide)
  have e1 : t.content ≠ "extends".toList := fun e => hw (by rw [e]; decide)
  have e2 : t.content ≠ "implements".toList := fun e => hw (by rw [e]; decide)
  have e3 : t.content ≠ "replicates".toList := fun e => hw (by rw [e]; decide)
  simp only [List.mem_cons, List.not_mem_nil, or_false] at ht
  rcases ht with ht | ht <;>
    simp only [ancestorLoop, e1, e2, e3, ht, if_false, reduceCtorEq, ancestor, ne_eq, not_false_eq_true, if_true]

/-- The names of a clause, from the first one on. -/
theorem ancestor_commas {ps : List Parent} {ts : List Tok} (h : Commas ParentText ps ts) {rest : List Tok}
    (hr : Starts [.BRACKET_CURLY_OPEN, .SEMICOLON, .RESERVED_WORD] rest) (b : Bool) (rel : Relation) : ∀ n, ts.length ≤ n →
      ∃ m, n ≤ m + ts.length ∧ m ≤ n ∧ ancestor rel (ancestorLoop n b rel) (ts ++ rest) =
        (ancestorLoop m b rel rest).bind fun more ts => .ok (ps.map (fun p => ⟨dotted p.path, argsOf p.args, rel⟩) ++ more) ts := by
  induction h with
  | one h => intro n hn; exact ⟨n, by omega, by omega, ancestor_parent h hr rel _⟩
  | @more p ps ts c us h hc hcs ih =>
    intro n hn
    simp only [List.length_append, List.length_cons] at hn ⊢
    have hl := h.length
    obtain ⟨k, rfl⟩ : ∃ k, n = k + 2 := ⟨n - 2, by omega⟩
    obtain ⟨m, h1, h2, h3⟩ := ih k (by omega)
    refine ⟨m, by omega, by omega, ?_⟩
    rw [List.append_assoc, List.cons_append, ancestor_parent h (hc.starts (by decide) _)]
    have e1 : (",".toList : Text) ≠ "extends".toList := by decide
    have e2 : (",".toList : Text) ≠ "implements".toList := by decide
    have e3 : (",".toList : Text) ≠ "replicates".toList := by decide
    rw [show k + 2 = (k + 1) + 1 from rfl]
    rw [ancestorLoop]
    simp only [hc.2.1, e1, e2, e3, hc.1, if_false, if_true]
    rw [ancestorLoop_name ((hcs.starts fun _ _ h => h.starts).append rest), h3]
    cases ancestorLoop m b rel rest <;> simp [Res.bind]

/-- Is a replication followed by another clause? -/
def early : List Clause → Bool
  | [] => false
  | c :: cs => (c.1 = .replicates && !cs.isEmpty) || early cs

theorem ClausesText.starts {cs : List Clause} {ts rest : List Tok} (h : ClausesText cs ts) (hr : Ends rest) :
    Starts [.BRACKET_CURLY_OPEN, .SEMICOLON, .RESERVED_WORD] (ts ++ rest) := by
  cases h with
  | nil => exact hr.mono
  | @cons r ps cs w ts us hw _ _ =>
    cases r <;> exact (Is.starts hw (by decide) _).mono

/-- The loop at the beginning of a clause. -/
theorem ancestorLoop_clauses {cs : List Clause} {ts : List Tok} (h : ClausesText cs ts) {rest : List Tok} (hr : Ends rest) :
    ∀ (n : Nat) (b : Bool) (rel : Relation), ts.length < n → ancestorLoop n b rel (ts ++ rest) =
      if early cs ∨ (b = true ∧ cs ≠ []) then .error else .ok (ancestorsOf cs) rest := by
  induction h with
  | nil =>
    intro n b rel hn
    obtain ⟨k, rfl⟩ : ∃ k, n = k + 1 := ⟨n - 1, by omega⟩
    simp [ancestorLoop_end hr, early, ancestorsOf]
  | @cons r ps cs w ts us hw hp hc ih =>
    intro n b rel hn
    simp only [List.length_append, List.length_cons] at hn
    obtain ⟨k, rfl⟩ : ∃ k, n = k + 1 := ⟨n - 1, by omega⟩
    rw [List.cons_append, List.append_assoc]
    have e1 : ("implements".toList : Text) ≠ "extends".toList := by decide
    have e2 : ("replicates".toList : Text) ≠ "extends".toList := by decide
    have e3 : ("replicates".toList : Text) ≠ "implements".toList := by decide
    have step : ∀ b' r', ancestor r' (ancestorLoop k b' r') (ts ++ (us ++ rest)) =
        if early cs ∨ (b' = true ∧ cs ≠ []) then .error
        else .ok (ps.map (fun p => ⟨dotted p.path, argsOf p.args, r'⟩) ++ ancestorsOf cs) rest := by
      intro b' r'
      obtain ⟨m, h1, h2, h3⟩ := ancestor_commas hp (hc.starts hr) b' r' k (by omega)
      rw [h3, ih m b' r' (by omega)]
      split <;> rfl
    cases b with
    | true =>
      cases r <;> simp only [RelationTok] at hw <;> rw [ancestorLoop] <;> simp only [hw.2.1, e1, e2, e3, if_true, if_false] <;>
        rw [if_pos] <;> simp
    | false =>
      cases r <;> simp only [RelationTok] at hw <;> rw [ancestorLoop] <;>
        simp only [hw.2.1, e1, e2, e3, if_true, if_false, Bool.false_eq_true] <;> rw [step] <;>
        simp [early, ancestorsOf, or_comm]

theorem inheritance_text {cs : List Clause} {ts : List Tok} (h : ClausesText cs ts) {rest : List Tok} (hr : Ends rest) :
    inheritance (ts ++ rest) = if early cs then .error else .ok (ancestorsOf cs) rest := by
  cases h with
  | nil =>
    obtain ⟨t, r, rfl, ht, _⟩ := hr
    have : t.ty ≠ .RESERVED_WORD := fun e => by rw [e] at ht; revert ht; decide
    simp [inheritance, this, early, ancestorsOf]
  | @cons r ps cs w ts us hw hp hc =>
    have hwt : w.ty = .RESERVED_WORD := by cases r <;> exact hw.1
    have := ancestorLoop_clauses (.cons hw hp hc) hr ((ts ++ us ++ rest).length + 2) false .extends
      (by simp only [List.length_append, List.length_cons]; omega)
    simp only [List.cons_append] at this ⊢
    simp only [inheritance, hwt, ne_eq, not_true_eq_false, if_false]
    rw [this]
    simp

end Verif.Decl
