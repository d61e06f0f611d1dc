import Verif.Global.Spec

/-! # Declared names: lemmas -/

namespace Verif.Global

open Verif.Str (Text)
open Verif.Decl (Node TypeDecl Vis Layout Ancestor Relation Arg Param)

/-! ## Full names -/

/-- An identifier. -/
def PlainName (n : Text) : Prop := n ≠ [] ∧ '.' ∉ n

theorem qualified_eq {p : Path} {x : Text} (hp : ∀ n ∈ p, n ≠ []) (hx : x ≠ []) : qualified p x = spelled p x := by
  induction p generalizing x with
  | nil => simp [qualified, fullName, spelled]
  | cons n p ih =>
    have hn : n ≠ [] := hp n (by simp)
    have h := ih (x := n) (fun m hm => hp m (List.mem_cons_of_mem _ hm)) hn
    have hf : fullName (n :: p) = spelled p n := by rw [← h]; simp [fullName, qualified]
    have hne : spelled p n ≠ [] := by
      cases p with
      | nil => simpa [spelled] using hn
      | cons => simp [spelled]
    simp [qualified, hf, hne, hx, spelled]

theorem append_dot_inj {a b x y : Text} (hx : '.' ∉ x) (hy : '.' ∉ y) (h : a ++ '.' :: x = b ++ '.' :: y) : a = b ∧ x = y := by
  have h' := congrArg List.reverse h
  simp only [List.reverse_append, List.reverse_cons, List.append_assoc, List.singleton_append] at h'
  have key : ∀ (u v s t : Text), '.' ∉ u → '.' ∉ v → u ++ '.' :: s = v ++ '.' :: t → u = v ∧ s = t := by
    intro u
    induction u with
    | nil =>
      intro v s t _ hv h
      cases v with
      | nil => simpa using h
      | cons c v =>
        simp only [List.nil_append, List.cons_append, List.cons.injEq] at h
        exact absurd (h.1 ▸ List.mem_cons_self) hv
    | cons c u ih =>
      intro v s t hu hv h
      cases v with
      | nil =>
        simp only [List.nil_append, List.cons_append, List.cons.injEq] at h
        exact absurd (h.1 ▸ List.mem_cons_self) hu
      | cons d v =>
        simp only [List.cons_append, List.cons.injEq] at h
        obtain ⟨h₁, h₂⟩ := ih v s t (fun h => hu (List.mem_cons_of_mem _ h)) (fun h => hv (List.mem_cons_of_mem _ h)) h.2
        exact ⟨by rw [h.1, h₁], h₂⟩
  obtain ⟨h₁, h₂⟩ := key x.reverse y.reverse a.reverse b.reverse (by simpa using hx) (by simpa using hy) h'
  exact ⟨List.reverse_inj.1 h₂, List.reverse_inj.1 h₁⟩

theorem spelled_inj {p q : Path} {x y : Text} (hp : ∀ n ∈ x :: p, PlainName n) (hq : ∀ n ∈ y :: q, PlainName n)
    (h : spelled p x = spelled q y) : p = q ∧ x = y := by
  induction p generalizing q x y with
  | nil =>
    cases q with
    | nil => exact ⟨rfl, h⟩
    | cons m q => exact absurd (by rw [show x = spelled q m ++ '.' :: y from h]; simp) (hp x (by simp)).2
  | cons n p ih =>
    cases q with
    | nil => exact absurd (by rw [show y = spelled p n ++ '.' :: x from h.symm]; simp) (hq y (by simp)).2
    | cons m q =>
      obtain ⟨h₁, h₂⟩ := append_dot_inj (hp x (by simp)).2 (hq y (by simp)).2 h
      obtain ⟨h₃, h₄⟩ := ih (fun k hk => hp k (List.mem_cons_of_mem _ hk)) (fun k hk => hq k (List.mem_cons_of_mem _ hk)) h₁
      exact ⟨by rw [h₃, h₄], h₂⟩

/-! ## The tables and the declarations -/

/-- The symbol of a declaration. -/
def Fits (e : Event) (s : Sym) : Prop :=
  match e.thing with
  | .space _ => ∃ v, s = .space v
  | .cls v .. => s = .type v (spelled e.scope e.name)
  | .iface v .. => s = .type v (spelled e.scope e.name)
  | .enum v => s = .type v (spelled e.scope e.name)
  | .member .. => ∃ v t, s = .member v t
  | .object .. => ∃ v t, s = .object v t
  | .method .. => False

/-- The tables hold these declarations. -/
structure Inv (pre : List Event) (w : World) : Prop where
  holds : ∀ e ∈ pre, e.isMethod = false → ∃ s, w.symbols.find (e.scope, e.name) = some s ∧ Fits e s
  only : ∀ p x s, w.symbols.find (p, x) = some s → ∃ e ∈ pre, e.isMethod = false ∧ e.scope = p ∧ e.name = x
  meths : ∀ p x, (∃ m ∈ w.methods, m.scope = p ∧ m.name = x) ↔ ∃ e ∈ pre, e.isMethod = true ∧ e.scope = p ∧ e.name = x
  keys : ∀ q, (w.classes.find q).isSome → ∃ e ∈ pre, e.isType = true ∧ q = spelled e.scope e.name

theorem fits_type {e : Event} {s : Sym} (h : Fits e s) (ht : e.isType = true) : ∃ v, s = .type v (spelled e.scope e.name) := by
  unfold Event.isType at ht
  unfold Fits at h
  split at h <;> simp_all

theorem type_not_method {e : Event} (h : e.isType = true) : e.isMethod = false := by
  unfold Event.isType at h; unfold Event.isMethod; split at h <;> simp_all

theorem type_not_space {e : Event} (h : e.isType = true) : e.isSpace = false := by
  unfold Event.isType at h; unfold Event.isSpace; split at h <;> simp_all

theorem hasType_iff {evs : List Event} {p : Path} {x : Text} :
    hasType evs p x = true ↔ ∃ e ∈ evs, e.isType = true ∧ e.scope = p ∧ e.name = x := by
  simp [hasType, and_assoc]

theorem here_clear {pre : List Event} {w : World} (hi : Inv pre w) {p : Path} {x : Text}
    (hc : ∀ o ∈ pre, o.name = x → o.scope = p → o.isType = true) :
    (hasType pre p x = true ∧ ∃ v, here w p x = some (.sym (.type v (spelled p x)))) ∨
      (hasType pre p x = false ∧ here w p x = none) := by
  unfold here
  cases hf : w.symbols.find (p, x) with
  | some s =>
    obtain ⟨e, he, hm, rfl, rfl⟩ := hi.only _ _ _ hf
    have ht := hc e he rfl rfl
    obtain ⟨s', hs', hfit⟩ := hi.holds e he hm
    rw [hf] at hs'; cases hs'
    obtain ⟨v, rfl⟩ := fits_type hfit ht
    exact .inl ⟨hasType_iff.2 ⟨e, he, ht, rfl, rfl⟩, v, rfl⟩
  | none =>
    have hnone : ¬ ∃ e ∈ pre, e.scope = p ∧ e.name = x := by
      rintro ⟨e, he, rfl, rfl⟩
      have ht := hc e he rfl rfl
      obtain ⟨s', hs', _⟩ := hi.holds e he (type_not_method ht)
      rw [hf] at hs'; cases hs'
    refine .inr ⟨?_, ?_⟩
    · cases h : hasType pre p x with
      | false => rfl
      | true => obtain ⟨e, he, _, h₁, h₂⟩ := hasType_iff.1 h; exact absurd ⟨e, he, h₁, h₂⟩ hnone
    · have : w.methods.any (fun m => m.scope = p ∧ m.name = x) = false := by
        cases h : w.methods.any (fun m => m.scope = p ∧ m.name = x) with
        | false => rfl
        | true =>
          simp only [List.any_eq_true, decide_eq_true_eq] at h
          obtain ⟨e, he, _, h₁, h₂⟩ := (hi.meths p x).1 (by obtain ⟨m, hm, h⟩ := h; exact ⟨m, hm, h⟩)
          exact absurd ⟨e, he, h₁, h₂⟩ hnone
      simp only [this, Bool.false_eq_true, if_false]

theorem resolve_clear {pre : List Event} {w : World} (hi : Inv pre w) {p : Path} {x : Text}
    (hc : ∀ o ∈ pre, o.name = x → o.scope <:+ p → o.isType = true) :
    (∃ v, resolve w p x = some (.sym (.type v (meant pre p x)))) ∨
      (resolve w p x = none ∧ meant pre p x = x) := by
  induction p with
  | nil =>
    rcases here_clear hi (p := []) (x := x) (fun o ho h₁ h₂ => hc o ho h₁ (h₂ ▸ List.suffix_refl _)) with ⟨_, v, h⟩ | ⟨_, h⟩
    · exact .inl ⟨v, by simpa [resolve, meant, spelled] using h⟩
    · exact .inr ⟨by simpa [resolve] using h, rfl⟩
  | cons n p ih =>
    rcases here_clear hi (p := n :: p) (x := x) (fun o ho h₁ h₂ => hc o ho h₁ (h₂ ▸ List.suffix_refl _)) with ⟨ht, v, h⟩ | ⟨ht, h⟩
    · exact .inl ⟨v, by simp [resolve, h, meant, ht]⟩
    · rcases ih (fun o ho h₁ h₂ => hc o ho h₁ (h₂.trans (List.suffix_cons n p))) with ⟨v, h'⟩ | ⟨h', hm⟩
      · exact .inl ⟨v, by simp [resolve, h, h', meant, ht]⟩
      · exact .inr ⟨by simp [resolve, h, h'], by simp [meant, ht, hm]⟩

theorem resolveType_none {w : World} {p : Path} {x : Text} (h : resolve w p x = none) : resolveType w p x = some x := by
  induction p with
  | nil => unfold resolveType; simp [h]
  | cons n p ih =>
    unfold resolveType
    simp only [h]
    refine ih ?_
    simp only [resolve] at h
    split at h
    · cases h
    · exact h

theorem resolveType_clear {pre : List Event} {w : World} (hi : Inv pre w) {p : Path} {x : Text}
    (hc : ∀ o ∈ pre, o.name = x → o.scope <:+ p → o.isType = true) : resolveType w p x = some (meant pre p x) := by
  rcases resolve_clear hi hc with ⟨v, h⟩ | ⟨h, hm⟩
  · unfold resolveType; simp [h]
  · rw [resolveType_none h, hm]

theorem meant_self {evs : List Event} {p : Path} {x : Text}
    (h : ∀ o ∈ evs, o.isType = true → o.name = x → o.scope <:+ p → o.scope = []) : meant evs p x = x := by
  induction p with
  | nil => rfl
  | cons n p ih =>
    have ht : hasType evs (n :: p) x = false := by
      cases h' : hasType evs (n :: p) x with
      | false => rfl
      | true =>
        obtain ⟨e, he, ht, hs, hn⟩ := hasType_iff.1 h'
        have := h e he ht hn (hs ▸ List.suffix_refl _)
        rw [this] at hs; cases hs
    simp only [meant, ht, Bool.false_eq_true, if_false]
    exact ih fun o ho h₁ h₂ h₃ => h o ho h₁ h₂ (h₃.trans (List.suffix_cons n p))

theorem meant_append {pre post : List Event} {p : Path} {x : Text}
    (h : ∀ o ∈ post, o.isType = true → o.name = x → o.scope <:+ p → o.scope = []) : meant (pre ++ post) p x = meant pre p x := by
  induction p with
  | nil => rfl
  | cons n p ih =>
    have ht : hasType (pre ++ post) (n :: p) x = hasType pre (n :: p) x := by
      have : hasType post (n :: p) x = false := by
        cases h' : hasType post (n :: p) x with
        | false => rfl
        | true =>
          obtain ⟨e, he, ht, hs, hn⟩ := hasType_iff.1 h'
          have := h e he ht hn (hs ▸ List.suffix_refl _)
          rw [this] at hs; cases hs
      unfold hasType at this ⊢
      rw [List.any_append, this, Bool.or_false]
    simp only [meant, ht]
    rw [ih fun o ho h₁ h₂ h₃ => h o ho h₁ h₂ (h₃.trans (List.suffix_cons n p))]

/-! ## Resolving types -/

theorem resolveArgs_eq {w : World} {p : Path} {m : Text → Text} {as : List Arg}
    (h : ∀ x ∈ as.flatMap (fun a => [a.type, a.constraint]), resolveType w p x = some (m x)) :
    resolveArgs w p as = some (as.map fun a => (m a.type, m a.constraint)) := by
  induction as with
  | nil => rfl
  | cons a as ih =>
    simp only [resolveArgs]
    rw [h a.constraint (by simp), h a.type (by simp), ih fun x hx => h x (by
      simp only [List.flatMap_cons, List.mem_append]; exact .inr hx)]
    rfl

theorem resolveDecl_eq {w : World} {p : Path} {m : Text → Text} {n : Text} {as : List Arg}
    (h : ∀ x ∈ namesIn n as, resolveType w p x = some (m x)) : resolveDecl w p n as = some (meantType m n as) := by
  unfold resolveDecl
  rw [h n (by simp [namesIn]), resolveArgs_eq fun x hx => h x (by simp only [namesIn, List.mem_cons]; exact .inr hx)]
  rfl

theorem resolveAncestors_eq {w : World} {p : Path} {m : Text → Text} {as : List Ancestor}
    (h : ∀ x ∈ as.flatMap (fun a => namesIn a.name a.args), resolveType w p x = some (m x)) :
    resolveAncestors w p as = some (as.map fun a => (a.relation, meantType m a.name a.args)) := by
  induction as with
  | nil => rfl
  | cons a as ih =>
    simp only [List.flatMap_cons, List.mem_append] at h
    simp only [resolveAncestors]
    rw [resolveDecl_eq fun x hx => h x (.inl hx), ih fun x hx => h x (.inr hx)]
    rfl

theorem resolveParams_eq {w : World} {p : Path} {m : Text → Text} {as : List Param}
    (h : ∀ x ∈ as.flatMap (fun a => namesIn a.type.name a.type.args), resolveType w p x = some (m x)) :
    resolveParams w p as = some (as.map fun a => meantType m a.type.name a.type.args) := by
  induction as with
  | nil => rfl
  | cons a as ih =>
    simp only [List.flatMap_cons, List.mem_append] at h
    simp only [resolveParams]
    rw [resolveDecl_eq fun x hx => h x (.inl hx), ih fun x hx => h x (.inr hx)]
    rfl

theorem meantType_congr {m m' : Text → Text} {n : Text} {as : List Arg} (h : ∀ x ∈ namesIn n as, m x = m' x) :
    meantType m n as = meantType m' n as := by
  unfold meantType
  rw [h n (by simp [namesIn])]
  congr 1
  refine List.map_congr_left fun a ha => ?_
  have h₁ : ∀ x ∈ [a.type, a.constraint], x ∈ namesIn n as := fun x hx => by
    simp only [namesIn, List.mem_cons, List.mem_flatMap]; exact .inr ⟨a, ha, by simpa using hx⟩
  rw [h _ (h₁ a.type (by simp)), h _ (h₁ a.constraint (by simp))]

end Verif.Global
