import Verif.Scope.Props

/-! # Calls from inside a class

Where the method of a call comes from when classes have base classes and stand in namespaces or other classes, and the two cases in which
it is not the nearest one. -/

namespace Verif.Scope

/-- The order in which the scopes around a call are to be asked: a class or namespace and the line of its base classes, then whatever it
stands in, in the same way. -/
inductive SearchOrder : Scope → List Scope → Prop
  | outermost {k L E M X b l} : Lineage (.mk k L E M X b .null) l → SearchOrder (.mk k L E M X b .null) l
  | inside {k L E M X b p l l'} : Lineage (.mk k L E M X b p) l → SearchOrder p l' → SearchOrder (.mk k L E M X b p) (l ++ l')

/-- A class that has nothing for the call asks what it stands in. -/
theorem asks_parent {L E M X b p} {l : List Scope} (hl : Lineage (.mk .method L E M X b p) l)
    (hc : ∀ sc ∈ l, ∃ L E M X b p, sc = .mk .method L E M X b p) {v : Vis} (hv : v ≠ .designtime) {n : String} {args : List String}
    (hn : ∀ sc ∈ l, ∀ m, ¬ Offers sc n args v m) :
    resolveMethod (.mk .method L E M X b p) n args false v = methodResolveM.parent (resolveMethod p n args false v) p false := by
  cases hl with
  | root hk hb =>
    have hbn := not_declares_base hk hb
    cases e : (firstApplicable M n args v).or (firstApplicable X n args v) with
    | some m => exact absurd (ownMeth_some hk e) (hn (.mk .method L E M X b p) (by simp) m)
    | none => rw [resolveMethod.eq_3, e, hbn, methodResolveM_none_own, if_neg hv]
  | @derived _ _ _ _ _ _ _ l hk hb hl =>
    cases hf : L.find "base" with
    | none => exact absurd hf hb
    | some y =>
      have hbs : ownDecl L E M X "base" .designtime = some (.sym y) := by simp [ownDecl, ownSymbol, hf, Vis.designtime_le]
      cases e : (firstApplicable M n args v).or (firstApplicable X n args v) with
      | some m => exact absurd (ownMeth_some hk e) (hn (.mk .method L E M X b p) (by simp) m)
      | none =>
        have hb' : resolveMethod b n args true v = .none := by
          rcases overload_inherited hl (fun sc hsc => hc sc (by simp [hsc])) hv n args true with ⟨m, -, pre, sc, post, h4, h5, -⟩ | ⟨-, h⟩
          · exact absurd h5 (hn sc (by simp [h4]) m)
          · exact h
        rw [resolveMethod.eq_3, e, hbs, methodResolveM_none_own, if_neg hv, hb']

/-- **C09** for classes with base classes, in any namespaces and classes, at the levels private, protected and public: the method belongs to
the first scope of the search order that offers one for the call, and if none is found, no scope offers one. -/
theorem overload_nearest {s : Scope} {l : List Scope} (h : SearchOrder s l) (hc : ∀ sc ∈ l, ∃ L E M X b p, sc = .mk .method L E M X b p)
    {v : Vis} (hv : v ≠ .designtime) (n : String) (args : List String) :
    (∃ m, resolveMethod s n args false v = .found m ∧ FirstOffer l n args v m) ∨
    (resolveMethod s n args false v = .none ∧ ∀ sc ∈ l, ∀ m, ¬ Offers sc n args v m) := by
  have method {k L E M X b p} {l : List Scope} (hl : Lineage (.mk k L E M X b p) l)
      (hc : ∀ sc ∈ l, ∃ L E M X b p, sc = .mk .method L E M X b p) : k = .method := by
    have : Scope.mk k L E M X b p ∈ l := by cases hl <;> simp
    obtain ⟨_, _, _, _, _, _, e⟩ := hc _ this
    cases e
    rfl
  induction h with
  | @outermost k L E M X b l hl =>
    cases method hl hc
    rcases overload_inherited hl hc hv n args false with h | ⟨h, -⟩
    · exact .inl h
    · exact .inr ⟨asks_parent hl hc hv h, h⟩
  | @inside k L E M X b p l l' hl hp ih =>
    have hc1 : ∀ sc ∈ l, ∃ L E M X b p, sc = .mk .method L E M X b p := fun sc hsc => hc sc (by simp [hsc])
    have ih := ih fun sc hsc => hc sc (by simp [hsc])
    cases method hl hc1
    rcases overload_inherited hl hc1 hv n args false with ⟨m, h1, pre, sc, post, h4, h5, h6⟩ | ⟨h, -⟩
    · exact .inl ⟨m, h1, pre, sc, post ++ l', by simp [h4], h5, h6⟩
    · have hp' : methodResolveM.parent (resolveMethod p n args false v) p false = resolveMethod p n args false v := by
        cases hp with
        | outermost hl' => cases method hl' fun sc hsc => hc sc (by simp [hsc]); rfl
        | inside hl' _ => cases method hl' fun sc hsc => hc sc (by simp [hsc]); rfl
      rw [asks_parent hl hc1 hv h, hp']
      rcases ih with ⟨m, h1, pre, sc, post, h4, h5, h6⟩ | ⟨h1, h2⟩
      · refine .inl ⟨m, h1, l ++ pre, sc, post, by simp [h4], h5, fun t ht => ?_⟩
        rcases List.mem_append.1 ht with ht | ht
        · exact h t ht
        · exact h6 t ht
      · refine .inr ⟨h1, fun t ht => ?_⟩
        rcases List.mem_append.1 ht with ht | ht
        · exact h t ht
        · exact h2 t ht

/-- The method of a base class for one argument. -/
def one : Meth := ⟨1, "f", .pub, [⟨"int", false⟩], false⟩

/-- A function of the namespace for one argument. -/
def outer : Meth := ⟨2, "f", .pub, [⟨"int", false⟩], false⟩

/-- A class with a base class, both in a namespace that has a function of that name, too. -/
def space : Scope := .mk .method [] [] [outer] [] .null .null

def parentClass : Scope := .mk .method [] [] [one] [] .null space

def childClass : Scope := .mk .method [("base", ⟨9, .pub⟩)] [] [] [] parentClass space

theorem no_base {M : List Meth} {p : Scope} (h : ∀ m ∈ M, m.name ≠ "base") (d : Decl) : ¬ Declares (.mk .method [] [] M [] .null p) "base" d := by
  intro h'
  cases h' with
  | symbol h' => cases h'
  | external h' => cases h'
  | method _ h1 h2 => exact h _ h1 h2
  | externalMethod _ h1 => cases h1

theorem child_order : SearchOrder childClass ([childClass, parentClass] ++ [space]) :=
  .inside (.derived (by decide) (by decide) (.root (by decide) (no_base (by decide)))) (.outermost (.root (by decide) (no_base (by decide))))

/-- The hypotheses of `overload_nearest` are met: the inherited method comes before the function of the namespace. -/
example : (∀ sc ∈ [childClass, parentClass] ++ [space], ∃ L E M X b p, sc = .mk .method L E M X b p) ∧
    resolveMethod childClass "f" ["int"] false .priv = .found one := by
  refine ⟨fun sc hsc => ?_, by decide⟩
  simp only [List.cons_append, List.nil_append, List.mem_cons, List.not_mem_nil, or_false] at hsc
  rcases hsc with rfl | rfl | rfl <;> exact ⟨_, _, _, _, _, _, rfl⟩

/-- **C09** is false at the laxest level, at which the parser looks for operators (AST/TreeGenerator.cpp:298): inherited methods are not found,
and those of the surrounding scopes are taken before them. -/
theorem overload_lax_refuted : ∃ (s : Scope) (l : List Scope) (n : String) (args : List String) (m : Meth), SearchOrder s l ∧
    resolveMethod s n args false .designtime = .found m ∧ ¬ FirstOffer l n args .designtime m := by
  refine ⟨childClass, _, "f", ["int"], outer, child_order, by decide, ?_⟩
  rintro ⟨pre, sc, post, he, ⟨ho, -, -⟩, hn⟩
  have hno : Offers parentClass "f" ["int"] .designtime one :=
    by
    refine ⟨.method (by decide) (by decide) rfl, by decide, by decide, fun i a p h1 h2 => ?_, fun i p h1 h2 => ?_⟩ <;> rcases i with _ | i
    · cases h1; cases h2; exact .inl rfl
    · simp [one] at h2
    · simp at h1
    · simp [one] at h2
  have hchild : ¬ Declares childClass "f" (.meth outer) := by
    intro h
    cases h with
    | method _ h => cases h
    | externalMethod _ h => cases h
  have hparent : ¬ Declares parentClass "f" (.meth outer) := by
    intro h
    cases h with
    | method _ h _ => exact absurd h (by decide)
    | externalMethod _ h => cases h
  match pre, he with
  | [], he => cases he; exact hchild ho
  | [_], he => cases he; exact hparent ho
  | [_, _], he => cases he; exact hn _ (by simp) _ hno
  | _ :: _ :: _ :: pre, he => simp at he

/-- **C09** is false for objects whose base has a final method: it is taken although the derived class offers one for the call. -/
theorem overload_final_refuted : ∃ (s : Scope) (l : List Scope) (n : String) (args : List String) (m own : Meth), Lineage s l ∧
    Offers s n args .pub own ∧ m ≠ own ∧ l.head? = some s ∧ resolveMethod s n args true .pub = .found m ∧ ¬ Offers s n args .pub m := by
  let base := Scope.mk .object [] [] [⟨1, "f", .pub, [], true⟩] [] .null .null
  refine ⟨.mk .object [("base", ⟨9, .pub⟩)] [] [⟨2, "f", .pub, [], false⟩] [] base .null,
    [.mk .object [("base", ⟨9, .pub⟩)] [] [⟨2, "f", .pub, [], false⟩] [] base .null, base], "f", [], ⟨1, "f", .pub, [], true⟩,
    ⟨2, "f", .pub, [], false⟩, ?_, ⟨.method (by decide) (by decide) rfl, by decide, by decide, by simp, by simp⟩, by decide, rfl, by decide, ?_⟩
  · refine .derived (by decide) (by decide) (.root (by decide) fun d h => ?_)
    cases h with
    | symbol h => cases h
    | external h => cases h
    | method _ h1 h2 => cases List.mem_singleton.1 h1; exact absurd h2 (by decide)
    | externalMethod _ h => cases h
  · rintro ⟨h, -⟩
    cases h with
    | method _ h => cases List.mem_singleton.1 h
    | externalMethod _ h => cases h

end Verif.Scope
