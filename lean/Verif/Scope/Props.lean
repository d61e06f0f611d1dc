import Verif.Scope.Lemmas

/-! # Properties C06-C09, C74, C75: names, access levels and overloads -/

namespace Verif.Scope

theorem not_declares_base {k : Kind} {L E : AMap String Sym} {M X : List Meth} {b p : Scope} (hk : k ≠ .symbol)
    (h : ∀ d, ¬ Declares (.mk k L E M X b p) "base" d) : ownDecl L E M X "base" .designtime = none :=
  ownDecl_eq_none_of_not_declares (b := b) (p := p) hk fun d hd _ => h d hd

/-- In a scope without `base`, lookup is: own declarations, then the parent. -/
theorem resolve_step {k : Kind} {L E : AMap String Sym} {M X : List Meth} {b p : Scope} {n : String} {v : Vis}
    (hb : ∀ d, ¬ Declares (.mk k L E M X b p) "base" d) :
    (∃ d, resolve (.mk k L E M X b p) n false v = .found d ∧ Declares (.mk k L E M X b p) n d ∧ v ≤ d.vis) ∨
    (resolve (.mk k L E M X b p) n false v = resolve p n false v ∧
      ∀ d, Declares (.mk k L E M X b p) n d → ¬ v ≤ d.vis) := by
  cases k with
  | symbol =>
    rw [resolve.eq_2]
    cases e : ownSymbol L E n v with
    | some d =>
      obtain ⟨s, rfl, hs, hv⟩ := ownSymbol_some e
      exact Or.inl ⟨_, rfl, by rcases hs with hs | hs; exact .symbol hs; exact .external hs, hv⟩
    | none => exact Or.inr ⟨rfl, fun d hd => ownSymbol_none' rfl e hd⟩
  | method =>
    have hbn := not_declares_base (k := .method) (by decide) hb
    rw [resolve.eq_3]
    cases e : ownDecl L E M X n v with
    | some d => obtain ⟨h1, h2⟩ := ownDecl_some (k := .method) (b := b) (p := p) (by decide) e; exact Or.inl ⟨d, rfl, h1, h2⟩
    | none =>
      refine Or.inr ⟨?_, fun d hd => ownDecl_none e hd⟩
      rw [methodResolve_none_own, hbn]; split <;> simp
  | object =>
    have hbn := not_declares_base (k := .object) (by decide) hb
    rw [resolve.eq_4]
    cases e : ownDecl L E M X n v with
    | some d => obtain ⟨h1, h2⟩ := ownDecl_some (k := .object) (b := b) (p := p) (by decide) e; exact Or.inl ⟨d, rfl, h1, h2⟩
    | none =>
      refine Or.inr ⟨?_, fun d hd => ownDecl_none e hd⟩
      rw [methodResolve_none_own, methodResolve_none_own, hbn]
      by_cases hv : v = .designtime <;> simp [hv, objectResolve, baseResult]

/-- **C06** for scopes without inheritance: blocks, method bodies, namespaces, classes and objects without a
base class, nested arbitrarily deep.  A lookup never fails otherwise than by not finding the name; if it finds
something, it is an accessible declaration in the innermost scope that has one; and it finds nothing only if no
enclosing scope has one.  (`_partial`: scopes with a base are treated by `inherited_lookup`; with
inheritance the claim is false, see `enclosing_scope_refuted`.) -/
theorem lookup_innermost_partial (s : Scope) (h : ∀ sc ∈ enclosing s, ∀ d, ¬ Declares sc "base" d)
    (n : String) (v : Vis) :
    (∃ d, resolve s n false v = .found d ∧ FirstIn (enclosing s) n v d) ∨
    (resolve s n false v = .none ∧ NoneIn (enclosing s) n v) := by
  induction s with
  | null => exact Or.inr ⟨rfl, by simp [NoneIn, enclosing]⟩
  | mk k L E M X b p _ ih =>
    have ih := ih fun sc hsc => h sc (by simp [enclosing, hsc])
    rcases resolve_step (n := n) (v := v) (h (.mk k L E M X b p) (by simp [enclosing])) with ⟨d, h1, h2, h3⟩ | ⟨h1, h2⟩
    · exact Or.inl ⟨d, h1, [], _, _, rfl, h2, h3, by simp⟩
    · rw [h1]
      rcases ih with ⟨d, h3, pre, sc, post, h4, h5, h6, h7⟩ | ⟨h3, h4⟩
      · refine Or.inl ⟨d, h3, .mk k L E M X b p :: pre, sc, post, by simp [enclosing, h4], h5, h6, ?_⟩
        intro t ht
        rcases List.mem_cons.1 ht with rfl | ht
        · exact h2
        · exact h7 t ht
      · refine Or.inr ⟨h3, ?_⟩
        intro t ht
        rcases List.mem_cons.1 ht with rfl | ht
        · exact h2
        · exact h4 t ht

/-- Three nested scopes; the name is declared in two of them, privately in the inner one. -/
example : (let g := Scope.mk .method [("x", ⟨1, .pub⟩)] [] [⟨7, "f", .pub, [], false⟩] [] .null .null
    let o := Scope.mk .object [("x", ⟨2, .priv⟩)] [] [] [] .null g
    let m := Scope.mk .symbol [("y", ⟨3, .pub⟩)] [] [] [] .null o
    (resolve m "x" false .priv, resolve m "x" false .pub, resolve m "f" false .pub, resolve m "z" false .priv)) =
  (.found (.sym ⟨2, .priv⟩), .found (.sym ⟨1, .pub⟩), .found (.meth ⟨7, "f", .pub, [], false⟩), .none) := by decide

/-- **C06**, the case of inheritance: a lookup from a class or object at one of the levels private, protected,
public first searches the class itself and its base classes in order: it returns an accessible declaration of the first of them
that has one; if none has one, it fails when restricted to the class. -/
theorem inherited_lookup {s : Scope} {l : List Scope} (hl : Lineage s l) {v : Vis} (hv : v ≠ .designtime)
    (n : String) (only : Bool) :
    (∃ d, resolve s n only v = .found d ∧ FirstIn l n v d) ∨
    (NoneIn l n v ∧ resolve s n true v = .none) := by
  induction hl generalizing only with
  | @root k L E M X b p hk hb =>
    have hbn := not_declares_base hk hb
    have one : NoneIn [Scope.mk k L E M X b p] n v ↔ ∀ d, Declares (.mk k L E M X b p) n d → ¬ v ≤ d.vis := by
      simp [NoneIn]
    cases e : ownDecl L E M X n v with
    | some d =>
      obtain ⟨h1, h2⟩ := ownDecl_some (b := b) (p := p) hk e
      refine Or.inl ⟨d, ?_, [], _, [], rfl, h1, h2, by simp⟩
      cases k with
      | symbol => exact absurd rfl hk
      | method => simp only [resolve, e]; rfl
      | object => simp only [resolve, e]; rfl
    | none =>
      refine Or.inr ⟨one.2 fun d hd => ownDecl_none e hd, ?_⟩
      cases k with
      | symbol => exact absurd rfl hk
      | method => simp only [resolve, e, methodResolve_none_own, hbn]; simp
      | object => simp only [resolve, e, methodResolve_none_own, hbn]; simp [objectResolve]
  | @derived k L E M X b p l hk hb hl ih =>
    have ih := ih true
    have hbs : ∃ y, ownDecl L E M X "base" .designtime = some (.sym y) := by
      cases hf : L.find "base" with
      | none => exact absurd hf hb
      | some y => exact ⟨y, by simp [ownDecl, ownSymbol, hf, Vis.designtime_le]⟩
    obtain ⟨y, hbs⟩ := hbs
    cases e : ownDecl L E M X n v with
    | some d =>
      obtain ⟨h1, h2⟩ := ownDecl_some (b := b) (p := p) hk e
      refine Or.inl ⟨d, ?_, [], _, l, rfl, h1, h2, by simp⟩
      cases k with
      | symbol => exact absurd rfl hk
      | method => simp only [resolve, e]; rfl
      | object => simp only [resolve, e]; rfl
    | none =>
      have hown : ∀ d, Declares (.mk k L E M X b p) n d → ¬ v ≤ d.vis := fun d hd => ownDecl_none e hd
      rcases ih with ⟨d, h3, pre, sc, post, h4, h5, h6, h7⟩ | ⟨h3, h4⟩
      · refine Or.inl ⟨d, ?_, .mk k L E M X b p :: pre, sc, post, by simp [h4], h5, h6, ?_⟩
        · cases k with
          | symbol => exact absurd rfl hk
          | method => simp only [resolve, e, methodResolve_none_own, hbs, h3, if_neg hv]
          | object => simp only [resolve, e, methodResolve_none_own, hbs, h3, if_neg hv, objectResolve]
        · intro t ht
          rcases List.mem_cons.1 ht with rfl | ht
          · exact hown
          · exact h7 t ht
      · refine Or.inr ⟨?_, ?_⟩
        · intro t ht
          rcases List.mem_cons.1 ht with rfl | ht
          · exact hown
          · exact h3 t ht
        · cases k with
          | symbol => exact absurd rfl hk
          | method => simp only [resolve, e, methodResolve_none_own, hbs, h4, if_neg hv]; simp
          | object => simp only [resolve, e, methodResolve_none_own, hbs, h4, if_neg hv]; simp [objectResolve]

/-- A class with a base class that has a base class: the nearest declaration is found. -/
example : (let a := Scope.mk .method [("x", ⟨1, .pub⟩), ("y", ⟨2, .pub⟩)] [] [] [] .null .null
    let b := Scope.mk .method [("base", ⟨10, .pub⟩), ("x", ⟨3, .prot⟩)] [] [] [] a .null
    let c := Scope.mk .method [("base", ⟨11, .pub⟩)] [] [] [] b .null
    Lineage c [c, b, a] ∧ resolve c "x" true .prot = .found (.sym ⟨3, .prot⟩)) := by
  refine ⟨.derived (by decide) (by decide) (.derived (by decide) (by decide) (.root (by decide) ?_)), by decide⟩
  intro d h; simp [declares_iff, AMap.find] at h

/-- **C06**, the case of inheritance, continued: a name that no class in the line of inheritance declares is looked
up in the scopes around the class. -/
theorem class_lookup_continues {L E : AMap String Sym} {M X : List Meth} {b p : Scope} {l : List Scope}
    (hl : Lineage (.mk .method L E M X b p) l) {v : Vis} (hv : v ≠ .designtime) {n : String} (hn : NoneIn l n v) :
    resolve (.mk .method L E M X b p) n false v = resolve p n false v := by
  have none_first : ∀ {l d}, NoneIn l n v → ¬ FirstIn l n v d := by
    rintro l d h ⟨pre, sc, post, rfl, h1, h2, -⟩
    exact h sc (by simp) d h1 h2
  cases hl with
  | root hk hb =>
    have hbn := not_declares_base hk hb
    rw [resolve.eq_3, ownDecl_eq_none_of_not_declares (k := .method) (b := b) (p := p) (by decide) (hn _ (by simp)),
      methodResolve_none_own, hbn]
    simp
  | @derived _ _ _ _ _ _ _ l hk hb hl =>
    have h1 := ownDecl_eq_none_of_not_declares (k := .method) (b := b) (p := p) (by decide)
      (hn (.mk .method L E M X b p) (by simp))
    have h2 : resolve b n true v = .none := by
      rcases inherited_lookup hl hv n true with ⟨d, -, h⟩ | ⟨-, h⟩
      · exact absurd h (none_first fun t ht => hn t (by simp [ht]))
      · exact h
    cases hf : L.find "base" with
    | none => exact absurd hf hb
    | some y =>
      have hbs : ownDecl L E M X "base" .designtime = some (.sym y) := by
        simp [ownDecl, ownSymbol, hf, Vis.designtime_le]
      rw [resolve.eq_3, h1, methodResolve_none_own, hbs, h2, if_neg hv]
      simp

/-- A class with a base class inside a namespace that declares the name. -/
example : (let ns := Scope.mk .method [("x", ⟨1, .pub⟩)] [] [] [] .null .null
    resolve (.mk .method [("base", ⟨9, .pub⟩)] [] [] [] (.mk .method [("y", ⟨2, .pub⟩)] [] [] [] .null .null) ns) "x" false .priv) =
    .found (.sym ⟨1, .pub⟩) := by decide

/-- **C06** is false for objects with a base: a lookup from inside object `o` prefers a declaration in the
surroundings of the *base* object, which do not enclose `o`, to the declaration in the scope that encloses `o`. -/
theorem enclosing_scope_refuted : ∃ (o : Scope) (n : String) (d e : Decl) (v : Vis),
    resolve o n false v = .found d ∧ (∀ sc ∈ enclosing o, ¬ Declares sc n d) ∧
    (∃ sc ∈ enclosing o, Declares sc n e ∧ v ≤ e.vis) := by
  let N1 := Scope.mk .method [("x", ⟨1, .pub⟩)] [] [] [] .null .null
  let N2 := Scope.mk .method [("x", ⟨2, .pub⟩)] [] [] [] .null .null
  let a := Scope.mk .object [] [] [] [] .null N1
  let o := Scope.mk .object [("base", ⟨10, .pub⟩)] [] [] [] a N2
  refine ⟨o, "x", .sym ⟨1, .pub⟩, .sym ⟨2, .pub⟩, .priv, by decide, ?_, ?_⟩
  · intro sc hsc h
    simp only [enclosing, o, N2, List.mem_cons, List.not_mem_nil, or_false] at hsc
    rcases hsc with rfl | rfl <;> simp [declares_iff, AMap.find] at h
  · exact ⟨N2, by simp [enclosing, o, N2], .symbol (by decide), by decide⟩

/-! ## C08: access levels -/

/-- **C08**, enforcement: no lookup, from whatever scope, returns a declaration below the requested level. -/
theorem access_enforced (s : Scope) (n : String) (only : Bool) (v : Vis) (d : Decl)
    (h : resolve s n only v = .found d) : v ≤ d.vis := by
  induction s generalizing only v d with
  | null => cases h
  | mk k L E M X b p ihb ihp =>
    have key : ∀ only d, methodResolve (ownDecl L E M X n v) (ownDecl L E M X "base" .designtime)
        (resolve b n true v) (resolve p n false v) only v = .found d → v ≤ d.vis := by
      intro only d h
      cases e : ownDecl L E M X n v with
      | some d' =>
        rw [e] at h; cases h
        exact (ownDecl_some (k := .method) (b := b) (p := p) (by decide) e).2
      | none =>
        rw [e, methodResolve_none_own] at h
        repeat' split at h
        all_goals first
          | (cases h; done)
          | exact ihp _ _ _ h
          | exact ihb _ _ _ h
    cases k with
    | symbol =>
      rw [resolve.eq_2] at h
      cases e : ownSymbol L E n v with
      | some d' =>
        rw [e] at h; cases h
        obtain ⟨s, rfl, -, hv⟩ := ownSymbol_some e
        exact hv
      | none =>
        rw [e] at h
        simp only at h
        split at h
        · cases h
        · exact ihp _ _ _ h
    | method => exact key only d h
    | object =>
      rw [resolve.eq_4] at h
      rcases objectResolve_found h with h | ⟨-, h⟩ | ⟨-, h⟩
      · exact key _ _ h
      · exact Vis.le_trans (Vis.le_atLeastProt v) (ihb _ _ _ (baseResult_found h).1)
      · exact key _ _ h

/-- A private declaration is not found at level protected, the public one behind it is. -/
example : resolve (.mk .symbol [("x", ⟨1, .priv⟩)] [] [] [] .null (.mk .symbol [("x", ⟨2, .pub⟩)] [] [] [] .null .null))
    "x" false .prot = .found (.sym ⟨2, .pub⟩) := by decide

/-- The laxer lookup finds something, or has the same outcome as the stricter one. -/
def Laxer {α : Type} (lax strict : Res α) : Prop := (∃ a, lax = .found a) ∨ strict = lax

theorem laxer_methodResolve {ov ow bs : Option Decl} {rbv rbw rpv rpw : Res Decl} {only : Bool} {v w : Vis}
    (ho : ov = none → ow = none) (hb : Laxer rbv rbw) (hp : Laxer rpv rpw)
    (h : (v ≠ .designtime ∧ w ≠ .designtime) ∨ bs = none) :
    Laxer (methodResolve ov bs rbv rpv only v) (methodResolve ow bs rbw rpw only w) := by
  cases ov with
  | some d => exact Or.inl ⟨d, rfl⟩
  | none =>
    rw [ho rfl, methodResolve_none_own, methodResolve_none_own]
    have hpar : Laxer (if only then .none else rpv) (if only then .none else rpw) := by
      cases only with
      | true => exact Or.inr rfl
      | false => exact hp
    rcases h with ⟨hv, hw⟩ | rfl
    · rw [if_neg hv, if_neg hw]
      cases bs with
      | none => exact hpar
      | some d =>
        cases d with
        | meth m => exact Or.inr rfl
        | sym y =>
          rcases hb with ⟨a, rfl⟩ | rfl
          · exact Or.inl ⟨a, rfl⟩
          · cases rbw with
            | none => exact hpar
            | found a => exact Or.inl ⟨a, rfl⟩
            | threw => exact Or.inr rfl
            | undefined => exact Or.inr rfl
    · have e : ∀ (u : Vis) (r : Res Decl), (if u = .designtime then r else r) = r := fun u r => by split <;> rfl
      simp only [e]
      exact hpar

theorem laxer_objectResolve {a a' b b' c c' : Res Decl} {only : Bool} (ha : Laxer a a') (hb : Laxer b b')
    (hc : Laxer c c') : Laxer (objectResolve a b c only) (objectResolve a' b' c' only) := by
  rcases ha with ⟨d, rfl⟩ | rfl
  · exact Or.inl ⟨d, rfl⟩
  · cases a' with
    | found d => exact Or.inl ⟨d, rfl⟩
    | threw => exact Or.inr rfl
    | undefined => exact Or.inr rfl
    | none =>
      cases only with
      | true => exact Or.inr rfl
      | false =>
        rcases hb with ⟨d, rfl⟩ | rfl
        · exact Or.inl ⟨d, rfl⟩
        · cases b' with
          | found d => exact Or.inl ⟨d, rfl⟩
          | threw => exact Or.inr rfl
          | undefined => exact Or.inr rfl
          | none => exact hc

theorem laxer_baseResult {bs : Option Decl} {b : Scope} {r r' : Res Decl} (h : Laxer r r') :
    Laxer (baseResult bs b r) (baseResult bs b r') := by
  unfold baseResult
  split
  · split
    · exact h
    · exact Or.inr rfl
  · exact Or.inr rfl

theorem resolve_laxer (s : Scope) (n : String) (only : Bool) (v w : Vis) (hvw : v ≤ w)
    (h : v ≠ .designtime ∨ ∀ sc ∈ enclosing s, ∀ d, ¬ Declares sc "base" d) :
    Laxer (resolve s n only v) (resolve s n only w) := by
  induction s generalizing only v w with
  | null => exact Or.inr rfl
  | mk k L E M X b p ihb ihp =>
    have hp : Laxer (resolve p n false v) (resolve p n false w) :=
      ihp false v w hvw (h.imp id fun h sc hsc => h sc (by simp [enclosing, hsc]))
    have key : k ≠ .symbol → ∀ only, Laxer (methodResolve (ownDecl L E M X n v) (ownDecl L E M X "base" .designtime)
        (resolve b n true v) (resolve p n false v) only v)
        (methodResolve (ownDecl L E M X n w) (ownDecl L E M X "base" .designtime)
        (resolve b n true w) (resolve p n false w) only w) := by
      intro hk only
      by_cases hv : v = .designtime
      · have hb := not_declares_base hk ((h.resolve_left (fun g => g hv)) (.mk k L E M X b p) (by simp [enclosing]))
        rw [hb]
        have e : ∀ (u : Vis) (o : Option Decl) (r r' rp : Res Decl),
            methodResolve o none r rp only u = methodResolve o none r' rp only u := by
          intro u o r r' rp; cases o <;> rfl
        rw [e w _ (resolve b n true w) (resolve b n true v)]
        exact laxer_methodResolve (ownDecl_mono hvw) (Or.inr rfl) hp (Or.inr rfl)
      · have hw : w ≠ .designtime := by
          revert hv hvw; cases v <;> cases w <;> decide
        exact laxer_methodResolve (ownDecl_mono hvw) (ihb true v w hvw (Or.inl hv)) hp (Or.inl ⟨hv, hw⟩)
    cases k with
    | symbol =>
      rw [resolve.eq_2, resolve.eq_2]
      cases e : ownSymbol L E n v with
      | some d => exact Or.inl ⟨d, rfl⟩
      | none =>
        rw [ownSymbol_mono hvw e]
        cases only with
        | true => exact Or.inr rfl
        | false => exact hp
    | method => exact key (by decide) only
    | object =>
      rw [resolve.eq_4, resolve.eq_4]
      refine laxer_objectResolve (key (by decide) true) ?_ (key (by decide) false)
      by_cases hv : v = .designtime
      · have hb := not_declares_base (k := .object) (by decide)
          ((h.resolve_left (fun g => g hv)) (.mk .object L E M X b p) (by simp [enclosing]))
        rw [hb]; exact Or.inr rfl
      · refine laxer_baseResult (ihb false _ _ (Vis.atLeastProt_mono hvw) (Or.inl ?_))
        cases v <;> decide

/-- **C08**, monotonicity: a name that can be reached at some level can be reached at every laxer level.
`_partial`: the laxest level, which the interpreter uses to read variables, is covered only for scopes without a base
class; for classes with a base it is false (`access_monotone_refuted`). -/
theorem access_monotone_partial (s : Scope) (n : String) (only : Bool) (v w : Vis) (hvw : v ≤ w)
    (h : v ≠ .designtime ∨ ∀ sc ∈ enclosing s, ∀ d, ¬ Declares sc "base" d) (d : Decl)
    (hd : resolve s n only w = .found d) : ∃ d', resolve s n only v = .found d' := by
  rcases resolve_laxer s n only v w hvw h with h | h
  · exact h
  · exact ⟨d, by rw [← h, hd]⟩

/-- An inherited public member is reachable at level private. -/
example : (let c := Scope.mk .method [("base", ⟨9, .pub⟩)] [] [] [] (.mk .method [("x", ⟨1, .pub⟩)] [] [] [] .null .null) .null
    (resolve c "x" true .pub, resolve c "x" true .priv)) =
    (.found (.sym ⟨1, .pub⟩), .found (.sym ⟨1, .pub⟩)) := by decide

/-- **C08** is false at the laxest level: an inherited public member of a class is found at level public, but not
at level design time. -/
theorem access_monotone_refuted : ∃ (s : Scope) (n : String) (v w : Vis) (d : Decl), v ≤ w ∧
    resolve s n false w = .found d ∧ resolve s n false v = .none :=
  ⟨.mk .method [("base", ⟨9, .pub⟩)] [] [] [] (.mk .method [("x", ⟨1, .pub⟩)] [] [] [] .null .null) .null,
    "x", .designtime, .pub, .sym ⟨1, .pub⟩, by decide, by decide, by decide⟩

/-! ## C74: private members and derived classes -/

/-- **C74** is false: the lookup the compiler performs inside a class (level private) finds the private members of
its base class, although the class itself declares nothing. -/
theorem base_private_refuted : ∃ (c a : Scope) (n : String) (d : Decl), Lineage c [c, a] ∧
    (∀ e, ¬ Declares c n e) ∧ Declares a n d ∧ d.vis = .priv ∧
    resolve c n false .priv = .found d := by
  let a := Scope.mk .method [("x", ⟨1, .priv⟩)] [] [] [] .null .null
  refine ⟨.mk .method [("base", ⟨9, .pub⟩)] [] [] [] a .null, a, "x", .sym ⟨1, .priv⟩, ?_, ?_, ?_, rfl, by decide⟩
  · refine .derived (by decide) (by decide) (.root (by decide) ?_)
    intro d h; simp [declares_iff, AMap.find] at h
  · intro e h; simp [declares_iff, AMap.find] at h
  · exact .symbol (by decide)

/-- The same holds for methods. -/
theorem base_private_method_refuted : ∃ (c a : Scope) (n : String) (m : Meth), Lineage c [c, a] ∧
    (∀ e, ¬ Declares c n e) ∧ Declares a n (.meth m) ∧ m.vis = .priv ∧
    resolveMethod c n [] false .priv = .found m := by
  let m : Meth := ⟨1, "f", .priv, [], false⟩
  let a := Scope.mk .method [] [] [m] [] .null .null
  refine ⟨.mk .method [("base", ⟨9, .pub⟩)] [] [] [] a .null, a, "f", m, ?_, ?_, ?_, rfl, by decide⟩
  · refine .derived (by decide) (by decide) (.root (by decide) ?_)
    intro d h; simp [declares_iff, AMap.find, m] at h
  · intro e h; simp [declares_iff, AMap.find] at h
  · exact .method (by decide) (by simp) rfl

/-- **C74** at run time: a variable looked up from an object (level design time) is declared by the object
itself, or it is at least protected, or it comes from the scopes around the object.
`_partial`: the same is false for lookups at level private (`base_private_refuted`). -/
theorem base_private_hidden_partial (L E : AMap String Sym) (M X : List Meth) (b p : Scope) (n : String) (only : Bool) (d : Decl)
    (h : resolve (.mk .object L E M X b p) n only .designtime = .found d) :
    Declares (.mk .object L E M X b p) n d ∨ .prot ≤ d.vis ∨ resolve p n false .designtime = .found d := by
  have key : ∀ only, methodResolve (ownDecl L E M X n .designtime) (ownDecl L E M X "base" .designtime)
        (resolve b n true .designtime) (resolve p n false .designtime) only .designtime = .found d →
      Declares (.mk .object L E M X b p) n d ∨ .prot ≤ d.vis ∨ resolve p n false .designtime = .found d := by
    intro only h
    cases e : ownDecl L E M X n .designtime with
    | some d' => rw [e] at h; cases h; exact Or.inl (ownDecl_some (by decide) e).1
    | none =>
      rw [e, methodResolve_none_own, if_pos rfl] at h
      cases only with
      | true => cases h
      | false => exact Or.inr (Or.inr h)
  rw [resolve.eq_4] at h
  rcases objectResolve_found h with h | ⟨-, h⟩ | ⟨-, h⟩
  · exact key _ h
  · exact Or.inr (Or.inl (Vis.le_trans (by decide) (access_enforced _ _ _ _ _ (baseResult_found h).1)))
  · exact key _ h

/-- An object with a base that has a private and a protected member. -/
example : (let a := Scope.mk .object [("x", ⟨1, .priv⟩), ("y", ⟨2, .prot⟩)] [] [] [] .null .null
    let o := Scope.mk .object [("base", ⟨9, .pub⟩)] [] [] [] a .null
    (resolve o "x" false .designtime, resolve o "y" false .designtime)) = (.none, .found (.sym ⟨2, .prot⟩)) := by decide

/-! ## C07: declaring names -/

/-- The scope holds the name. -/
def Holds (s : Scope) (n : String) : Prop := ∃ d, Declares s n d

/-- **C07** for blocks and method bodies: declaring a name succeeds exactly when the scope does not hold it. -/
theorem declare_iff_absent (L E : AMap String Sym) (M X : List Meth) (b p : Scope) (n : String) (s : Sym) :
    (define (.mk .symbol L E M X b p) n s).isSome = true ↔ ¬ Holds (.mk .symbol L E M X b p) n := by
  cases e : ownSymbol L E n .designtime with
  | some d =>
    obtain ⟨y, rfl, hy, -⟩ := ownSymbol_some e
    simp only [define, e, Option.isSome_none, Bool.false_eq_true, false_iff, Classical.not_not]
    rcases hy with hy | hy
    · exact ⟨_, .symbol hy⟩
    · exact ⟨_, .external hy⟩
  | none =>
    simp only [define, e, Option.isSome_some, true_iff]
    rintro ⟨d, hd⟩
    exact ownSymbol_none' rfl e hd (Vis.designtime_le _)

/-- **C07** for namespaces, classes and objects.  `_partial`: only a symbol declared before is noticed; an
imported symbol or a method of the same name is not (`declare_unique_refuted`). -/
theorem declare_iff_absent_partial (k : Kind) (hk : k ≠ .symbol) (L E : AMap String Sym) (M X : List Meth) (b p : Scope)
    (n : String) (s : Sym) :
    (define (.mk k L E M X b p) n s).isSome = true ↔ L.find n = none := by
  cases k with
  | symbol => exact absurd rfl hk
  | method => cases e : L.find n <;> simp [define, e]
  | object => cases e : L.find n <;> simp [define, e]

/-- **C07** is false for classes: a member can be declared under the name of a method the class already has. -/
theorem declare_unique_refuted : ∃ (c c' : Scope) (n : String) (s : Sym), Holds c n ∧ define c n s = some c' :=
  ⟨.mk .method [] [] [⟨1, "f", .pub, [], false⟩] [] .null .null, _, "f", ⟨2, .pub⟩,
    ⟨_, .method (by decide) (List.mem_singleton.2 rfl) rfl⟩, rfl⟩

theorem define_shape {k : Kind} {L E : AMap String Sym} {M X : List Meth} {b p s' : Scope} {n : String} {s : Sym}
    (h : define (.mk k L E M X b p) n s = some s') : s' = .mk k (L.set n s) E M X b p := by
  cases k with
  | symbol => cases e : ownSymbol L E n .designtime <;> simp [define, e] at h; exact h.symm
  | method => cases e : L.find n <;> simp [define, e] at h; exact h.symm
  | object => cases e : L.find n <;> simp [define, e] at h; exact h.symm

theorem ownSymbol_set_ne {L E : AMap String Sym} {n x : String} {s : Sym} {v : Vis} (h : n ≠ x) :
    ownSymbol (L.set n s) E x v = ownSymbol L E x v := by
  unfold ownSymbol
  rw [AMap.find_set_ne h]

theorem ownDecl_set_ne {L E : AMap String Sym} {M X : List Meth} {n x : String} {s : Sym} {v : Vis} (h : n ≠ x) :
    ownDecl (L.set n s) E M X x v = ownDecl L E M X x v := by
  unfold ownDecl
  rw [ownSymbol_set_ne h]

/-- **C07**: after a successful declaration in any scope, the name resolves to the new symbol at every level the
symbol admits. -/
theorem declared_resolves (k : Kind) (L E : AMap String Sym) (M X : List Meth) (b p s' : Scope) (n : String) (s : Sym)
    (h : define (.mk k L E M X b p) n s = some s') (only : Bool) (v : Vis) (hv : v ≤ s.vis) :
    resolve s' n only v = .found (.sym s) := by
  rw [define_shape h]
  have e : ownSymbol (L.set n s) E n v = some (.sym s) := by
    unfold ownSymbol; rw [AMap.find_set_self]; simp [hv]
  have e' : ownDecl (L.set n s) E M X n v = some (.sym s) := by unfold ownDecl; rw [e]; rfl
  cases k with
  | symbol => rw [resolve.eq_2, e]
  | method => rw [resolve.eq_3, e']; rfl
  | object => rw [resolve.eq_4, e']; rfl

/-- **C07**: a declaration does not affect any other name (`base`, which establishes inheritance, aside). -/
theorem declaration_isolated (k : Kind) (L E : AMap String Sym) (M X : List Meth) (b p s' : Scope) (n : String) (s : Sym)
    (h : define (.mk k L E M X b p) n s = some s') (hb : n ≠ "base") (x : String) (hx : x ≠ n) (only : Bool) (v : Vis) :
    resolve s' x only v = resolve (.mk k L E M X b p) x only v := by
  rw [define_shape h]
  cases k with
  | symbol => rw [resolve.eq_2, resolve.eq_2, ownSymbol_set_ne (Ne.symm hx)]
  | method => rw [resolve.eq_3, resolve.eq_3, ownDecl_set_ne (Ne.symm hx), ownDecl_set_ne hb]
  | object => rw [resolve.eq_4, resolve.eq_4, ownDecl_set_ne (Ne.symm hx), ownDecl_set_ne hb]

/-- A nested block redeclares a name of the surrounding one; a second declaration is rejected. -/
example : (let outer := Scope.mk .symbol [("x", ⟨1, .pub⟩), ("y", ⟨2, .pub⟩)] [] [] [] .null .null
    let inner := Scope.mk .symbol [] [] [] [] .null outer
    match define inner "x" ⟨3, .pub⟩ with
    | some s => (resolve s "x" false .priv, resolve s "y" false .priv, (define s "x" ⟨4, .pub⟩).isSome)
    | none => (.none, .none, true)) = (.found (.sym ⟨3, .pub⟩), .found (.sym ⟨2, .pub⟩), false) := by decide

/-- **C07** for the symbols a class takes over from an ancestor (`defineExternal`): taking over succeeds exactly when no
symbol of that name was taken over before. -/
theorem takeover_iff_absent (k : Kind) (L E : AMap String Sym) (M X : List Meth) (b p : Scope) (n : String) (s : Sym) :
    (defineExternal (.mk k L E M X b p) n s).isSome = true ↔ E.find n = none := by
  cases e : E.find n <;> simp [defineExternal, e]

theorem defineExternal_shape {k : Kind} {L E : AMap String Sym} {M X : List Meth} {b p s' : Scope} {n : String} {s : Sym}
    (h : defineExternal (.mk k L E M X b p) n s = some s') : s' = .mk k L (E.set n s) M X b p := by
  cases e : E.find n <;> simp [defineExternal, e] at h; exact h.symm

/-- **C07**: after a symbol has been taken over from an ancestor, its name means the symbol the class declares itself,
if there is one that the level admits, and otherwise the symbol that was taken over. -/
theorem takeover_resolves (k : Kind) (L E : AMap String Sym) (M X : List Meth) (b p s' : Scope) (n : String) (s : Sym)
    (h : defineExternal (.mk k L E M X b p) n s = some s') (only : Bool) (v : Vis) (hv : v ≤ s.vis) :
    (∀ o, L.find n = some o → v ≤ o.vis → resolve s' n only v = .found (.sym o)) ∧
    ((∀ o, L.find n = some o → ¬ v ≤ o.vis) → resolve s' n only v = .found (.sym s)) := by
  rw [defineExternal_shape h]
  constructor
  · intro o ho hvo
    have e : ownSymbol L (E.set n s) n v = some (.sym o) := by unfold ownSymbol; rw [ho]; simp [hvo]
    have e' : ownDecl L (E.set n s) M X n v = some (.sym o) := by unfold ownDecl; rw [e]; rfl
    cases k with
    | symbol => rw [resolve.eq_2, e]
    | method => rw [resolve.eq_3, e']; rfl
    | object => rw [resolve.eq_4, e']; rfl
  · intro ho
    have e : ownSymbol L (E.set n s) n v = some (.sym s) := by
      have hx : ownSymbol.ext (E.set n s) n v = some (.sym s) := by unfold ownSymbol.ext; rw [AMap.find_set_self]; simp [hv]
      unfold ownSymbol
      cases e : L.find n with
      | none => exact hx
      | some o => simp only [ho o e, if_false]; exact hx
    have e' : ownDecl L (E.set n s) M X n v = some (.sym s) := by unfold ownDecl; rw [e]; rfl
    cases k with
    | symbol => rw [resolve.eq_2, e]
    | method => rw [resolve.eq_3, e']; rfl
    | object => rw [resolve.eq_4, e']; rfl

theorem ownDecl_take_ne {L E : AMap String Sym} {M X : List Meth} {n x : String} {s : Sym} {v : Vis} (h : n ≠ x) :
    ownSymbol L (E.set n s) x v = ownSymbol L E x v ∧ ownDecl L (E.set n s) M X x v = ownDecl L E M X x v := by
  have e : ownSymbol L (E.set n s) x v = ownSymbol L E x v := by
    unfold ownSymbol ownSymbol.ext
    rw [AMap.find_set_ne h]
  exact ⟨e, by unfold ownDecl; rw [e]⟩

/-- **C07**: taking over a symbol does not affect any other name (`base` aside). -/
theorem takeover_isolated (k : Kind) (L E : AMap String Sym) (M X : List Meth) (b p s' : Scope) (n : String) (s : Sym)
    (h : defineExternal (.mk k L E M X b p) n s = some s') (hb : n ≠ "base") (x : String) (hx : x ≠ n) (only : Bool)
    (v : Vis) : resolve s' x only v = resolve (.mk k L E M X b p) x only v := by
  rw [defineExternal_shape h]
  cases k with
  | symbol => rw [resolve.eq_2, resolve.eq_2, (ownDecl_take_ne (M := M) (X := X) (Ne.symm hx)).1]
  | method => rw [resolve.eq_3, resolve.eq_3, (ownDecl_take_ne (Ne.symm hx)).2, (ownDecl_take_ne hb).2]
  | object => rw [resolve.eq_4, resolve.eq_4, (ownDecl_take_ne (Ne.symm hx)).2, (ownDecl_take_ne hb).2]

/-- A class with a private member `x` of its own takes over `x` and `y`: from outside `x` is the one taken over, inside it
is its own; a second `y` is rejected. -/
example : (let c := Scope.mk .method [("x", ⟨1, .priv⟩)] [] [] [] .null .null
    match (defineExternal c "x" ⟨2, .pub⟩).bind (defineExternal · "y" ⟨3, .pub⟩) with
    | some s => (resolve s "x" false .pub, resolve s "x" false .priv, resolve s "y" false .pub,
        (defineExternal s "y" ⟨4, .pub⟩).isSome)
    | none => (.none, .none, .none, true)) =
      (.found (.sym ⟨2, .pub⟩), .found (.sym ⟨1, .priv⟩), .found (.sym ⟨3, .pub⟩), false) := by decide

/-- Declaring and removing names in one scope. -/
inductive DeclOp
  | declare (n : String) (s : Sym)
  | remove (n : String)

/-- The scope after the operation; a rejected declaration leaves it as it is. -/
def applyOp (s : Scope) : DeclOp → Scope
  | .declare n y => (define s n y).getD s
  | .remove n => undefine s n

/-- Specification: which symbol a name stands for after the operations, latest operation first: an accepted
declaration stays until it is removed. -/
def standsFor (n : String) : List DeclOp → Option Sym
  | [] => none
  | .declare x y :: earlier => if x = n ∧ standsFor n earlier = none then some y else standsFor n earlier
  | .remove x :: earlier => if x = n then none else standsFor n earlier

/-- **C07** for whole histories: after any sequence of declarations and removals in a fresh scope of any kind
within any surroundings, each name resolves, in that scope, to the symbol the specification says, and a name without symbol
to nothing. -/
theorem declarations_history (k : Kind) (p : Scope) (ops : List DeclOp) (n : String) :
    resolve (ops.foldl applyOp (.mk k [] [] [] [] .null p)) n true .designtime =
      match standsFor n ops.reverse with
      | some s => .found (.sym s)
      | none => .none := by
  have inv : ∀ ops : List DeclOp, ∃ L : AMap String Sym, L.keys.Nodup ∧
      ops.foldr (fun o s => applyOp s o) (.mk k [] [] [] [] .null p) = .mk k L [] [] [] .null p ∧
      ∀ n, L.find n = standsFor n ops := by
    intro ops
    induction ops with
    | nil => exact ⟨[], List.nodup_nil, rfl, fun n => rfl⟩
    | cons o ops ih =>
      obtain ⟨L, hn, he, hf⟩ := ih
      rw [List.foldr_cons, he]
      cases o with
      | declare x y =>
        have hdef : define (.mk k L [] [] [] .null p) x y =
            if L.find x = none then some (.mk k (L.set x y) [] [] [] .null p) else none := by
          cases k with
          | symbol =>
            cases e : L.find x with
            | none => simp [define, ownSymbol, ownSymbol.ext, e, AMap.find]
            | some z => simp [define, ownSymbol, e, Vis.designtime_le]
          | method => cases e : L.find x <;> simp [define, e]
          | object => cases e : L.find x <;> simp [define, e]
        simp only [applyOp]
        rw [hdef]
        by_cases hx : L.find x = none
        · rw [if_pos hx]
          refine ⟨L.set x y, AMap.nodup_set hn, rfl, fun n => ?_⟩
          unfold standsFor
          by_cases e : x = n
          · subst e; rw [AMap.find_set_self, ← hf x, hx]; simp
          · rw [AMap.find_set_ne e, hf n]; simp [e]
        · rw [if_neg hx]
          refine ⟨L, hn, rfl, fun n => ?_⟩
          unfold standsFor
          by_cases e : x = n
          · subst e; rw [if_neg (by rw [← hf x]; simp [hx])]; exact hf x
          · rw [hf n]; simp [e]
      | remove x =>
        refine ⟨L.erase x, AMap.nodup_erase hn, rfl, fun n => ?_⟩
        unfold standsFor
        by_cases e : x = n
        · subst e; rw [AMap.find_erase_self hn]; simp
        · rw [AMap.find_erase_ne e, hf n]; simp [e]
  obtain ⟨L, -, he, hf⟩ := inv ops.reverse
  rw [List.foldr_reverse] at he
  rw [he, ← hf n]
  have e : ownSymbol L [] n .designtime = (L.find n).map .sym := by
    unfold ownSymbol ownSymbol.ext
    cases L.find n with
    | none => rfl
    | some y => simp [Vis.designtime_le]
  have e' : ownDecl L [] [] [] n .designtime = (L.find n).map .sym := by
    unfold ownDecl firstNamed; rw [e]; simp
  cases k with
  | symbol => rw [resolve.eq_2, e]; cases L.find n <;> rfl
  | method => rw [resolve.eq_3, e']; cases L.find n <;> rfl
  | object => rw [resolve.eq_4, e']; cases L.find n <;> rfl

example : standsFor "x" [.declare "x" ⟨3, .pub⟩, .remove "x", .declare "x" ⟨2, .pub⟩, .declare "x" ⟨1, .pub⟩] =
    some ⟨3, .pub⟩ ∧ standsFor "x" [.declare "x" ⟨2, .pub⟩, .declare "x" ⟨1, .pub⟩] = some ⟨1, .pub⟩ := by decide

/-! ## C09 and C75: overloads -/

theorem methodResolveM_none_own {bs : Option Decl} {rb rp : Res Meth} {p : Scope} {only : Bool} {v : Vis} :
    methodResolveM none bs rb rp p only v =
      if v = .designtime then methodResolveM.parent rp p only
      else match bs with
        | none => methodResolveM.parent rp p only
        | some (.meth _) => .threw
        | some (.sym _) => match rb with
          | .none => methodResolveM.parent rp p only
          | r => r := rfl

theorem parent_found {rp : Res Meth} {p : Scope} {only : Bool} {m : Meth}
    (h : methodResolveM.parent rp p only = .found m) : rp = .found m ∧ only = false := by
  unfold methodResolveM.parent at h
  split at h
  · cases h
  · rename_i ho
    split at h
    · cases h
    · cases h
    · exact ⟨h, by simpa using ho⟩

theorem objectResolveM_found {r1 r2 r3 : Res Meth} {only : Bool} {m : Meth}
    (h : objectResolveM r1 r2 r3 only = .found m) : r1 = .found m ∨ r2 = .found m ∨ r3 = .found m := by
  have third : ∀ r, objectResolveM.third r3 only r = .found m → r = .found m ∨ r3 = .found m := by
    intro r h
    unfold objectResolveM.third at h
    split at h
    · exact Or.inl h
    · split at h
      · exact Or.inl h
      · exact Or.inr h
    · split at h
      · cases h
      · exact Or.inr h
  unfold objectResolveM at h
  split at h
  all_goals first
    | (cases h; done)
    | skip
  · rcases third _ h with h | h
    · exact Or.inr (Or.inl h)
    · exact Or.inr (Or.inr h)
  · rcases third _ h with h | h
    · split at h
      · exact Or.inr (Or.inl h)
      · exact Or.inl h
    · exact Or.inr (Or.inr h)
  · rcases third _ h with h | h
    · exact Or.inl h
    · exact Or.inr (Or.inr h)

/-- **C09**: whatever scope a call is resolved from, the chosen method has the name that was called, is
accessible, and accepts the arguments: no surplus argument, no argument of a wrong type, no missing argument
without default. -/
theorem resolved_method_applicable (s : Scope) (n : String) (args : List String) (only : Bool) (v : Vis) (m : Meth)
    (h : resolveMethod s n args only v = .found m) : m.name = n ∧ v ≤ m.vis ∧ Accepts m.sig args := by
  induction s generalizing only v m with
  | null => cases h
  | mk k L E M X b p ihb ihp =>
    have key : ∀ only m, methodResolveM ((firstApplicable M n args v).or (firstApplicable X n args v))
        (ownDecl L E M X "base" .designtime) (resolveMethod b n args true v) (resolveMethod p n args false v) p only v =
        .found m → m.name = n ∧ v ≤ m.vis ∧ Accepts m.sig args := by
      intro only m h
      cases e : (firstApplicable M n args v).or (firstApplicable X n args v) with
      | some m' =>
        rw [e] at h; cases h
        rw [Option.or_eq_some_iff] at e
        rcases e with e | ⟨-, e⟩
        · exact (firstApplicable_some e).2
        · exact (firstApplicable_some e).2
      | none =>
        rw [e, methodResolveM_none_own] at h
        repeat' split at h
        all_goals first
          | (cases h; done)
          | exact ihp _ _ _ (parent_found h).1
          | exact ihb _ _ _ h
    cases k with
    | symbol => cases h
    | method => exact key only m h
    | object =>
      rcases objectResolveM_found h with h | h | h
      · exact key _ _ h
      · obtain ⟨h1, h2, h3⟩ := ihb _ _ _ (baseResult_found h).1
        exact ⟨h1, Vis.le_trans (Vis.le_atLeastProt v) h2, h3⟩
      · exact key _ _ h

/-- A chain of namespaces and classes with three overloads: the nearest one that fits is chosen. -/
example : (let g := Scope.mk .method [] [] [⟨1, "f", .pub, [⟨"string", false⟩], false⟩] [] .null .null
    let c := Scope.mk .method [] [] [⟨2, "f", .pub, [⟨"int", false⟩, ⟨"int", true⟩], false⟩,
      ⟨3, "f", .priv, [], false⟩] [] .null g
    (resolveMethod c "f" ["int"] false .pub, resolveMethod c "f" ["string"] false .pub,
      resolveMethod c "f" [] false .priv, resolveMethod c "f" [] false .pub,
      resolveMethod c "f" ["int", "int", "int"] false .priv)) =
    (.found ⟨2, "f", .pub, [⟨"int", false⟩, ⟨"int", true⟩], false⟩, .found ⟨1, "f", .pub, [⟨"string", false⟩], false⟩,
      .found ⟨3, "f", .priv, [], false⟩, .none, .none) := by decide

/-- The scope is a namespace, class or object; so are the ones around it. -/
def AllMethodScopes (s : Scope) : Prop :=
  ∀ sc ∈ enclosing s, ∃ k L E M X b p, sc = .mk k L E M X b p ∧ k ≠ .symbol

/-- **C09** without inheritance: the method belongs to the innermost scope that offers one for the call, and if
none is found, no enclosing scope offers one. -/
theorem overload_innermost_partial (s : Scope) (hk : AllMethodScopes s)
    (hb : ∀ sc ∈ enclosing s, ∀ d, ¬ Declares sc "base" d) (n : String) (args : List String) (v : Vis) :
    (∃ m, resolveMethod s n args false v = .found m ∧ FirstOffer (enclosing s) n args v m) ∨
    (resolveMethod s n args false v = .none ∧ ∀ sc ∈ enclosing s, ∀ m, ¬ Offers sc n args v m) := by
  induction s with
  | null => exact Or.inr ⟨rfl, by simp [enclosing]⟩
  | mk k L E M X b p _ ih =>
    have ih := ih (fun sc hsc => hk sc (by simp [enclosing, hsc])) fun sc hsc => hb sc (by simp [enclosing, hsc])
    have hk0 : k ≠ .symbol := by
      obtain ⟨_, _, _, _, _, _, _, e, hk⟩ := hk (.mk k L E M X b p) (by simp [enclosing])
      cases e; exact hk
    have hbn := not_declares_base hk0 (hb (.mk k L E M X b p) (by simp [enclosing]))
    have hpar : methodResolveM.parent (resolveMethod p n args false v) p false = resolveMethod p n args false v := by
      cases p with
      | null => rfl
      | mk k' L' E' M' X' b' p' =>
        obtain ⟨_, _, _, _, _, _, _, e, hk'⟩ := hk (.mk k' L' E' M' X' b' p') (by simp [enclosing])
        cases e
        cases k' with
        | symbol => exact absurd rfl hk'
        | method => rfl
        | object => rfl
    cases e : (firstApplicable M n args v).or (firstApplicable X n args v) with
    | some m =>
      have hoff := ownMeth_some (L := L) (E := E) (b := b) (p := p) hk0 e
      refine Or.inl ⟨m, ?_, [], _, _, rfl, hoff, by simp⟩
      cases k with
      | symbol => exact absurd rfl hk0
      | method => rw [resolveMethod.eq_3, e]; rfl
      | object =>
        rw [resolveMethod.eq_4, e, hbn]
        simp only [methodResolveM, baseResult, objectResolveM, objectResolveM.third]
        split <;> rfl
    | none =>
      have hno : ∀ m, ¬ Offers (.mk k L E M X b p) n args v m := fun m => ownMeth_none e
      have hstep : resolveMethod (.mk k L E M X b p) n args false v = resolveMethod p n args false v := by
        cases k with
        | symbol => exact absurd rfl hk0
        | method =>
          rw [resolveMethod.eq_3, e, hbn, methodResolveM_none_own, hpar]
          split <;> rfl
        | object =>
          rw [resolveMethod.eq_4, e, hbn, methodResolveM_none_own, methodResolveM_none_own, hpar]
          have e1 : methodResolveM.parent (resolveMethod p n args false v) p true = .none := rfl
          rw [e1]
          by_cases hv : v = .designtime <;>
            simp [hv, baseResult, objectResolveM, objectResolveM.third]
      rw [hstep]
      rcases ih with ⟨m, h3, pre, sc, post, h4, h5, h7⟩ | ⟨h3, h4⟩
      · refine Or.inl ⟨m, h3, .mk k L E M X b p :: pre, sc, post, by simp [enclosing, h4], h5, ?_⟩
        intro t ht
        rcases List.mem_cons.1 ht with rfl | ht
        · exact hno
        · exact h7 t ht
      · refine Or.inr ⟨h3, ?_⟩
        intro t ht
        rcases List.mem_cons.1 ht with rfl | ht
        · exact hno
        · exact h4 t ht

/-- **C09** with inheritance, for classes (as used by the compiler): at the levels private, protected and public,
the method belongs to the first class in the line of inheritance that offers one. -/
theorem overload_inherited {s : Scope} {l : List Scope} (hl : Lineage s l)
    (hc : ∀ sc ∈ l, ∃ L E M X b p, sc = .mk .method L E M X b p) {v : Vis} (hv : v ≠ .designtime)
    (n : String) (args : List String) (only : Bool) :
    (∃ m, resolveMethod s n args only v = .found m ∧ FirstOffer l n args v m) ∨
    ((∀ sc ∈ l, ∀ m, ¬ Offers sc n args v m) ∧ resolveMethod s n args true v = .none) := by
  induction hl generalizing only with
  | @root k L E M X b p hk hb =>
    have hbn := not_declares_base hk hb
    obtain ⟨_, _, _, _, _, _, e⟩ := hc (.mk k L E M X b p) (by simp)
    cases e
    cases e : (firstApplicable M n args v).or (firstApplicable X n args v) with
    | some m =>
      refine Or.inl ⟨m, ?_, [], _, [], rfl, ownMeth_some hk e, by simp⟩
      rw [resolveMethod.eq_3, e]; rfl
    | none =>
      refine Or.inr ⟨?_, ?_⟩
      · intro sc hsc m
        simp only [List.mem_singleton] at hsc
        subst hsc
        exact ownMeth_none e
      · rw [resolveMethod.eq_3, e, hbn, methodResolveM_none_own]; split <;> rfl
  | @derived k L E M X b p l hk hb hl ih =>
    have ih := ih (fun sc hsc => hc sc (by simp [hsc])) true
    obtain ⟨_, _, _, _, _, _, e⟩ := hc (.mk k L E M X b p) (by simp)
    cases e
    have hbs : ∃ y, ownDecl L E M X "base" .designtime = some (.sym y) := by
      cases hf : L.find "base" with
      | none => exact absurd hf hb
      | some y => exact ⟨y, by simp [ownDecl, ownSymbol, hf, Vis.designtime_le]⟩
    obtain ⟨y, hbs⟩ := hbs
    cases e : (firstApplicable M n args v).or (firstApplicable X n args v) with
    | some m =>
      refine Or.inl ⟨m, ?_, [], _, l, rfl, ownMeth_some hk e, by simp⟩
      rw [resolveMethod.eq_3, e]; rfl
    | none =>
      have hno : ∀ m, ¬ Offers (.mk .method L E M X b p) n args v m := fun m => ownMeth_none e
      rcases ih with ⟨m, h3, pre, sc, post, h4, h5, h7⟩ | ⟨h3, h4⟩
      · refine Or.inl ⟨m, ?_, .mk .method L E M X b p :: pre, sc, post, by simp [h4], h5, ?_⟩
        · rw [resolveMethod.eq_3, e, hbs, methodResolveM_none_own, if_neg hv, h3]
        · intro t ht
          rcases List.mem_cons.1 ht with rfl | ht
          · exact hno
          · exact h7 t ht
      · refine Or.inr ⟨?_, ?_⟩
        · intro t ht
          rcases List.mem_cons.1 ht with rfl | ht
          · exact hno
          · exact h3 t ht
        · rw [resolveMethod.eq_3, e, hbs, methodResolveM_none_own, if_neg hv, h4]; rfl

/-- **C09** with inheritance, for run-time objects whose classes have no final method of the name: the method
belongs to the first class in the line of inheritance that offers one. -/
theorem overload_object {s : Scope} {l : List Scope} (hl : Lineage s l)
    (hc : ∀ sc ∈ l, ∃ L E M X b p, sc = .mk .object L E M X b p)
    (n : String) (hf : ∀ sc ∈ l, ∀ m, Declares sc n (.meth m) → m.final = false) {v : Vis} (hv : v ≠ .designtime)
    (args : List String) :
    (∃ m, resolveMethod s n args true v = .found m ∧ FirstOffer l n args v m) ∨
    (resolveMethod s n args true v = .none ∧ ∀ sc ∈ l, ∀ m, ¬ Offers sc n args v m) := by
  have third_found : ∀ (r3 : Res Meth) (m : Meth), objectResolveM.third r3 true (.found m) = .found m := by
    intro r3 m; unfold objectResolveM.third; cases r3 <;> simp
  induction hl generalizing v with
  | @root k L E M X b p hk hb =>
    have hbn := not_declares_base hk hb
    obtain ⟨_, _, _, _, _, _, e⟩ := hc (.mk k L E M X b p) (by simp)
    cases e
    cases e : (firstApplicable M n args v).or (firstApplicable X n args v) with
    | some m =>
      refine Or.inl ⟨m, ?_, [], _, [], rfl, ownMeth_some hk e, by simp⟩
      rw [resolveMethod.eq_4, e, hbn]
      simp only [methodResolveM, baseResult, objectResolveM]
      exact third_found _ _
    | none =>
      refine Or.inr ⟨?_, ?_⟩
      · rw [resolveMethod.eq_4, e, hbn, methodResolveM_none_own, if_neg hv]
        rfl
      · intro sc hsc m
        simp only [List.mem_singleton] at hsc
        subst hsc
        exact ownMeth_none e
  | @derived k L E M X b p l hk hb hl ih =>
    have ih := fun {u : Vis} (hu : u ≠ .designtime) => ih (v := u) (fun sc hsc => hc sc (by simp [hsc]))
      (fun sc hsc => hf sc (by simp [hsc])) hu
    have hpv : v.atLeastProt ≠ .designtime := by cases v <;> decide
    obtain ⟨_, _, _, _, _, _, e⟩ := hc (.mk k L E M X b p) (by simp)
    cases e
    have hbs : ∃ y, ownDecl L E M X "base" .designtime = some (.sym y) := by
      cases hf : L.find "base" with
      | none => exact absurd hf hb
      | some y => exact ⟨y, by simp [ownDecl, ownSymbol, hf, Vis.designtime_le]⟩
    obtain ⟨y, hbs⟩ := hbs
    -- what the base object answers: nothing, or a method that is not final
    have hr2 : (baseResult (some (.sym y)) b (resolveMethod b n args true v.atLeastProt) = .none) ∨
        ∃ m2, baseResult (some (.sym y)) b (resolveMethod b n args true v.atLeastProt) = .found m2 ∧ m2.final = false ∧
          ∃ sc ∈ l, Offers sc n args v m2 := by
      unfold baseResult
      simp only
      split
      · rcases ih hpv with ⟨m2, h1, pre, sc, post, h2, h3, -⟩ | ⟨h1, -⟩
        · refine Or.inr ⟨m2, h1, hf sc (by simp [h2]) m2 h3.1, sc, by simp [h2], h3.1,
            Vis.le_trans (Vis.le_atLeastProt v) h3.2.1, h3.2.2⟩
        · exact Or.inl h1
      · exact Or.inl rfl
    cases e : (firstApplicable M n args v).or (firstApplicable X n args v) with
    | some m =>
      refine Or.inl ⟨m, ?_, [], _, l, rfl, ownMeth_some hk e, by simp⟩
      rw [resolveMethod.eq_4, e, hbs]
      rcases hr2 with h | ⟨m2, h, hfin, -⟩
      · rw [h]
        simp only [methodResolveM, objectResolveM]
        exact third_found _ _
      · rw [h]
        simp only [methodResolveM, objectResolveM, hfin]
        exact third_found _ _
    | none =>
      have hno : ∀ m, ¬ Offers (.mk .object L E M X b p) n args v m := fun m => ownMeth_none e
      rcases ih hv with ⟨m, h3, pre, sc, post, h4, h5, h7⟩ | ⟨h3, h4⟩
      · refine Or.inl ⟨m, ?_, .mk .object L E M X b p :: pre, sc, post, by simp [h4], h5, ?_⟩
        · rw [resolveMethod.eq_4, e, hbs, methodResolveM_none_own, if_neg hv, h3]
          rcases hr2 with h | ⟨m2, h, hfin, -⟩
          · rw [h]; exact third_found _ _
          · rw [h]
            simp only [objectResolveM, hfin]
            exact third_found _ _
        · intro t ht
          rcases List.mem_cons.1 ht with rfl | ht
          · exact hno
          · exact h7 t ht
      · refine Or.inr ⟨?_, ?_⟩
        · rw [resolveMethod.eq_4, e, hbs, methodResolveM_none_own, if_neg hv, h3]
          rcases hr2 with h | ⟨m2, h, hfin, sc, hsc, hoff⟩
          · rw [h]; rfl
          · exact absurd hoff (h4 sc hsc m2)
        · intro t ht
          rcases List.mem_cons.1 ht with rfl | ht
          · exact hno
          · exact h4 t ht

/-- An object whose class redefines a method of its base class, and inherits another one. -/
example : (let a := Scope.mk .object [] [] [⟨1, "f", .pub, [], false⟩, ⟨2, "g", .pub, [], false⟩] [] .null .null
    let o := Scope.mk .object [("base", ⟨9, .pub⟩)] [] [⟨3, "f", .pub, [], false⟩] [] a .null
    (resolveMethod o "f" [] true .priv, resolveMethod o "g" [] true .priv)) =
    (.found ⟨3, "f", .pub, [], false⟩, .found ⟨2, "g", .pub, [], false⟩) := by decide

/-- **C09**: a final method of the base object that is at least protected cannot be hidden by a method of the
derived object. -/
theorem final_method_wins (L E : AMap String Sym) (M X : List Meth) (b p : Scope) (y : Sym) (hb : L.find "base" = some y)
    (ho : b.isObject = true) (n : String) (args : List String) (only : Bool) (v : Vis) (m m2 : Meth)
    (hown : (firstApplicable M n args v) = some m) (h2 : resolveMethod b n args only v.atLeastProt = .found m2)
    (hfin : m2.final = true) : resolveMethod (.mk .object L E M X b p) n args only v = .found m2 := by
  have hbs : ownDecl L E M X "base" .designtime = some (.sym y) := by
    simp [ownDecl, ownSymbol, hb, Vis.designtime_le]
  rw [resolveMethod.eq_4, hbs, hown, h2]
  simp [baseResult, ho, methodResolveM, objectResolveM, objectResolveM.third, hfin]

/-- A final method in the base, redefined in the derived object. -/
example : (let a := Scope.mk .object [] [] [⟨1, "f", .pub, [], true⟩] [] .null .null
    resolveMethod (.mk .object [("base", ⟨9, .pub⟩)] [] [⟨3, "f", .pub, [], false⟩] [] a .null) "f" [] false .priv) =
    .found ⟨1, "f", .pub, [], true⟩ := by decide

/-- The signature as the user sees it: the name and the parameter types. -/
def Meth.signature (m : Meth) : String × List String := (m.name, m.sig.map Param.type)

/-- Defining methods one after the other, each landing somewhere among the others; rejected ones are left out. -/
def defineAll (ext : List Meth) (ms : List (Meth × Nat)) : List Meth :=
  ms.foldl (fun acc m => (defineMethod acc ext m.1 m.2).getD acc) []

theorem accepts_own (sig : List Param) (types : List String) (h : sig.map Param.type = types) : Accepts sig types := by
  subst h
  refine ⟨by simp, ?_, ?_⟩
  · intro i a p ha hp
    rw [List.getElem?_map, hp] at ha
    simp only [Option.map_some, Option.some.injEq] at ha
    exact Or.inl ha
  · intro i p hi hp
    rw [List.length_map] at hi
    rw [List.getElem?_eq_none hi] at hp
    cases hp

/-- **C09**: whatever methods are defined in a scope, in whatever order and memory layout, no two methods it ends
up with have the same name and the same parameter types. -/
theorem signatures_unique (ext : List Meth) (ms : List (Meth × Nat)) :
    ((defineAll ext ms).map Meth.signature).Nodup := by
  unfold defineAll
  suffices h : ∀ (ms : List (Meth × Nat)) (acc : List Meth), (acc.map Meth.signature).Nodup →
      ((ms.foldl (fun acc m => (defineMethod acc ext m.1 m.2).getD acc) acc).map Meth.signature).Nodup from
    h ms [] List.nodup_nil
  intro ms
  induction ms with
  | nil => intro acc h; exact h
  | cons m ms ih =>
    intro acc h
    rw [List.foldl_cons]
    apply ih
    obtain ⟨m, i⟩ := m
    simp only
    cases e : defineMethod acc ext m i with
    | none => exact h
    | some r =>
      simp only [defineMethod] at e
      split at e
      · cases e
      · rename_i ho
        cases e
        rw [Option.or_eq_none_iff] at ho
        simp only [Option.getD_some]
        have hp : List.Perm (acc.take i ++ m :: acc.drop i) (m :: acc) := by
          have := List.perm_middle (a := m) (l₁ := acc.take i) (l₂ := acc.drop i)
          rwa [List.take_append_drop] at this
        rw [(hp.map _).nodup_iff, List.map_cons, List.nodup_cons]
        refine ⟨?_, h⟩
        intro hm
        obtain ⟨m', hm', hs⟩ := List.mem_map.1 hm
        simp only [Meth.signature, Prod.mk.injEq] at hs
        exact firstApplicable_none ho.1 hm' hs.1 (Vis.designtime_le _) (accepts_own _ _ hs.2)

/-- **C09**: a method definition is rejected exactly if a method of that name in the scope (or imported into it)
accepts arguments of its parameter types; an accepted one is added to the others, none of which is lost. -/
theorem define_method_effect (M X : List Meth) (m : Meth) (i : Nat) :
    (∀ M', defineMethod M X m i = some M' → M'.Perm (m :: M)) ∧
    (defineMethod M X m i = none ↔ ∃ m', (m' ∈ M ∨ m' ∈ X) ∧ m'.name = m.name ∧ Accepts m'.sig (m.sig.map Param.type)) := by
  simp only [defineMethod]
  cases e : (firstApplicable M m.name (m.sig.map Param.type) .designtime).or
      (firstApplicable X m.name (m.sig.map Param.type) .designtime) with
  | some m' =>
    refine ⟨(fun M' h => nomatch h), (fun _ => ?_), (fun _ => rfl)⟩
    rw [Option.or_eq_some_iff] at e
    rcases e with e | ⟨-, e⟩
    · obtain ⟨h1, h2, -, h4⟩ := firstApplicable_some e; exact ⟨m', Or.inl h1, h2, h4⟩
    · obtain ⟨h1, h2, -, h4⟩ := firstApplicable_some e; exact ⟨m', Or.inr h1, h2, h4⟩
  | none =>
    rw [Option.or_eq_none_iff] at e
    constructor
    · intro M' h
      cases h
      have := List.perm_middle (a := m) (l₁ := M.take i) (l₂ := M.drop i)
      rwa [List.take_append_drop] at this
    · constructor
      · intro h; cases h
      · rintro ⟨m', h1 | h1, h2, h3⟩
        · exact absurd h3 (firstApplicable_none e.1 h1 h2 (Vis.designtime_le _))
        · exact absurd h3 (firstApplicable_none e.2 h1 h2 (Vis.designtime_le _))

/-- Two overloads of `f` are kept, the third definition repeats a signature and is left out. -/
example : (defineAll [] [(⟨1, "f", .pub, [⟨"int", false⟩], false⟩, 0), (⟨2, "f", .pub, [⟨"string", false⟩], false⟩, 0),
    (⟨3, "f", .priv, [⟨"int", true⟩], false⟩, 5)]).map Meth.id = [2, 1] := by decide

/-- **C75** is false: with the overloads `f(int)` and `f(int, int = 0)`, both accepted, the method called by
`f(int)` depends on where the two happen to be in memory. -/
theorem overload_layout_refuted : ∃ (ms ms' : List (Meth × Nat)), ms.map Prod.fst = ms'.map Prod.fst ∧
    (defineAll [] ms).Perm (defineAll [] ms') ∧
    resolveMethod (.mk .method [] [] (defineAll [] ms) [] .null .null) "f" ["int"] false .pub ≠
    resolveMethod (.mk .method [] [] (defineAll [] ms') [] .null .null) "f" ["int"] false .pub := by
  let f1 : Meth := ⟨1, "f", .pub, [⟨"int", false⟩], false⟩
  let f2 : Meth := ⟨2, "f", .pub, [⟨"int", false⟩, ⟨"int", true⟩], false⟩
  exact ⟨[(f1, 0), (f2, 0)], [(f1, 0), (f2, 1)], rfl, by decide, by decide⟩

/-- No two methods of the list accept the same call. -/
def Unambiguous (ms : List Meth) (n : String) (args : List String) : Prop :=
  ∀ m ∈ ms, ∀ m' ∈ ms, m.name = n → m'.name = n → Accepts m.sig args → Accepts m'.sig args → m = m'

/-- **C75** holds for calls that only one method of the scope accepts: the choice does not depend on the memory
layout.  `_partial`: ambiguous overload sets are accepted, see `overload_layout_refuted`. -/
theorem overload_layout_partial (k : Kind) (L E : AMap String Sym) (M M' X : List Meth) (b p : Scope) (hM : M.Perm M')
    (hL : L.find "base" ≠ none ∨ ∀ m ∈ M ++ X, m.name ≠ "base")
    (n : String) (args : List String) (only : Bool) (v : Vis) (hu : Unambiguous M n args) :
    resolveMethod (.mk k L E M X b p) n args only v = resolveMethod (.mk k L E M' X b p) n args only v := by
  have e1 : firstApplicable M n args v = firstApplicable M' n args v := by
    cases h1 : firstApplicable M n args v with
    | none =>
      cases h2 : firstApplicable M' n args v with
      | none => rfl
      | some m =>
        obtain ⟨g1, g2, g3, g4⟩ := firstApplicable_some h2
        exact absurd g4 (firstApplicable_none h1 (hM.mem_iff.2 g1) g2 g3)
    | some m =>
      obtain ⟨g1, g2, g3, g4⟩ := firstApplicable_some h1
      cases h2 : firstApplicable M' n args v with
      | none => exact absurd g4 (firstApplicable_none h2 (hM.mem_iff.1 g1) g2 g3)
      | some m' =>
        obtain ⟨f1, f2, f3, f4⟩ := firstApplicable_some h2
        rw [hu m g1 m' (hM.mem_iff.2 f1) g2 f2 g4 f4]
  have e2 : ownDecl L E M X "base" .designtime = ownDecl L E M' X "base" .designtime := by
    rcases hL with hL | hL
    · cases hf : L.find "base" with
      | none => exact absurd hf hL
      | some y => simp [ownDecl, ownSymbol, hf, Vis.designtime_le]
    · have none_of : ∀ ms : List Meth, (∀ m ∈ ms, m.name ≠ "base") → firstNamed ms "base" .designtime = none := by
        intro ms h
        cases e : firstNamed ms "base" .designtime with
        | none => rfl
        | some d =>
          obtain ⟨m, hm, -, hn, -⟩ := firstNamed_some e
          exact absurd hn (h m hm)
      unfold ownDecl
      rw [none_of M fun m hm => hL m (by simp [hm]), none_of M' fun m hm => hL m (by simp [hM.mem_iff.2 hm])]
  cases k with
  | symbol => rfl
  | method => rw [resolveMethod.eq_3, resolveMethod.eq_3, e1, e2]
  | object => rw [resolveMethod.eq_4, resolveMethod.eq_4, e1, e2]

/-- Two overloads, of which a call with a string argument fits exactly one. -/
example : Unambiguous [⟨1, "f", .pub, [⟨"int", false⟩], false⟩, ⟨2, "f", .pub, [⟨"string", false⟩], false⟩] "f" ["string"] := by
  intro m hm m' hm' _ _ h h'
  rw [← isSignatureValid_iff] at h h'
  simp only [List.mem_cons, List.not_mem_nil, or_false] at hm hm'
  rcases hm with rfl | rfl <;> rcases hm' with rfl | rfl <;> first | rfl | exact absurd h (by decide) | exact absurd h' (by decide)

end Verif.Scope
