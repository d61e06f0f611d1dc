import Verif.Global.Lemmas

/-! # Declared names: the tables hold what is declared -/

namespace Verif.Global

open Verif.Str (Text)
open Verif.Decl (Node TypeDecl Vis Layout Ancestor Relation Arg Param)

theorem noClash_append {pre es fs : List Event} : NoClash pre (es ++ fs) ↔ NoClash pre es ∧ NoClash (pre ++ es) fs := by
  induction es generalizing pre with
  | nil => simp [NoClash]
  | cons e es ih => simp [NoClash, ih, and_assoc]

theorem noClash_mem {pre es : List Event} (h : NoClash pre es) {a e : Event} (ha : a ∈ pre) (he : e ∈ es) (hs : Same a e)
    (hm : a.isMethod = false) (hem : e.isMethod = false) (hes : e.isSpace = false) : False := by
  induction es generalizing pre with
  | nil => cases he
  | cons f es ih =>
    rcases List.mem_cons.1 he with rfl | he
    · exact h.1 (by unfold Refused; rw [hes]; exact ⟨hem, a, ha, hs, hm⟩)
    · exact ih h.2 (List.mem_append_left _ ha) he

theorem recorded_mono {w w' : World} {m : Text → Text} {e : Event} (h : Recorded w m e)
    (hs : ∀ k s, w.symbols.find k = some s → w'.symbols.find k = some s) (hm : ∀ x ∈ w.methods, x ∈ w'.methods)
    (hc : ∀ q c, w.classes.find q = some c → w'.classes.find q = some c) : Recorded w' m e := by
  unfold Recorded at h ⊢
  cases ht : e.thing with
  | space v => rw [ht] at h; obtain ⟨v, h⟩ := h; exact ⟨v, hs _ _ h⟩
  | cls v args as body => rw [ht] at h; obtain ⟨h₁, ps, h₂, h₃⟩ := h; exact ⟨hs _ _ h₁, ps, hc _ _ h₂, h₃⟩
  | iface v args as => rw [ht] at h; exact ⟨hs _ _ h.1, hc _ _ h.2⟩
  | enum v => rw [ht] at h; exact ⟨hs _ _ h.1, hc _ _ h.2⟩
  | member v ty => rw [ht] at h; exact hs _ _ h
  | object v ty => rw [ht] at h; exact hs _ _ h
  | method v ty ps => rw [ht] at h; exact hm _ h

/-- What is true behind some declarations. -/
structure Post (evs pre es : List Event) (w w' : World) : Prop where
  inv : Inv (pre ++ es) w'
  symbols : ∀ k s, w.symbols.find k = some s → w'.symbols.find k = some s
  methods : ∀ m ∈ w.methods, m ∈ w'.methods
  classes : ∀ q c, w.classes.find q = some c → w'.classes.find q = some c
  keys : ∀ q, (w'.classes.find q).isSome ↔ (w.classes.find q).isSome ∨ ∃ e ∈ es, e.isType = true ∧ q = spelled e.scope e.name
  recorded : DeclaredFirst evs → InterfacesQualified evs → ∀ e ∈ es, Recorded w' (meant evs e.scope) e

theorem Post.nil {evs pre : List Event} {w : World} (h : Inv pre w) : Post evs pre [] w w where
  inv := by simpa using h
  symbols _ _ h := h
  methods _ h := h
  classes _ _ h := h
  keys q := by simp
  recorded _ _ e he := by cases he

theorem Post.trans {evs pre es fs : List Event} {w w₁ w₂ : World} (h : Post evs pre es w w₁)
    (h' : Post evs (pre ++ es) fs w₁ w₂) : Post evs pre (es ++ fs) w w₂ where
  inv := by simpa using h'.inv
  symbols k s hk := h'.symbols k s (h.symbols k s hk)
  methods m hm := h'.methods m (h.methods m hm)
  classes q c hq := h'.classes q c (h.classes q c hq)
  keys q := by
    rw [h'.keys, h.keys]
    constructor
    · rintro ((h | ⟨e, he, h⟩) | ⟨e, he, h⟩)
      · exact .inl h
      · exact .inr ⟨e, List.mem_append_left _ he, h⟩
      · exact .inr ⟨e, List.mem_append_right _ he, h⟩
    · rintro (h | ⟨e, he, h⟩)
      · exact .inl (.inl h)
      · rcases List.mem_append.1 he with he | he
        · exact .inl (.inr ⟨e, he, h⟩)
        · exact .inr ⟨e, he, h⟩
  recorded h₁ h₂ e he := by
    rcases List.mem_append.1 he with he | he
    · exact recorded_mono (h.recorded h₁ h₂ e he) h'.symbols h'.methods h'.classes
    · exact h'.recorded h₁ h₂ e he

/-- How the declarations end: they are in the tables, or two of them clash. -/
def Outcome (evs pre es : List Event) (w : World) (r : Option World) : Prop :=
  (∃ w', r = some w' ∧ Post evs pre es w w' ∧ NoClash pre es) ∨ (r = none ∧ ¬ NoClash pre es)

theorem Outcome.bind {evs pre es fs : List Event} {w : World} {r : Option World} {k : World → Option World}
    (h : Outcome evs pre es w r) (hk : ∀ w', Inv (pre ++ es) w' → Outcome evs (pre ++ es) fs w' (k w')) :
    Outcome evs pre (es ++ fs) w (r.bind k) := by
  rcases h with ⟨w₁, rfl, hp, hn⟩ | ⟨rfl, hn⟩
  · rcases hk w₁ hp.inv with ⟨w₂, h₂, hp₂, hn₂⟩ | ⟨h₂, hn₂⟩
    · exact .inl ⟨w₂, h₂, hp.trans hp₂, noClash_append.2 ⟨hn, hn₂⟩⟩
    · exact .inr ⟨h₂, fun h => hn₂ (noClash_append.1 h).2⟩
  · exact .inr ⟨rfl, fun h => hn (noClash_append.1 h).1⟩

/-! ## One symbol -/

theorem fits_not_method {e : Event} {s : Sym} (h : Fits e s) : e.isMethod = false := by
  unfold Fits at h; unfold Event.isMethod; split at h <;> simp_all

theorem inv_define {pre : List Event} {w : World} {e : Event} {s : Sym} (hi : Inv pre w) (hf : Fits e s)
    (hn : w.symbols.find (e.scope, e.name) = none) :
    Inv (pre ++ [e]) { w with symbols := w.symbols.set (e.scope, e.name) s } where
  holds a ha hm := by
    rcases List.mem_append.1 ha with ha | ha
    · obtain ⟨s', hs', hfit⟩ := hi.holds a ha hm
      refine ⟨s', ?_, hfit⟩
      have hne : (e.scope, e.name) ≠ (a.scope, a.name) := fun h => by rw [h, hs'] at hn; cases hn
      show AMap.find _ (AMap.set _ _ _) = _
      rw [AMap.find_set_ne hne]; exact hs'
    · rw [List.mem_singleton] at ha; subst ha
      exact ⟨s, AMap.find_set_self _ _ _, hf⟩
  only p x t ht := by
    have ht' : AMap.find (p, x) (w.symbols.set (e.scope, e.name) s) = some t := ht
    by_cases hk : (e.scope, e.name) = (p, x)
    · simp only [Prod.mk.injEq] at hk
      exact ⟨e, by simp, fits_not_method hf, hk.1, hk.2⟩
    · rw [AMap.find_set_ne hk] at ht'
      obtain ⟨a, ha, h⟩ := hi.only _ _ _ ht'
      exact ⟨a, List.mem_append_left _ ha, h⟩
  meths p x := by
    rw [show (∃ m ∈ ({ w with symbols := w.symbols.set (e.scope, e.name) s } : World).methods, m.scope = p ∧ m.name = x) ↔ _ from
      hi.meths p x]
    constructor
    · rintro ⟨a, ha, h⟩; exact ⟨a, List.mem_append_left _ ha, h⟩
    · rintro ⟨a, ha, h⟩
      rcases List.mem_append.1 ha with ha | ha
      · exact ⟨a, ha, h⟩
      · rw [List.mem_singleton] at ha; subst ha
        rw [fits_not_method hf] at h; cases h.1
  keys q hq := by
    obtain ⟨a, ha, h⟩ := hi.keys q hq
    exact ⟨a, List.mem_append_left _ ha, h⟩

/-- `define`: the new symbol is there, and nothing but it, or there is an earlier one. -/
theorem define_outcome {pre : List Event} {w : World} {e : Event} {s : Sym} (hi : Inv pre w) (hf : Fits e s) (hs : e.isSpace = false) :
    (define w e.scope e.name s = some { w with symbols := w.symbols.set (e.scope, e.name) s } ∧
        w.symbols.find (e.scope, e.name) = none ∧ Inv (pre ++ [e]) { w with symbols := w.symbols.set (e.scope, e.name) s } ∧
        ¬ Refused pre e) ∨
      (define w e.scope e.name s = none ∧ Refused pre e) := by
  unfold define
  cases hn : w.symbols.find (e.scope, e.name) with
  | none =>
    refine .inl ⟨rfl, rfl, inv_define hi hf hn, ?_⟩
    intro hr
    unfold Refused at hr
    rw [hs] at hr
    obtain ⟨_, a, ha, ⟨h₁, h₂⟩, hm⟩ := hr
    obtain ⟨s', hs', _⟩ := hi.holds a ha hm
    rw [h₁, h₂, hn] at hs'; cases hs'
  | some t =>
    obtain ⟨a, ha, hm, h₁, h₂⟩ := hi.only _ _ _ hn
    refine .inr ⟨rfl, ?_⟩
    unfold Refused
    rw [hs]
    exact ⟨fits_not_method hf, a, ha, ⟨h₁, h₂⟩, hm⟩

theorem find_set_keep {w : World} {k : Path × Text} {s : Sym} (hn : w.symbols.find k = none) (k' : Path × Text) (t : Sym)
    (h : w.symbols.find k' = some t) : AMap.find k' (w.symbols.set k s) = some t := by
  have hne : k ≠ k' := fun h' => by rw [h', h] at hn; cases hn
  rw [AMap.find_set_ne hne]; exact h

/-- A declaration that is only a symbol. -/
theorem symbol_outcome {evs pre : List Event} {w : World} {e : Event} {s : Sym} (hi : Inv pre w) (hf : Fits e s)
    (hs : e.isSpace = false) (ht : e.isType = false)
    (hr : ∀ w' : World, w'.symbols.find (e.scope, e.name) = some s → DeclaredFirst evs → InterfacesQualified evs →
      Recorded w' (meant evs e.scope) e) :
    Outcome evs pre [e] w (define w e.scope e.name s) := by
  rcases define_outcome hi hf hs with ⟨hd, hn, hi', hc⟩ | ⟨hd, hc⟩
  · refine .inl ⟨_, hd, ⟨hi', find_set_keep hn, fun _ h => h, fun _ _ h => h, fun q => ?_, fun h₁ h₂ e' he' => ?_⟩, hc, trivial⟩
    · constructor
      · exact .inl
      · rintro (h | ⟨e', he', h, _⟩)
        · exact h
        · rw [List.mem_singleton] at he'; subst he'; rw [ht] at h; cases h
    · rw [List.mem_singleton] at he'; subst he'
      exact hr _ (AMap.find_set_self _ _ _) h₁ h₂
  · exact .inr ⟨hd, fun h => h.1 hc⟩

/-- A declaration of a type: its symbol, what is in it, then its entry in the table of classes. -/
theorem type_outcome {evs pre es post : List Event} {w : World} {e : Event} {v : Vis} {c : Cls} {k : World → Option World}
    (hpl : Plain evs) (hev : evs = pre ++ (e :: es ++ post)) (hi : Inv pre w) (hf : Fits e (.type v (spelled e.scope e.name)))
    (ht : e.isType = true)
    (hk : ∀ w', Inv (pre ++ [e]) w' → Outcome evs (pre ++ [e]) es w' (k w'))
    (hr : ∀ w' : World, w'.symbols.find (e.scope, e.name) = some (.type v (spelled e.scope e.name)) →
      w'.classes.find (spelled e.scope e.name) = some c → DeclaredFirst evs → InterfacesQualified evs →
      Recorded w' (meant evs e.scope) e) :
    Outcome evs pre (e :: es) w ((define w e.scope e.name (.type v (spelled e.scope e.name))).bind fun w =>
      (k w).bind fun w => addClass w (spelled e.scope e.name) c) := by
  have hs := type_not_space ht
  rcases define_outcome hi hf hs with ⟨hd, hn, hi', hc⟩ | ⟨hd, hc⟩
  · rw [hd]
    simp only [Option.bind_some]
    rcases hk _ hi' with ⟨w₂, h₂, hp, hnc⟩ | ⟨h₂, hnc⟩
    · have plain : ∀ a ∈ pre ++ e :: es, ∀ n ∈ a.name :: a.scope, PlainName n := fun a ha n hn =>
        hpl a (by rw [hev, ← List.append_assoc]; exact List.mem_append_left _ ha) n hn
      have hnew : w₂.classes.find (spelled e.scope e.name) = none := by
        cases hx : w₂.classes.find (spelled e.scope e.name) with
        | none => rfl
        | some c' =>
          rcases (hp.keys _).1 (by rw [hx]; rfl) with h | ⟨a, ha, hat, hq⟩
          · obtain ⟨a, ha, hat, hq⟩ := hi.keys _ h
            obtain ⟨h₁, h₂⟩ := spelled_inj (plain e (by simp)) (plain a (by simp [ha])) hq
            exact False.elim <| hc (by unfold Refused; rw [hs]; exact ⟨type_not_method ht, a, ha, ⟨h₁.symm, h₂.symm⟩, type_not_method hat⟩)
          · obtain ⟨h₁, h₂⟩ := spelled_inj (plain e (by simp)) (plain a (by simp [ha])) hq
            exact False.elim <| noClash_mem hnc (a := e) (by simp) ha ⟨h₁, h₂⟩ (type_not_method ht) (type_not_method hat) (type_not_space hat)
      have hcl : ∀ q c', w₂.classes.find q = some c' → AMap.find q (w₂.classes.set (spelled e.scope e.name) c) = some c' := by
        intro q c' h
        have hne : spelled e.scope e.name ≠ q := fun h' => by rw [h', h] at hnew; cases hnew
        rw [AMap.find_set_ne hne]; exact h
      rw [h₂]
      clear h₂
      simp only [Option.bind_some, addClass, hnew]
      refine .inl ⟨_, rfl, ⟨⟨?_, ?_, ?_, ?_⟩, ?_, ?_, ?_, ?_, ?_⟩, hc, hnc⟩
      · intro a ha hm; exact hp.inv.holds a (by simpa using ha) hm
      · intro p x s h; simpa using hp.inv.only p x s h
      · intro p x; simpa using hp.inv.meths p x
      · intro q hq
        by_cases hqe : spelled e.scope e.name = q
        · exact ⟨e, by simp, ht, hqe.symm⟩
        · have hq' : (AMap.find q (w₂.classes.set (spelled e.scope e.name) c)).isSome := hq
          rw [AMap.find_set_ne hqe] at hq'
          simpa using hp.inv.keys q hq'
      · intro k' s h; exact hp.symbols _ _ (find_set_keep hn k' s h)
      · intro m hm; exact hp.methods m hm
      · intro q c' h; exact hcl q c' (hp.classes q c' h)
      · intro q
        by_cases hqe : spelled e.scope e.name = q
        · subst hqe
          constructor
          · intro _; exact .inr ⟨e, by simp, ht, rfl⟩
          · intro _
            show (AMap.find _ (AMap.set _ _ _)).isSome
            rw [AMap.find_set_self]; rfl
        · show (AMap.find q (w₂.classes.set (spelled e.scope e.name) c)).isSome ↔ _
          rw [AMap.find_set_ne hqe, hp.keys]
          constructor
          · rintro (h | ⟨a, ha, h⟩)
            · exact .inl h
            · exact .inr ⟨a, List.mem_cons_of_mem _ ha, h⟩
          · rintro (h | ⟨a, ha, h⟩)
            · exact .inl h
            · rcases List.mem_cons.1 ha with rfl | ha
              · exact absurd h.2.symm hqe
              · exact .inr ⟨a, ha, h⟩
      · intro h₁ h₂ a ha
        rcases List.mem_cons.1 ha with rfl | ha
        · exact hr _ (hp.symbols _ _ (AMap.find_set_self _ _ _)) (AMap.find_set_self _ _ _) h₁ h₂
        · exact recorded_mono (hp.recorded h₁ h₂ a ha) (fun _ _ h => h) (fun _ h => h) hcl
    · exact .inr ⟨by rw [h₂]; rfl, fun h => hnc h.2⟩
  · exact .inr ⟨by rw [hd]; rfl, fun h => h.1 hc⟩

/-! ## Namespaces -/

theorem space_not_method {e : Event} (h : e.isSpace = true) : e.isMethod = false := by
  unfold Event.isSpace at h; unfold Event.isMethod; split at h <;> simp_all

theorem fits_space {e : Event} {u : Vis} (h : Fits e (.space u)) : e.isSpace = true := by
  unfold Fits at h; unfold Event.isSpace; split at h <;> simp_all

theorem space_fits {e : Event} {s : Sym} (h : Fits e s) (hs : e.isSpace = true) : ∃ u, s = .space u := by
  unfold Event.isSpace at hs; unfold Fits at h; split at hs <;> simp_all

/-- The step of `openSpaces` for one name. -/
def openFirst (w : World) (p : Path) (v : Vis) (n : Text) (ns : List Text) : Option (World × Path) :=
  match here w p n with
  | none => (define w p n (.space v)).bind fun w => openSpaces w (n :: p) v ns
  | some (.sym (.space _)) => openSpaces w (n :: p) v ns
  | some _ => none

theorem openSpaces_cons {w : World} {p : Path} {v : Vis} {n : Text} {ns : List Text} :
    openSpaces w p v (n :: ns) = openFirst w p v n ns := rfl

theorem space_recorded {w : World} {m : Text → Text} {p : Path} {n : Text} {v v' : Vis}
    (h : w.symbols.find (p, n) = some (.space v')) : Recorded w m ⟨p, n, .space v⟩ := ⟨v', h⟩

theorem openSpaces_outcome {evs pre : List Event} {w : World} {p : Path} {v : Vis} {ns : List Text} (hi : Inv pre w) :
    (∃ w', openSpaces w p v ns = some (w', ns.reverse ++ p) ∧ Post evs pre (spaces p v ns) w w' ∧ NoClash pre (spaces p v ns)) ∨
      (openSpaces w p v ns = none ∧ ¬ NoClash pre (spaces p v ns)) := by
  induction ns generalizing w p pre with
  | nil => exact .inl ⟨w, rfl, Post.nil hi, trivial⟩
  | cons n ns ih =>
    rw [openSpaces_cons]
    simp only [spaces]
    -- the first namespace
    have first : (∃ w₁, openFirst w p v n ns = openSpaces w₁ (n :: p) v ns ∧
          Post evs pre [⟨p, n, .space v⟩] w w₁ ∧ ¬ Refused pre ⟨p, n, .space v⟩) ∨
        (openFirst w p v n ns = none ∧ Refused pre ⟨p, n, .space v⟩) := by
      unfold openFirst here
      cases hf : w.symbols.find (p, n) with
      | none =>
        simp only []
        by_cases hm : w.methods.any (fun m => m.scope = p ∧ m.name = n) = true
        · rw [if_pos hm]
          simp only [List.any_eq_true, decide_eq_true_eq] at hm
          obtain ⟨e, he, hem, h₁, h₂⟩ := (hi.meths p n).1 (by obtain ⟨m, hm, h⟩ := hm; exact ⟨m, hm, h⟩)
          refine .inr ⟨rfl, ⟨e, he, h₁, h₂⟩, fun a ha ⟨h₃, h₄⟩ => ?_⟩
          cases hs : a.isSpace with
          | false => rfl
          | true =>
            obtain ⟨s, hs', _⟩ := hi.holds a ha (space_not_method hs)
            rw [show w.symbols.find (a.scope, a.name) = w.symbols.find (p, n) by rw [h₃, h₄], hf] at hs'; cases hs'
        · rw [if_neg hm]
          simp only [define, hf, Option.bind_some]
          refine .inl ⟨_, rfl, ⟨inv_define (e := ⟨p, n, .space v⟩) hi ⟨v, rfl⟩ hf, find_set_keep hf, fun _ h => h, fun _ _ h => h,
            fun q => ?_, fun _ _ e he => ?_⟩, ?_⟩
          · constructor
            · exact .inl
            · rintro (h | ⟨e, he, h, _⟩)
              · exact h
              · rw [List.mem_singleton] at he; subst he; cases h
          · rw [List.mem_singleton] at he; subst he
            exact space_recorded (AMap.find_set_self _ _ _)
          · rintro ⟨⟨a, ha, h₁, h₂⟩, _⟩
            cases hma : a.isMethod with
            | false =>
              obtain ⟨s, hs, _⟩ := hi.holds a ha hma
              rw [h₁, h₂] at hs
              rw [show w.symbols.find (p, n) = some s from hs] at hf; cases hf
            | true =>
              obtain ⟨m, hm', h⟩ := (hi.meths p n).2 ⟨a, ha, hma, h₁, h₂⟩
              exact hm (List.any_eq_true.2 ⟨m, hm', by simpa using h⟩)
      | some s =>
        obtain ⟨e, he, hem, h₁, h₂⟩ := hi.only _ _ _ hf
        obtain ⟨s', hs', hfit⟩ := hi.holds e he hem
        rw [h₁, h₂, hf] at hs'; cases hs'
        -- all symbols declared here are of the kind of `s`
        by_cases hsp : ∃ u, s = .space u
        · obtain ⟨u, rfl⟩ := hsp
          refine .inl ⟨w, rfl, ⟨⟨?_, ?_, ?_, ?_⟩, fun _ _ h => h, fun _ h => h, fun _ _ h => h, fun q => ?_, fun _ _ e he => ?_⟩, ?_⟩
          · intro a ha hm
            rcases List.mem_append.1 ha with ha | ha
            · exact hi.holds a ha hm
            · rw [List.mem_singleton] at ha; subst ha
              exact ⟨_, hf, u, rfl⟩
          · intro q x t ht
            obtain ⟨a, ha, h⟩ := hi.only q x t ht
            exact ⟨a, List.mem_append_left _ ha, h⟩
          · intro q x
            rw [hi.meths]
            constructor
            · rintro ⟨a, ha, h⟩; exact ⟨a, List.mem_append_left _ ha, h⟩
            · rintro ⟨a, ha, h⟩
              rcases List.mem_append.1 ha with ha | ha
              · exact ⟨a, ha, h⟩
              · rw [List.mem_singleton] at ha; subst ha; cases h.1
          · intro q hq
            obtain ⟨a, ha, h⟩ := hi.keys q hq
            exact ⟨a, List.mem_append_left _ ha, h⟩
          · constructor
            · exact .inl
            · rintro (h | ⟨e, he, h, _⟩)
              · exact h
              · rw [List.mem_singleton] at he; subst he; cases h
          · rw [List.mem_singleton] at he; subst he
            exact space_recorded hf
          · rintro ⟨_, h⟩
            have := h e he ⟨h₁, h₂⟩
            rw [fits_space hfit] at this; cases this
        · refine .inr ⟨?_, ⟨e, he, h₁, h₂⟩, fun a ha ⟨h₃, h₄⟩ => ?_⟩
          · cases s with
            | space u => exact absurd ⟨u, rfl⟩ hsp
            | _ => rfl
          · cases hs : a.isSpace with
            | false => rfl
            | true =>
              obtain ⟨s', hs', hfit'⟩ := hi.holds a ha (space_not_method hs)
              rw [show w.symbols.find (a.scope, a.name) = w.symbols.find (p, n) by rw [h₃, h₄], hf] at hs'; cases hs'
              exact absurd (space_fits hfit' hs) hsp
    rcases first with ⟨w₁, h₁, hp, hc⟩ | ⟨h₁, hc⟩
    · rw [h₁]
      rcases ih (pre := pre ++ [⟨p, n, .space v⟩]) (p := n :: p) hp.inv with ⟨w₂, h₂, hp₂, hn₂⟩ | ⟨h₂, hn₂⟩
      · refine .inl ⟨w₂, by rw [h₂]; simp, hp.trans hp₂, hc, hn₂⟩
      · exact .inr ⟨h₂, fun h => hn₂ h.2⟩
    · exact .inr ⟨h₁, fun h => h.1 hc⟩

/-! ## All declarations -/

section

variable {evs : List Event}

theorem uses_resolved (hcl : Clear evs) {pre post : List Event} {e : Event} {w : World} (hev : evs = pre ++ e :: post) (hi : Inv pre w) :
    ∀ x ∈ e.uses, resolveType w e.scope x = some (meant pre e.scope x) := fun x hx =>
  resolveType_clear hi fun o ho h₁ h₂ => hcl pre e post hev x (List.mem_append_left _ hx) o ho h₁ h₂

theorem uses_meant {pre post : List Event} {e : Event} (hev : evs = pre ++ e :: post) (hdf : DeclaredFirst evs) :
    ∀ x ∈ e.uses, meant pre e.scope x = meant evs e.scope x := fun x hx => by
  rw [hev, meant_append]
  exact hdf pre e post hev x hx

theorem own_resolved (hcl : Clear evs) (hun : Unshadowed evs) {pre post : List Event} {e : Event} {w : World} (hev : evs = pre ++ e :: post) (hi : Inv pre w)
    (hc : e.isClass = true) : resolveType w e.scope e.name = some e.name := by
  rw [resolveType_clear hi fun o ho h₁ h₂ => hcl pre e post hev e.name (List.mem_append_right _ (by simp [hc])) o ho h₁ h₂]
  rw [meant_self fun o ho h₁ h₂ h₃ => hun pre e post hev hc o ho h₁ h₂ h₃]

theorem qualified_event (hpl : Plain evs) {pre post : List Event} {e : Event} (hev : evs = pre ++ e :: post) :
    qualified e.scope e.name = spelled e.scope e.name :=
  have h := hpl e (by rw [hev]; simp)
  qualified_eq (fun n hn => (h n (List.mem_cons_of_mem _ hn)).1) (h e.name (by simp)).1

theorem map_args_congr {m m' : Text → Text} {as : List Arg} (h : ∀ x ∈ as.flatMap (fun a => [a.type, a.constraint]), m x = m' x) :
    as.map (fun a => (m a.type, m a.constraint)) = as.map fun a => (m' a.type, m' a.constraint) :=
  List.map_congr_left fun a ha => by
    rw [h a.type (List.mem_flatMap.2 ⟨a, ha, by simp⟩), h a.constraint (List.mem_flatMap.2 ⟨a, ha, by simp⟩)]

theorem map_ancestors_congr {m m' : Text → Text} {as : List Ancestor}
    (h : ∀ x ∈ as.flatMap (fun a => namesIn a.name a.args), m x = m' x) :
    as.map (fun a => (a.relation, meantType m a.name a.args)) = as.map fun a => (a.relation, meantType m' a.name a.args) :=
  List.map_congr_left fun a ha => by
    rw [meantType_congr fun x hx => h x (List.mem_flatMap.2 ⟨a, ha, hx⟩)]

theorem written_eq {n : Text} {as : List Arg} : written n as = meantType id n as := rfl

theorem rootAncestor_eq {body : Option (List Node)} {m : Text → Text} {as : List Ancestor} :
    rootAncestor body (as.map fun a => (a.relation, meantType m a.name a.args)) =
      as.map (fun a => (a.relation, meantType m a.name a.args)) ++
        (if body.isSome ∧ ∀ a ∈ as, a.relation ≠ .extends then [(.extends, ⟨"Object".toList, []⟩)] else []) := by
  unfold rootAncestor
  have : (as.map (fun a => (a.relation, meantType m a.name a.args))).all (fun x => decide (x.1 ≠ .extends)) = true ↔
      ∀ a ∈ as, a.relation ≠ .extends := by simp
  simp only [this]
  split <;> simp

mutual

theorem node_outcome (hpl : Plain evs) (hcl : Clear evs) (hun : Unshadowed evs) (d : Node) {p : Path} {cls : Bool} {pre post : List Event} {w : World}
    (hev : evs = pre ++ (declared p cls d ++ post)) (hi : Inv pre w) :
    Outcome evs pre (declared p cls d) w (node p cls w d) := by
  match d with
  | .object v f l ty as body =>
    simp only [declared] at hev ⊢
    simp only [node]
    have hev' : evs = pre ++ ⟨p, ty.name, .cls v ty.args as body.isSome⟩ :: (declaredIn (ty.name :: p) body ++ post) := by
      simpa using hev
    have hu := uses_resolved hcl hev' hi
    simp only [Event.uses, List.mem_append] at hu
    have hown := own_resolved hcl hun hev' hi rfl
    have hq := qualified_event hpl hev'
    rw [resolveAncestors_eq fun x hx => hu x (.inr hx)]
    simp only [resolveDecl]
    rw [show resolveType w p ty.name = some ty.name from hown, resolveArgs_eq fun x hx => hu x (.inl hx)]
    simp only [Option.bind_some]
    rw [show qualified p ty.name = spelled p ty.name from hq]
    refine type_outcome (e := ⟨p, ty.name, .cls v ty.args as body.isSome⟩) hpl hev hi rfl rfl (k := fun w => inner (ty.name :: p) w body)
      (fun w' hi' => ?_) fun w' hs hc hdf _ => ?_
    · exact inner_outcome hpl hcl hun body (post := post) (by rw [hev]; simp) hi'
    · have hm := uses_meant hev' hdf
      simp only [Event.uses, List.mem_append] at hm
      refine ⟨hs, _, ?_, rfl⟩
      rw [← map_args_congr (fun x hx => hm x (.inl hx)), ← map_ancestors_congr (fun x hx => hm x (.inr hx)), ← rootAncestor_eq]
      exact hc
  | .enum v f ty es =>
    simp only [declared] at hev ⊢
    simp only [node]
    have hev' : evs = pre ++ ⟨p, ty.name, .enum v⟩ :: post := by simpa using hev
    rw [show qualified p ty.name = spelled p ty.name from qualified_event hpl hev']
    exact type_outcome (e := ⟨p, ty.name, .enum v⟩) (es := []) (k := some) hpl hev hi rfl rfl
      (fun w' hi' => .inl ⟨w', rfl, Post.nil hi', trivial⟩) fun w' hs hc _ _ => ⟨hs, hc⟩
  | .interface v f ty as body =>
    simp only [declared] at hev ⊢
    simp only [node]
    have hev' : evs = pre ++ ⟨p, ty.name, .iface v ty.args as⟩ :: (declaredAll (ty.name :: p) true body ++ post) := by
      simpa using hev
    rw [show qualified p ty.name = spelled p ty.name from qualified_event hpl hev']
    refine type_outcome (e := ⟨p, ty.name, .iface v ty.args as⟩) hpl hev hi rfl rfl (k := fun w => nodes (ty.name :: p) true w body)
      (fun w' hi' => ?_) fun w' hs hc hdf hiq => ?_
    · exact nodes_outcome hpl hcl hun body (post := post) (by rw [hev]; simp) hi'
    · have hm := hiq _ (by rw [hev']; exact List.mem_append_right _ (List.mem_cons_self)) rfl
      simp only [Event.uses, List.mem_append] at hm
      refine ⟨hs, ?_⟩
      rw [map_args_congr (m' := id) (fun x hx => hm x (.inl hx)), map_ancestors_congr (m' := id) (fun x hx => hm x (.inr hx))]
      exact hc
  | .library e r => exact .inl ⟨w, rfl, Post.nil hi, trivial⟩
  | .space v f ns body =>
    simp only [declared] at hev ⊢
    simp only [node]
    rcases openSpaces_outcome (evs := evs) (p := p) (v := v) (ns := ns) hi with ⟨w₁, h₁, hp, hn⟩ | ⟨h₁, hn⟩
    · rw [h₁]
      simp only [Option.bind_some]
      exact Outcome.bind (.inl ⟨w₁, rfl, hp, hn⟩) fun w' hi' =>
        nodes_outcome hpl hcl hun body (post := post) (by rw [hev]; simp) hi'
    · rw [h₁]
      exact .inr ⟨rfl, fun h => hn (noClash_append.1 h).1⟩
  | .member v l f ty n m a i =>
    simp only [declared] at hev ⊢
    simp only [node]
    have hev' : evs = pre ++ ⟨p, n, if cls = true ∧ l ≠ .stat then .member v ty else .object v ty⟩ :: post := by simpa using hev
    have hu := uses_resolved hcl hev' hi
    by_cases hc : cls = true ∧ l ≠ .stat
    · simp only [if_pos hc] at hev' hu ⊢
      rw [resolveDecl_eq hu]
      refine symbol_outcome (e := ⟨p, n, .member v ty⟩) hi ⟨_, _, rfl⟩ rfl rfl fun w' hs hdf _ => ?_
      rw [meantType_congr (uses_meant hev' hdf)] at hs
      exact hs
    · simp only [if_neg hc] at hev' hu ⊢
      rw [resolveDecl_eq hu]
      refine symbol_outcome (e := ⟨p, n, .object v ty⟩) hi ⟨_, _, rfl⟩ rfl rfl fun w' hs hdf _ => ?_
      rw [meantType_congr (uses_meant hev' hdf)] at hs
      exact hs
  | .method v l f ty n ps kd m t b =>
    simp only [declared] at hev ⊢
    simp only [node]
    have hev' : evs = pre ++ ⟨p, n, .method v ty ps⟩ :: post := by simpa using hev
    have hu := uses_resolved hcl hev' hi
    simp only [Event.uses, List.mem_append] at hu
    rw [resolveDecl_eq fun x hx => hu x (.inl hx), resolveParams_eq fun x hx => hu x (.inr hx)]
    simp only [Option.bind_some]
    refine .inl ⟨_, rfl, ⟨⟨?_, ?_, ?_, ?_⟩, fun _ _ h => h, fun _ h => List.mem_append_left _ h, fun _ _ h => h, fun q => ?_,
      fun hdf _ e he => ?_⟩, ?_, trivial⟩
    · intro a ha hm
      rcases List.mem_append.1 ha with ha | ha
      · exact hi.holds a ha hm
      · rw [List.mem_singleton] at ha; subst ha; cases hm
    · intro q x s hs
      obtain ⟨a, ha, h⟩ := hi.only q x s hs
      exact ⟨a, List.mem_append_left _ ha, h⟩
    · intro q x
      constructor
      · rintro ⟨a, ha, h⟩
        rcases List.mem_append.1 ha with ha | ha
        · obtain ⟨e, he, h⟩ := (hi.meths q x).1 ⟨a, ha, h⟩
          exact ⟨e, List.mem_append_left _ he, h⟩
        · rw [List.mem_singleton] at ha; subst ha
          exact ⟨_, List.mem_append_right _ (List.mem_singleton.2 rfl), rfl, h.1, h.2⟩
      · rintro ⟨e, he, hm, h⟩
        rcases List.mem_append.1 he with he | he
        · obtain ⟨a, ha, h⟩ := (hi.meths q x).2 ⟨e, he, hm, h⟩
          exact ⟨a, List.mem_append_left _ ha, h⟩
        · rw [List.mem_singleton] at he; subst he
          exact ⟨_, List.mem_append_right _ (List.mem_singleton.2 rfl), h⟩
    · intro q hq
      obtain ⟨a, ha, h⟩ := hi.keys q hq
      exact ⟨a, List.mem_append_left _ ha, h⟩
    · constructor
      · exact .inl
      · rintro (h | ⟨e, he, h, _⟩)
        · exact h
        · rw [List.mem_singleton] at he; subst he; cases h
    · rw [List.mem_singleton] at he; subst he
      have hm := uses_meant hev' hdf
      simp only [Event.uses, List.mem_append] at hm
      show _ ∈ _
      refine List.mem_append_right _ (List.mem_singleton.2 ?_)
      rw [meantType_congr fun x hx => hm x (.inl hx)]
      congr 1
      refine List.map_congr_left fun a ha => ?_
      rw [meantType_congr fun x hx => hm x (.inr (List.mem_flatMap.2 ⟨a, ha, hx⟩))]
    · unfold Refused
      simp [Event.isSpace, Event.isMethod]

theorem nodes_outcome (hpl : Plain evs) (hcl : Clear evs) (hun : Unshadowed evs) (ds : List Node) {p : Path} {cls : Bool} {pre post : List Event} {w : World}
    (hev : evs = pre ++ (declaredAll p cls ds ++ post)) (hi : Inv pre w) :
    Outcome evs pre (declaredAll p cls ds) w (nodes p cls w ds) := by
  match ds with
  | [] => exact .inl ⟨w, rfl, Post.nil hi, trivial⟩
  | d :: ds =>
    simp only [declaredAll] at hev ⊢
    simp only [nodes]
    exact (node_outcome hpl hcl hun d (post := declaredAll p cls ds ++ post) (by rw [hev]; simp) hi).bind fun w' hi' =>
      nodes_outcome hpl hcl hun ds (post := post) (by rw [hev]; simp) hi'

theorem inner_outcome (hpl : Plain evs) (hcl : Clear evs) (hun : Unshadowed evs) (body : Option (List Node)) {p : Path} {pre post : List Event} {w : World}
    (hev : evs = pre ++ (declaredIn p body ++ post)) (hi : Inv pre w) :
    Outcome evs pre (declaredIn p body) w (inner p w body) := by
  match body with
  | none => exact .inl ⟨w, rfl, Post.nil hi, trivial⟩
  | some ds =>
    simp only [declaredIn] at hev ⊢
    simp only [inner]
    exact nodes_outcome hpl hcl hun ds hev hi

end

theorem load_outcome (hpl : Plain evs) (hcl : Clear evs) (hun : Unshadowed evs) (files : List (List Node)) {pre post : List Event} {w : World}
    (hev : evs = pre ++ (files.flatMap (declaredAll [] false) ++ post)) (hi : Inv pre w) :
    Outcome evs pre (files.flatMap (declaredAll [] false)) w (load w files) := by
  induction files generalizing pre w with
  | nil => exact .inl ⟨w, rfl, Post.nil hi, trivial⟩
  | cons f fs ih =>
    simp only [List.flatMap_cons] at hev ⊢
    simp only [load]
    exact (nodes_outcome hpl hcl hun f (post := fs.flatMap (declaredAll [] false) ++ post) (by rw [hev]; simp) hi).bind fun w' hi' =>
      ih (by rw [hev]; simp) hi'

end

end Verif.Global
