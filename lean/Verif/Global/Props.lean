import Verif.Global.Main

/-! # Declared names: the properties -/

namespace Verif.Global

open Verif.Str (Text)
open Verif.Decl (Node TypeDecl Vis Layout Ancestor Relation Arg Param)

theorem inv_builtin : Inv builtinEvents builtin where
  holds e he hm := by
    simp only [builtinEvents_eq, List.mem_append, List.mem_map, List.mem_singleton] at he
    rcases he with ⟨t, ht, rfl⟩ | rfl
    · refine ⟨.type .pub t, ?_, rfl⟩
      simp only [builtinTypes, List.mem_cons, List.not_mem_nil, or_false] at ht
      rcases ht with rfl | rfl | rfl | rfl | rfl | rfl | rfl | rfl | rfl <;> decide
    · exact ⟨.object .pub ⟨"Object".toList, []⟩, by decide, _, _, rfl⟩
  only p x s h := by
    have := AMap.mem_of_find h
    simp only [builtin, List.mem_append, List.mem_map, List.mem_singleton, Prod.mk.injEq] at this
    rcases this with ⟨t, ht, ⟨rfl, rfl⟩, _⟩ | ⟨⟨rfl, rfl⟩, _⟩
    · exact ⟨⟨[], t, .cls .pub [] [] false⟩, by simp only [builtinEvents_eq, List.mem_append, List.mem_map]; exact .inl ⟨t, ht, rfl⟩, rfl, rfl, rfl⟩
    · exact ⟨⟨[], "null".toList, .object .pub ⟨"Object".toList, [], .modify⟩⟩, by simp [builtinEvents_eq], rfl, rfl, rfl⟩
  meths p x := by
    constructor
    · rintro ⟨m, hm, _⟩; cases hm
    · rintro ⟨e, he, hm, _⟩
      simp only [builtinEvents_eq, List.mem_append, List.mem_map, List.mem_singleton] at he
      rcases he with ⟨t, _, rfl⟩ | rfl <;> cases hm
  keys q hq := by
    cases h : builtin.classes.find q with
    | none => rw [h] at hq; cases hq
    | some c =>
      have := AMap.mem_of_find h
      simp only [builtin, List.mem_map, Prod.mk.injEq] at this
      obtain ⟨t, ht, rfl, _⟩ := this
      exact ⟨⟨[], t, .cls .pub [] [] false⟩, by simp only [builtinEvents_eq, List.mem_append, List.mem_map]; exact .inl ⟨t, ht, rfl⟩, rfl, rfl⟩

/-- Is a built-in type. -/
theorem builtin_keys (q : Text) : (builtin.classes.find q).isSome ↔ ∃ e ∈ builtinEvents, e.isType = true ∧ q = spelled e.scope e.name := by
  constructor
  · exact inv_builtin.keys q
  · rintro ⟨e, he, ht, rfl⟩
    simp only [builtinEvents_eq, List.mem_append, List.mem_map, List.mem_singleton] at he
    rcases he with ⟨t, hb, rfl⟩ | rfl
    · simp only [builtinTypes, List.mem_cons, List.not_mem_nil, or_false] at hb
      rcases hb with rfl | rfl | rfl | rfl | rfl | rfl | rfl | rfl | rfl <;> decide
    · cases ht

/-- C145: if a program is accepted, then every declaration is in the tables as it is written, with every name of a type replaced by
the full name of the type it means: the one in the innermost scope around it.  Missing: programs that use a type before its
declaration (`type_used_early_refuted`), a class behind one of the same name around it (`inner_class_refuted`), names of types that are
also names of members, methods or namespaces (`member_is_type_refuted`, `class_named_like_its_namespace_refuted`), interfaces
whose ancestors are not written in full (`interface_parents_refuted`). -/
theorem type_names_mean_the_nearest_type_partial (files : List (List Node)) (w : World) (plain : Plain (declarations files))
    (clear : Clear (declarations files)) (unshadowed : Unshadowed (declarations files)) (first : DeclaredFirst (declarations files))
    (full : InterfacesQualified (declarations files)) (h : load builtin files = some w) :
    ∀ e ∈ files.flatMap (declaredAll [] false), Recorded w (meant (declarations files) e.scope) e := by
  rcases load_outcome plain clear unshadowed files (pre := builtinEvents) (post := []) (by simp [declarations]) inv_builtin with
    ⟨w', h', hp, _⟩ | ⟨h', _⟩
  · rw [h] at h'; cases h'
    exact hp.recorded first full
  · rw [h] at h'; cases h'

/-- C146: if a program is accepted, then the classes it has are the built-in ones and those it declares, each under its full name.
Missing: as for C145, but types may be used before their declaration. -/
theorem classes_are_those_declared_partial (files : List (List Node)) (w : World) (plain : Plain (declarations files))
    (clear : Clear (declarations files)) (unshadowed : Unshadowed (declarations files)) (h : load builtin files = some w) (q : Text) :
    (w.classes.find q).isSome ↔ ∃ e ∈ declarations files, e.isType = true ∧ q = spelled e.scope e.name := by
  rcases load_outcome plain clear unshadowed files (pre := builtinEvents) (post := []) (by simp [declarations]) inv_builtin with
    ⟨w', h', hp, _⟩ | ⟨h', _⟩
  · rw [h] at h'; cases h'
    rw [hp.keys, builtin_keys]
    constructor
    · rintro (⟨e, he, h⟩ | ⟨e, he, h⟩)
      · exact ⟨e, List.mem_append_left _ he, h⟩
      · exact ⟨e, List.mem_append_right _ he, h⟩
    · rintro ⟨e, he, h⟩
      rcases List.mem_append.1 he with he | he
      · exact .inl ⟨e, he, h⟩
      · exact .inr ⟨e, he, h⟩
  · rw [h] at h'; cases h'

/-- Some declaration is refused. -/
theorem not_noClash_iff {pre es : List Event} :
    ¬ NoClash pre es ↔ ∃ before e after, es = before ++ e :: after ∧ Refused (pre ++ before) e := by
  induction es generalizing pre with
  | nil => simp [NoClash]
  | cons a es ih =>
    constructor
    · intro h
      by_cases hr : Refused pre a
      · exact ⟨[], a, es, rfl, by simpa using hr⟩
      · obtain ⟨b, e, c, rfl, h'⟩ := ih.1 fun hn => h ⟨hr, hn⟩
        exact ⟨a :: b, e, c, rfl, by simpa using h'⟩
    · rintro ⟨b, e, c, hes, hr⟩ ⟨h₁, h₂⟩
      cases b with
      | nil =>
        simp only [List.nil_append, List.cons.injEq] at hes
        obtain ⟨rfl, _⟩ := hes
        exact h₁ (by simpa using hr)
      | cons b₀ b =>
        simp only [List.cons_append, List.cons.injEq] at hes
        obtain ⟨rfl, hes⟩ := hes
        exact ih.2 ⟨b, e, c, hes, by simpa using hr⟩ h₂

/-- C147: a program is rejected while its declarations are read exactly if a name is declared twice in a scope — save methods, and
namespaces that are opened again.  Missing: as for C146. -/
theorem rejected_iff_declared_twice_partial (files : List (List Node)) (plain : Plain (declarations files))
    (clear : Clear (declarations files)) (unshadowed : Unshadowed (declarations files)) :
    load builtin files = none ↔ ∃ before e after, files.flatMap (declaredAll [] false) = before ++ e :: after ∧
      Refused (builtinEvents ++ before) e := by
  rw [← not_noClash_iff]
  rcases load_outcome plain clear unshadowed files (pre := builtinEvents) (post := []) (by simp [declarations]) inv_builtin with
    ⟨w', h', _, hn⟩ | ⟨h', hn⟩
  · rw [h']; simp [hn]
  · rw [h']; simp [hn]

/-! ## Namespaces -/

theorem nodes_append {p : Path} {cls : Bool} {w : World} (a b : List Node) :
    nodes p cls w (a ++ b) = (nodes p cls w a).bind fun w => nodes p cls w b := by
  induction a generalizing w with
  | nil => rfl
  | cons d a ih =>
    simp only [List.cons_append, nodes]
    cases h : node p cls w d with
    | none => rfl
    | some w' => simp [ih]

/-- C148: the files of a program are one text: it does not matter where one file ends and the next begins. -/
theorem load_append (w : World) (files : List (List Node)) : load w files = nodes [] false w files.flatten := by
  induction files generalizing w with
  | nil => rfl
  | cons f fs ih =>
    simp only [load, List.flatten_cons, nodes_append]
    cases h : nodes [] false w f with
    | none => rfl
    | some w' => simp [ih]

/-- C148: `namespace A.B { … }` is `namespace A { namespace B { … } }`. -/
theorem namespace_dotted (p : Path) (cls : Bool) (w : World) (v : Vis) (f : Decl.Feature) (a b : List Text) (ds : List Node) :
    node p cls w (.space v f (a ++ b) ds) = node p cls w (.space v f a [.space v f b ds]) := by
  simp only [node, nodes]
  have : ∀ (w : World) (p : Path), openSpaces w p v (a ++ b) = (openSpaces w p v a).bind fun r => openSpaces r.1 r.2 v b := by
    induction a with
    | nil => intro w p; rfl
    | cons n a ih =>
      intro w p
      simp only [List.cons_append, openSpaces]
      cases h : here w p n with
      | none =>
        simp only []
        cases hd : define w p n (.space v) with
        | none => rfl
        | some w' => simp [ih]
      | some s =>
        cases s with
        | method => rfl
        | sym s => cases s <;> simp [ih]
  rw [this]
  cases h : openSpaces w p v a with
  | none => rfl
  | some r =>
    simp only [Option.bind_some]
    cases h' : openSpaces r.1 r.2 v b with
    | none => rfl
    | some r' => simp

/-- Nothing is taken out of the tables. -/
def Keeps (w w' : World) : Prop := ∀ k s, w.symbols.find k = some s → w'.symbols.find k = some s

theorem Keeps.refl (w : World) : Keeps w w := fun _ _ h => h

theorem Keeps.trans {w w₁ w₂ : World} (h : Keeps w w₁) (h' : Keeps w₁ w₂) : Keeps w w₂ := fun k s hk => h' k s (h k s hk)

theorem define_keeps {w w' : World} {p : Path} {x : Text} {s : Sym} (h : define w p x s = some w') :
    Keeps w w' ∧ w'.symbols.find (p, x) = some s := by
  unfold define at h
  cases hf : w.symbols.find (p, x) with
  | some t => rw [hf] at h; cases h
  | none =>
    rw [hf] at h; cases h
    exact ⟨find_set_keep hf, AMap.find_set_self _ _ _⟩

theorem addClass_keeps {w w' : World} {q : Text} {c : Cls} (h : addClass w q c = some w') : Keeps w w' := by
  unfold addClass at h
  cases hf : w.classes.find q with
  | some t => rw [hf] at h; cases h
  | none => rw [hf] at h; cases h; exact Keeps.refl _

/-- The namespaces are there. -/
def Opened (w : World) (p : Path) : List Text → Prop
  | [] => True
  | n :: ns => (∃ v, w.symbols.find (p, n) = some (.space v)) ∧ Opened w (n :: p) ns

theorem Opened.mono {w w' : World} (h : Keeps w w') {p : Path} {ns : List Text} (ho : Opened w p ns) : Opened w' p ns := by
  induction ns generalizing p with
  | nil => trivial
  | cons n ns ih => obtain ⟨⟨v, hv⟩, ho⟩ := ho; exact ⟨⟨v, h _ _ hv⟩, ih ho⟩

theorem openSpaces_keeps {w w' : World} {p p' : Path} {v : Vis} {ns : List Text} (h : openSpaces w p v ns = some (w', p')) :
    Keeps w w' ∧ Opened w' p ns ∧ p' = ns.reverse ++ p := by
  induction ns generalizing w p with
  | nil => cases h; exact ⟨Keeps.refl _, trivial, rfl⟩
  | cons n ns ih =>
    simp only [openSpaces] at h
    cases hh : here w p n with
    | none =>
      rw [hh] at h
      simp only [] at h
      cases hd : define w p n (.space v) with
      | none => rw [hd] at h; cases h
      | some w₁ =>
        rw [hd] at h
        obtain ⟨h₁, h₂, rfl⟩ := ih h
        obtain ⟨h₃, h₄⟩ := define_keeps hd
        exact ⟨h₃.trans h₁, ⟨⟨v, h₁ _ _ h₄⟩, h₂⟩, by simp⟩
    | some f =>
      rw [hh] at h
      cases f with
      | method => cases h
      | sym s =>
        cases s with
        | space u =>
          obtain ⟨h₁, h₂, rfl⟩ := ih h
          have : w.symbols.find (p, n) = some (.space u) := by
            unfold here at hh
            cases hf : w.symbols.find (p, n) with
            | some t => rw [hf] at hh; cases hh; rfl
            | none => rw [hf] at hh; simp only [] at hh; split at hh <;> cases hh
          exact ⟨h₁, ⟨⟨u, h₁ _ _ this⟩, h₂⟩, by simp⟩
        | _ => cases h

theorem openSpaces_again {w : World} {p : Path} {v : Vis} {ns : List Text} (h : Opened w p ns) :
    openSpaces w p v ns = some (w, ns.reverse ++ p) := by
  induction ns generalizing p with
  | nil => rfl
  | cons n ns ih =>
    obtain ⟨⟨u, hu⟩, h⟩ := h
    simp [openSpaces, here, hu, ih h]

mutual

theorem node_keeps {p : Path} {cls : Bool} {w w' : World} (d : Node) (h : node p cls w d = some w') : Keeps w w' := by
  match d with
  | .object v f l ty as body =>
    simp only [node, Option.bind_eq_some_iff] at h
    obtain ⟨t, _, as', _, w₁, h₁, w₂, h₂, h₃⟩ := h
    exact (define_keeps h₁).1.trans ((inner_keeps body h₂).trans (addClass_keeps h₃))
  | .enum v f ty es =>
    simp only [node, Option.bind_eq_some_iff] at h
    obtain ⟨w₁, h₁, h₃⟩ := h
    exact (define_keeps h₁).1.trans (addClass_keeps h₃)
  | .interface v f ty as body =>
    simp only [node, Option.bind_eq_some_iff] at h
    obtain ⟨w₁, h₁, w₂, h₂, h₃⟩ := h
    exact (define_keeps h₁).1.trans ((nodes_keeps body h₂).trans (addClass_keeps h₃))
  | .library e r => cases h; exact Keeps.refl _
  | .space v f ns body =>
    simp only [node, Option.bind_eq_some_iff] at h
    obtain ⟨⟨w₁, p'⟩, h₁, h₂⟩ := h
    exact (openSpaces_keeps h₁).1.trans (nodes_keeps body h₂)
  | .member v l f ty n m a i =>
    simp only [node, Option.bind_eq_some_iff] at h
    obtain ⟨t, _, h⟩ := h
    split at h <;> exact (define_keeps h).1
  | .method v l f ty n ps kd m t b =>
    simp only [node, Option.bind_eq_some_iff] at h
    obtain ⟨t, _, ps', _, h⟩ := h
    cases h; exact Keeps.refl _

theorem nodes_keeps {p : Path} {cls : Bool} {w w' : World} (ds : List Node) (h : nodes p cls w ds = some w') : Keeps w w' := by
  match ds with
  | [] => cases h; exact Keeps.refl _
  | d :: ds =>
    simp only [nodes, Option.bind_eq_some_iff] at h
    obtain ⟨w₁, h₁, h₂⟩ := h
    exact (node_keeps d h₁).trans (nodes_keeps ds h₂)

theorem inner_keeps {p : Path} {w w' : World} (body : Option (List Node)) (h : inner p w body = some w') : Keeps w w' := by
  match body with
  | none => cases h; exact Keeps.refl _
  | some ds => exact nodes_keeps ds h

end

/-- C148: a namespace may be written in parts: opening it again goes on where it ended.  The visibility and the feature state of the
second part are ignored. -/
theorem namespace_in_parts (p : Path) (cls : Bool) (w : World) (v v' : Vis) (f f' : Decl.Feature) (ns : List Text) (a b : List Node) :
    nodes p cls w [.space v f ns (a ++ b)] = nodes p cls w [.space v f ns a, .space v' f' ns b] := by
  simp only [nodes, node, nodes_append]
  cases h : openSpaces w p v ns with
  | none => rfl
  | some r =>
    obtain ⟨w₁, p'⟩ := r
    obtain ⟨_, ho, rfl⟩ := openSpaces_keeps h
    simp only [Option.bind_some]
    cases h' : nodes (ns.reverse ++ p) false w₁ a with
    | none => rfl
    | some w₂ =>
      simp only [Option.bind_some]
      rw [openSpaces_again (ho.mono (nodes_keeps a h'))]
      simp

end Verif.Global
