import Verif.Decl.Reads

/-! # Files are read as they are written -/

namespace Verif.Decl

open Verif.Str (Text)
open Verif.Lex (Tok Ty Cat)
open Verif.Expr (Res expect)

/-! ## Spellings are balanced -/

/-- No curly brackets. -/
def Flat (ts : List Tok) : Prop := ∀ t ∈ ts, t.ty ≠ .BRACKET_CURLY_OPEN ∧ t.ty ≠ .BRACKET_CURLY_CLOSE

/-- Balanced curly brackets. -/
abbrev Bal (ts : List Tok) : Prop := Brackets.Nested .BRACKET_CURLY_OPEN .BRACKET_CURLY_CLOSE ts

theorem Flat.append {a b : List Tok} (ha : Flat a) (hb : Flat b) : Flat (a ++ b) := by
  intro t ht
  rcases List.mem_append.1 ht with h | h
  · exact ha t h
  · exact hb t h

theorem Flat.cons {t : Tok} {b : List Tok} (h1 : t.ty ≠ .BRACKET_CURLY_OPEN) (h2 : t.ty ≠ .BRACKET_CURLY_CLOSE) (hb : Flat b) :
    Flat (t :: b) := by
  intro u hu
  rcases List.mem_cons.1 hu with rfl | h
  · exact ⟨h1, h2⟩
  · exact hb u h

theorem Flat.nil : Flat [] := by intro t ht; simp at ht

theorem Is.flat {ty : Ty} {w : String} {t : Tok} (h : Is ty w t) {b : List Tok} (hb : Flat b)
    (h1 : ty ≠ .BRACKET_CURLY_OPEN := by decide) (h2 : ty ≠ .BRACKET_CURLY_CLOSE := by decide) : Flat (t :: b) :=
  .cons (by rw [h.1]; exact h1) (by rw [h.1]; exact h2) hb

theorem NameTok.flat {n : Text} {t : Tok} (h : NameTok n t) {b : List Tok} (hb : Flat b) : Flat (t :: b) :=
  .cons (by rw [h.1]; decide) (by rw [h.1]; decide) hb

theorem Opt.flat {α : Type} {P : α → Tok → Prop} {o : Option α} {ts : List Tok} {ty : Ty} (h : Opt P o ts)
    (hP : ∀ a t, P a t → t.ty = ty) (h1 : ty ≠ .BRACKET_CURLY_OPEN := by decide) (h2 : ty ≠ .BRACKET_CURLY_CLOSE := by decide) :
    Flat ts := by
  cases o with
  | none => cases h; exact .nil
  | some a => obtain ⟨t, rfl, ht⟩ := h; exact .cons (by rw [hP a t ht]; exact h1) (by rw [hP a t ht]; exact h2) .nil

theorem Opt.throws_flat {o : Option Bool} {ts : List Tok} (h : Opt ThrowsTok o ts) : Flat ts := by
  cases o with
  | none => cases h; exact .nil
  | some a =>
    obtain ⟨t, rfl, ht⟩ := h
    have := throwsTok_word ht
    exact .cons (by rw [this]; cases a <;> decide) (by rw [this]; cases a <;> decide) .nil

theorem Commas.flat {α : Type} {P : α → List Tok → Prop} {as : List α} {ts : List Tok} (h : Commas P as ts)
    (hP : ∀ a ts, P a ts → Flat ts) : Flat ts := by
  induction h with
  | one h => exact hP _ _ h
  | more h hc _ ih => exact (hP _ _ h).append (hc.flat ih)

theorem Path.flat {ns : List Text} {ts : List Tok} (h : Path ns ts) : Flat ts := by
  induction h with
  | one h => exact h.flat .nil
  | more h hd _ ih => exact h.flat (hd.flat ih)

theorem ArgText.flat {a : ArgSrc} {ts : List Tok} (h : ArgText a ts) : Flat ts := by
  cases h with
  | plain h => exact h.flat .nil
  | bound h hc hb => exact h.flat (hc.flat (hb.flat .nil))

theorem ArgsText.flat {as : List ArgSrc} {ts : List Tok} (h : ArgsText as ts) : Flat ts := by
  cases h with
  | none => exact .nil
  | some hl hc hg => exact hl.flat ((hc.flat fun _ _ => ArgText.flat).append (hg.flat .nil))

theorem TypeText.flat {d : TypeSrc} {ts : List Tok} (h : TypeText d ts) : Flat ts := by
  cases h with
  | mk hp ha hm => exact hp.flat.append (ha.flat.append (hm.flat fun _ _ h => (mutTok h).1))

theorem InitOpt.flat {i : Option InitSrc} {ts : List Tok} (h : InitOpt i ts) : Flat ts := by
  have const : ∀ {ty x t}, ConstTok ty x t → Flat [t] := by
    intro ty x t h
    rcases h.2.2 with h' | h'
    · simp only [List.mem_cons, List.not_mem_nil, or_false] at h'
      rcases h' with e | e | e | e | e <;> exact .cons (by rw [h.1, e]; decide) (by rw [h.1, e]; decide) .nil
    · exact .cons (by rw [h.1, h'.1]; decide) (by rw [h.1, h'.1]; decide) .nil
  cases h with
  | none => exact .nil
  | some he hi =>
    cases hi with
    | plain h => exact he.flat (const h)
    | negative hm h => exact he.flat (hm.flat (const h))

theorem ParamText.flat {p : ParamSrc} {ts : List Tok} (h : ParamText p ts) : Flat ts := by
  cases h with
  | mk ht hn hm ha hi _ =>
    exact ht.flat.append ((hn.flat fun _ _ h => h.1).append ((hm.flat fun _ _ h => (mutTok h).1).append
      ((ha.flat fun _ _ h => (refTok h).1).append hi.flat)))

theorem ParamsText.flat {ps : List ParamSrc} {ts : List Tok} (h : ParamsText ps ts) : Flat ts := by
  cases h with
  | none => exact .nil
  | some h => exact h.flat fun _ _ => ParamText.flat

theorem ClausesText.flat {cs : List Clause} {ts : List Tok} (h : ClausesText cs ts) : Flat ts := by
  induction h with
  | nil => exact .nil
  | @cons r ps cs w ts us hw hp _ ih =>
    have : Flat ts := hp.flat fun _ _ h => by cases h with | mk hp ha => exact hp.flat.append ha.flat
    cases r <;> exact Is.flat hw (this.append ih)

theorem Bal.append {a b : List Tok} (ha : Bal a) (hb : Bal b) : Bal (a ++ b) := by
  induction ha with
  | nil => exact hb
  | other h1 h2 _ ih => exact .other h1 h2 ih
  | @group o c x y ho hc hx _ _ ih => simpa using Brackets.Nested.group ho hc hx ih

theorem Flat.bal {a : List Tok} (h : Flat a) : Bal a := by
  induction a with
  | nil => exact .nil
  | cons t a ih => exact .other (h t (by simp)).1 (h t (by simp)).2 (ih fun u hu => h u (by simp [hu]))

theorem bal_block {o c : Tok} {b : List Tok} (ho : Is .BRACKET_CURLY_OPEN "{" o) (hb : Bal b) (hc : Is .BRACKET_CURLY_CLOSE "}" c) :
    Bal (o :: (b ++ [c])) := .group ho.1 hc.1 hb .nil

theorem Flat.bal_append {a b : List Tok} (h : Flat a) (hb : Bal b) : Bal (a ++ b) := h.bal.append hb

theorem Is.bal {ty : Ty} {w : String} {t : Tok} (h : Is ty w t) {b : List Tok} (hb : Bal b) (h1 : ty ≠ .BRACKET_CURLY_OPEN := by decide)
    (h2 : ty ≠ .BRACKET_CURLY_CLOSE := by decide) : Bal (t :: b) := .other (by rw [h.1]; exact h1) (by rw [h.1]; exact h2) hb

theorem Opt.visFlat {o : Option Vis} {ts : List Tok} (h : Opt VisTok o ts) : Flat ts := h.flat fun _ _ h => (visTok h).1
theorem Opt.featureFlat {o : Option Feature} {ts : List Tok} (h : Opt FeatureTok o ts) : Flat ts := h.flat fun _ _ h => (featureTok h).1
theorem Opt.layoutFlat {o : Option Layout} {ts : List Tok} (h : Opt LayoutTok o ts) : Flat ts := h.flat fun _ _ h => (layoutTok h).1

mutual

theorem Spells.bal : ∀ {i : Item} {ts : List Tok}, Spells i ts → Bal ts
  | _, _, .object hv hf hl hw ht hp ho hb hc => hv.visFlat.bal_append (hf.featureFlat.bal_append (hl.layoutFlat.bal_append
      (hw.bal (ht.flat.bal_append (hp.flat.bal_append (bal_block ho hb.bal hc))))))
  | _, _, .forward hv hf hl hw ht hp hs => hv.visFlat.bal_append (hf.featureFlat.bal_append (hl.layoutFlat.bal_append
      (hw.bal (ht.flat.bal_append (hp.flat.bal_append (hs.bal .nil))))))
  | _, _, .enum hv hf hw ht ho hb hc => hv.visFlat.bal_append (hf.featureFlat.bal_append
      (hw.bal (ht.flat.bal_append (bal_block ho hb hc))))
  | _, _, .interface hv hf hw ht hp ho hb hc => hv.visFlat.bal_append (hf.featureFlat.bal_append
      (hw.bal (ht.flat.bal_append (hp.flat.bal_append (bal_block ho hb.bal hc)))))
  | _, _, .library hw hp hs => hw.bal (hp.flat.bal_append (hs.bal .nil))
  | _, _, .extension hw he hp hs => hw.bal (he.bal (hp.flat.bal_append (hs.bal .nil)))
  | _, _, .space hv hf hw hp ho hb hc => hv.visFlat.bal_append (hf.featureFlat.bal_append
      (hw.bal (hp.flat.bal_append (bal_block ho hb.bal hc))))
  | _, _, .member hv hl hf ht hn hm hr hi hs => hv.visFlat.bal_append (hl.layoutFlat.bal_append (hf.featureFlat.bal_append
      (ht.flat.bal_append (.other (by rw [hn.1]; decide) (by rw [hn.1]; decide) ((hm.flat fun _ _ h => (mutTok h).1).bal_append
        ((hr.flat fun _ _ h => (refTok h).1).bal_append (hi.flat.bal_append (hs.bal .nil))))))))
  | _, _, .method hv hl hf ht hn ho hp hc hm he hb => hv.visFlat.bal_append (hl.layoutFlat.bal_append (hf.featureFlat.bal_append
      (ht.flat.bal_append (.other (by rw [hn.1]; decide) (by rw [hn.1]; decide) (ho.bal (hp.flat.bal_append (hc.bal
        ((hm.flat fun _ _ h => (mutTok h).1).bal_append (he.throws_flat.bal_append
          (by cases hb with
              | none hs => exact hs.bal .nil
              | some ho hn hc => exact bal_block ho hn hc))))))))))

theorem SpellsAll.bal : ∀ {is : List Item} {ts : List Tok}, SpellsAll is ts → Bal ts
  | _, _, .nil => .nil
  | _, _, .cons h hs => h.bal.append hs.bal

end

/-! ## Which declaration is it? -/

theorem isWord_false {tys : List Ty} {ts : List Tok} (w : String) (h : Starts tys ts) (hn : Ty.RESERVED_WORD ∉ tys := by decide) :
    isWord w ts = some false := by
  obtain ⟨t, r, rfl, h1, _⟩ := h
  have : t.ty ≠ .RESERVED_WORD := fun e => hn (e ▸ h1)
  simp [isWord, this]

theorem skip_opt {α : Type} {P : α → Tok → Prop} {o : Option α} {ts rest : List Tok} {ty : Ty} {tys : List Ty} (h : Opt P o ts)
    (hP : ∀ a t, P a t → t.ty = ty) (hr : Starts tys rest) (hn : ty ∉ tys := by decide) : skip ty (ts ++ rest) = rest := by
  cases o with
  | none =>
    cases h
    obtain ⟨t, r, rfl, h1, _⟩ := hr
    have : t.ty ≠ ty := fun e => hn (e ▸ h1)
    simp [skip, this]
  | some a => obtain ⟨t, rfl, ht⟩ := h; simp [skip, hP a t ht]

/-- Nothing to skip. -/
theorem skip_none {rest : List Tok} {ty : Ty} {tys : List Ty} (hr : Starts tys rest) (hn : ty ∉ tys := by decide) :
    skip ty rest = rest := by
  obtain ⟨t, r, rfl, h1, _⟩ := hr
  have : t.ty ≠ ty := fun e => hn (e ▸ h1)
  simp [skip, this]

theorem featureTok_optional {a : Feature} {t : Tok} (h : FeatureTok a t) : t.optional = true := by
  cases a <;> simp only [FeatureTok] at h <;> simp [h.2.2, modifierTypes]

theorem visTok_optional {a : Vis} {t : Tok} (h : VisTok a t) : t.optional = true := by
  cases a <;> simp only [VisTok] at h <;> simp [h.2.2, modifierTypes]

theorem layoutTok_optional {a : Layout} {t : Tok} (h : LayoutTok a t) : t.optional = true := by
  cases a <;> simp only [LayoutTok] at h <;> simp [h.2.2, modifierTypes]

/-- It is no enumeration or import: the token behind the first modifier is another one. -/
theorem wordAndName_false {x : String} {ts : List Tok} (h : ∃ t r, ts = t :: r ∧
      ((t.optional = false ∧ (t.ty = .RESERVED_WORD → t.content ≠ x.toList)) ∨
       (t.optional = true ∧ ∃ u s, r = u :: s ∧ (u.ty = .RESERVED_WORD → u.content ≠ x.toList)))) : wordAndName x ts = some false := by
  obtain ⟨t, r, rfl, ⟨ho, hc⟩ | ⟨ho, u, s, rfl, hc⟩⟩ := h
  · have : ¬ (t.ty = .RESERVED_WORD ∧ t.content = x.toList) := fun h => hc h.1 h.2
    simp [wordAndName, skipOptional, ho, this]
  · have : ¬ (u.ty = .RESERVED_WORD ∧ u.content = x.toList) := fun h => hc h.1 h.2
    simp [wordAndName, skipOptional, ho, this]

/-- Visibility, feature and a reserved word. -/
theorem word_not {v : Option Vis} {f : Option Feature} {vt ft : List Tok} {w : Tok} {kw : String} (hv : Opt VisTok v vt)
    (hf : Opt FeatureTok f ft) (hw : Is .RESERVED_WORD kw w) (x : String) (hx : kw.toList ≠ x.toList) (rest : List Tok) :
    wordAndName x (vt ++ (ft ++ w :: rest)) = some false := by
  have how : w.optional = false := by rw [hw.2.2]; decide
  apply wordAndName_false
  cases v with
  | none =>
    cases hv
    cases f with
    | none => cases hf; exact ⟨w, rest, rfl, .inl ⟨how, fun _ => by rw [hw.2.1]; exact hx⟩⟩
    | some f =>
      obtain ⟨t, rfl, ht⟩ := hf
      exact ⟨t, w :: rest, rfl, .inr ⟨featureTok_optional ht, w, rest, rfl, fun _ => by rw [hw.2.1]; exact hx⟩⟩
  | some v =>
    obtain ⟨t, rfl, ht⟩ := hv
    cases f with
    | none => cases hf; exact ⟨t, w :: rest, rfl, .inr ⟨visTok_optional ht, w, rest, rfl, fun _ => by rw [hw.2.1]; exact hx⟩⟩
    | some f =>
      obtain ⟨u, rfl, hu⟩ := hf
      exact ⟨t, u :: w :: rest, rfl, .inr ⟨visTok_optional ht, u, w :: rest, rfl,
        fun e => by rw [(featureTok hu).1] at e; cases e⟩⟩

/-- What is asked about a declaration that begins with a reserved word. -/
theorem word_questions {v : Option Vis} {f : Option Feature} {vt ft : List Tok} {w : Tok} {kw : String} (hv : Opt VisTok v vt)
    (hf : Opt FeatureTok f ft) (hw : Is .RESERVED_WORD kw w) (hk : kw.toList ∉ noNames) (rest : List Tok) :
    isObject (vt ++ (ft ++ w :: rest)) = some (decide (kw.toList = "object".toList)) ∧
    isInterface (vt ++ (ft ++ w :: rest)) = some (decide (kw.toList = "interface".toList)) ∧
    isNamespace (vt ++ (ft ++ w :: rest)) = some (decide (kw.toList = "namespace".toList)) := by
  have s0 : Starts [.RESERVED_WORD] (w :: rest) := hw.starts (fun h => absurd h hk) rest
  have s1 := hf.starts (fun _ _ => featureTok_word) s0
  have e1 : skip .VISIBILITY (vt ++ (ft ++ w :: rest)) = ft ++ w :: rest := skip_opt hv (fun _ _ h => (visTok h).1) s1
  have e2 : skip .LANGUAGE_FEATURE_STATE (ft ++ w :: rest) = w :: rest := skip_opt hf (fun _ _ h => (featureTok h).1) s0
  have e3 : skip .MEMORY_LAYOUT (w :: rest) = w :: rest := skip_none s0
  simp only [isObject, isInterface, isNamespace, e1, e2, e3, isWord, hw.1, hw.2.1, decide_true, Bool.true_and, and_self]

/-- What is asked about a member or method. -/
theorem member_questions {v : Option Vis} {l : Option Layout} {f : Option Feature} {vt lt ft X : List Tok}
    (hv : Opt VisTok v vt) (hl : Opt LayoutTok l lt) (hf : Opt FeatureTok f ft) (hX : Starts [.IDENTIFIER] X)
    (ho : ∀ t r, X = t :: r → t.optional = false) :
    isObject (vt ++ (lt ++ (ft ++ X))) = some false ∧ wordAndName "enum" (vt ++ (lt ++ (ft ++ X))) = some false ∧
    isInterface (vt ++ (lt ++ (ft ++ X))) = some false ∧ wordAndName "import" (vt ++ (lt ++ (ft ++ X))) = some false ∧
    isNamespace (vt ++ (lt ++ (ft ++ X))) = some false := by
  obtain ⟨x, r, rfl, hx, _⟩ := hX
  have hxo := ho x r rfl
  simp only [List.mem_singleton] at hx
  rcases v with _ | v <;> rcases l with _ | l <;> rcases f with _ | f
  all_goals (simp only [Opt] at hv hl hf)
  · subst hv hl hf; simp [isObject, isInterface, isNamespace, skip, isWord, wordAndName, skipOptional, hx, hxo]
  · obtain ⟨c, rfl, hc⟩ := hf; subst hv hl
    simp [isObject, isInterface, isNamespace, skip, isWord, wordAndName, skipOptional, hx, hxo, (featureTok hc).1, featureTok_optional hc]
  · obtain ⟨b, rfl, hb⟩ := hl; subst hv hf
    simp [isObject, isInterface, isNamespace, skip, isWord, wordAndName, skipOptional, hx, hxo, (layoutTok hb).1, layoutTok_optional hb]
  · obtain ⟨b, rfl, hb⟩ := hl; obtain ⟨c, rfl, hc⟩ := hf; subst hv
    simp [isObject, isInterface, isNamespace, skip, isWord, wordAndName, skipOptional, hx, hxo, (layoutTok hb).1, layoutTok_optional hb,
      (featureTok hc).1]
  · obtain ⟨a, rfl, ha⟩ := hv; subst hl hf
    simp [isObject, isInterface, isNamespace, skip, isWord, wordAndName, skipOptional, hx, hxo, (visTok ha).1, visTok_optional ha]
  · obtain ⟨a, rfl, ha⟩ := hv; obtain ⟨c, rfl, hc⟩ := hf; subst hl
    simp [isObject, isInterface, isNamespace, skip, isWord, wordAndName, skipOptional, hx, hxo, (visTok ha).1, visTok_optional ha,
      (featureTok hc).1]
  · obtain ⟨a, rfl, ha⟩ := hv; obtain ⟨b, rfl, hb⟩ := hl; subst hf
    simp [isObject, isInterface, isNamespace, skip, isWord, wordAndName, skipOptional, hx, hxo, (visTok ha).1, visTok_optional ha,
      (layoutTok hb).1]
  · obtain ⟨a, rfl, ha⟩ := hv; obtain ⟨b, rfl, hb⟩ := hl; obtain ⟨c, rfl, hc⟩ := hf
    simp [isObject, isInterface, isNamespace, skip, isWord, wordAndName, skipOptional, hx, hxo, (visTok ha).1, visTok_optional ha,
      (layoutTok hb).1, (featureTok hc).1]

/-! ## The heads of the declarations -/

theorem early_replicates {cs : List Clause} (h : early cs = true) : ∃ c ∈ cs, c.1 = .replicates := by
  induction cs with
  | nil => simp [early] at h
  | cons c cs ih =>
    simp only [early, Bool.or_eq_true, Bool.and_eq_true, decide_eq_true_eq] at h
    rcases h with h | h
    · exact ⟨c, by simp, h.1⟩
    · obtain ⟨d, hd, e⟩ := ih h; exact ⟨d, by simp [hd], e⟩

theorem early_combines {cs : List Clause} (h : FirstReplicates cs) : early cs = combines cs := by
  cases cs with
  | nil => rfl
  | cons c cs =>
    have h1 : early cs = false := by
      cases e : early cs with
      | false => rfl
      | true => obtain ⟨d, hd, hr⟩ := early_replicates e; exact absurd hr (h d (by simpa using hd))
    have h2 : cs.any (fun c => decide (c.1 = .replicates)) = false := by
      simp only [List.any_eq_false, decide_eq_true_eq]
      intro d hd
      exact h d (by simpa using hd)
    simp only [early, h1, Bool.or_false, combines, List.any_cons, h2]
    cases cs <;> simp

/-- Every clause names something. -/
theorem ClausesText.named {cs : List Clause} {ts : List Tok} (h : ClausesText cs ts) : ∀ c ∈ cs, c.2 ≠ [] := by
  induction h with
  | nil => simp
  | cons _ hp _ ih =>
    simp only [List.mem_cons, forall_eq_or_imp]
    exact ⟨by cases hp <;> simp, ih⟩

theorem any_extends {cs : List Clause} (h : ∀ c ∈ cs, c.2 ≠ []) :
    (ancestorsOf cs).any (fun a => decide (a.relation = .extends)) = extendsSome cs := by
  induction cs with
  | nil => rfl
  | cons c cs ih =>
    simp only [List.mem_cons, forall_eq_or_imp] at h
    simp only [ancestorsOf, extendsSome] at ih
    simp only [ancestorsOf, List.flatMap_cons, List.any_append, extendsSome, List.any_cons, ih h.2]
    congr 1
    obtain ⟨r, ps⟩ := c
    cases ps with
    | nil => simp at h
    | cons p ps => simp [List.any_map, Function.comp_def]

theorem all_implements {cs : List Clause} (h : ∀ c ∈ cs, c.2 ≠ []) :
    (ancestorsOf cs).all (fun a => decide (a.relation = .implements)) = cs.all (fun c => decide (c.1 = .implements)) := by
  induction cs with
  | nil => rfl
  | cons c cs ih =>
    simp only [List.mem_cons, forall_eq_or_imp] at h
    simp only [ancestorsOf] at ih
    simp only [ancestorsOf, List.flatMap_cons, List.all_append, List.all_cons, ih h.2]
    congr 1
    obtain ⟨r, ps⟩ := c
    cases ps with
    | nil => simp at h
    | cons p ps =>
      simp only [List.map_cons, List.all_cons, List.all_map, Function.comp_def]
      by_cases hr : r = .implements <;> simp [hr]

theorem not_all_replicates {cs : List Clause} (hr : ∀ c ∈ cs, c.1 ≠ .replicates) :
    ¬ (ancestorsOf cs ≠ [] ∧ (ancestorsOf cs).all (fun a => decide (a.relation = .replicates)) = true) := by
  rintro ⟨h1, h2⟩
  obtain ⟨a, as, e⟩ := List.exists_cons_of_ne_nil h1
  have ha : a ∈ ancestorsOf cs := by simp [e]
  have := (List.all_eq_true.1 h2) a ha
  simp only [ancestorsOf, List.mem_flatMap, List.mem_map] at ha
  obtain ⟨c, hc, p, _, rfl⟩ := ha
  simp only [decide_eq_true_eq] at this
  exact hr c hc this

theorem TypeText.mutab {d : TypeSrc} {ts : List Tok} (h : TypeText d ts) :
    (typeOf d).mutab ≠ .unknown ∧ ((typeOf d).mutab = .const ↔ d.mutab = some .const) := by
  obtain ⟨p, a, m⟩ := d
  cases h with
  | mk _ _ hm =>
    simp only at hm
    cases m with
    | none => simp [typeOf]
    | some k =>
      obtain ⟨t, _, hk⟩ := hm
      cases k <;> simp_all [typeOf, MutTok]

theorem objectHead_text {v : Option Vis} {f : Option Feature} {l : Option Layout} {ty : TypeSrc} {cs : List Clause}
    {vt ft lt tt pt : List Tok} {w : Tok} (hv : Opt VisTok v vt) (hf : Opt FeatureTok f ft) (hl : Opt LayoutTok l lt)
    (hw : Is .RESERVED_WORD "object" w) (ht : TypeText ty tt) (hp : ClausesText cs pt) {rest : List Tok} (hr : Ends rest) :
    objectHead (vt ++ (ft ++ (lt ++ w :: (tt ++ (pt ++ rest))))) =
      if (l != some .over && l != some .stat) = true ∧ early cs = false then
        .ok (v.getD .priv, f.getD .stable, l.getD .virt, typeOf ty, ancestorsOf cs) rest
      else .error := by
  have s0 : Starts [.RESERVED_WORD] (w :: (tt ++ (pt ++ rest))) := hw.starts (by decide) _
  have s1 := hl.starts (fun _ _ => layoutTok_word) s0
  have s2 := hf.starts (fun _ _ => featureTok_word) s1
  simp only [objectHead]
  rw [visibility_opt hv _ s2, bind_ok, attr_opt hf (fun _ _ => featureTok) s1, bind_ok, attr_opt hl (fun _ _ => layoutTok) s0, bind_ok]
  have hlay : (l.getD .virt ≠ .abstr ∧ l.getD .virt ≠ .fin ∧ l.getD .virt ≠ .virt) ↔ ¬ (l != some .over && l != some .stat) = true := by
    cases l with
    | none => simp
    | some k =>
      obtain ⟨t, _, hk⟩ := hl
      cases k <;> simp_all [LayoutTok]
  by_cases hq : (l != some .over && l != some .stat) = true
  · rw [if_neg (fun h => (hlay.1 h) hq)]
    simp only [hw.2.1, ne_eq, not_true_eq_false, if_false]
    rw [typeDeclaration_text ht (hp.starts hr), bind_ok, inheritance_text hp hr]
    cases early cs <;> simp [hq, Res.bind]
  · rw [if_pos (hlay.2 hq), if_neg (fun h => hq h.1)]

theorem reference_path {ns : List Text} {ts : List Tok} (h : Path ns ts) {s : Tok} (hs : Is .SEMICOLON ";" s) (rest : List Tok) :
    reference (ts ++ s :: rest) = .ok (dotted ns) (s :: rest) := by
  induction h with
  | one h => simp [reference, h.1, h.2.1, hs.1, dotted]
  | @more n t d ns ts h hd hp ih =>
    obtain ⟨m, ms, rfl⟩ := hp.ne_nil
    simp only [List.cons_append, reference, h.1, if_true, hd.1, ne_eq, not_true_eq_false, if_false, ih, Res.bind, h.2.1, dotted]
    simp

theorem spaceNames_path {ns : List Text} {ts : List Tok} (h : Path ns ts) {o : Tok} (ho : Is .BRACKET_CURLY_OPEN "{" o)
    (rest : List Tok) : spaceNames (ts ++ o :: rest) = .ok ns (o :: rest) := by
  induction h with
  | one h =>
    have : spaceNames (o :: rest) = .ok [] (o :: rest) := by rw [spaceNames.eq_def]; simp [ho.1]
    rw [List.cons_append, List.nil_append, spaceNames.eq_def]
    simp [h.1, h.2.1, ho.1, this, Res.bind]
  | @more n t d ns ts h hd hp ih =>
    simp only [List.cons_append, spaceNames, h.1, if_true, hd.1, ih, Res.bind, h.2.1]

/-! ## All declarations -/

/-- The end of the tokens. -/
def Stops (ts : List Tok) : Prop := ts = [] ∨ ∃ t r, ts = t :: r ∧ t.ty = .ENDOFFILE

theorem Spells.starts {i : Item} {ts : List Tok} (h : Spells i ts) :
    Starts [.VISIBILITY, .LANGUAGE_FEATURE_STATE, .MEMORY_LAYOUT, .RESERVED_WORD, .IDENTIFIER] ts := by
  cases h with
  | object hv hf hl hw _ _ _ _ _ => exact (hv.starts (fun _ _ => visTok_word) (hf.starts (fun _ _ => featureTok_word)
      (hl.starts (fun _ _ => layoutTok_word) (hw.starts (by decide) _)))).mono
  | forward hv hf hl hw _ _ _ => exact (hv.starts (fun _ _ => visTok_word) (hf.starts (fun _ _ => featureTok_word)
      (hl.starts (fun _ _ => layoutTok_word) (hw.starts (by decide) _)))).mono
  | enum hv hf hw _ _ _ _ => exact (hv.starts (fun _ _ => visTok_word) (hf.starts (fun _ _ => featureTok_word)
      (hw.starts (by decide) _))).mono
  | interface hv hf hw _ _ _ _ _ => exact (hv.starts (fun _ _ => visTok_word) (hf.starts (fun _ _ => featureTok_word)
      (hw.starts (by decide) _))).mono
  | library hw _ _ => exact (hw.starts (by decide) _).mono
  | extension hw _ _ _ => exact (hw.starts (by decide) _).mono
  | space hv hf hw _ _ _ _ => exact (hv.starts (fun _ _ => visTok_word) (hf.starts (fun _ _ => featureTok_word)
      (hw.starts (by decide) _))).mono
  | member hv hl hf ht _ _ _ _ _ => exact (hv.starts (fun _ _ => visTok_word) (hl.starts (fun _ _ => layoutTok_word)
      (hf.starts (fun _ _ => featureTok_word) (ht.starts.append _)))).mono
  | method hv hl hf ht _ _ _ _ _ _ _ => exact (hv.starts (fun _ _ => visTok_word) (hl.starts (fun _ _ => layoutTok_word)
      (hf.starts (fun _ _ => featureTok_word) (ht.starts.append _)))).mono

theorem TypeText.first {d : TypeSrc} {ts : List Tok} (h : TypeText d ts) (us : List Tok) :
    ∃ t r, ts ++ us = t :: r ∧ t.ty = .IDENTIFIER ∧ t.optional = false := by
  cases h with
  | mk hp _ _ =>
    generalize d.path = q at hp
    cases hp with
    | one h => exact ⟨_, _, rfl, h.1, h.2.2.1⟩
    | more h _ _ => exact ⟨_, _, rfl, h.1, h.2.2.1⟩

theorem ofOption_pair {α β : Type} (z : Option α) (r : List Tok) (b : β) :
    ((Res.ofOption z r).bind fun d ts => .ok (d, b) ts) = Res.ofOption (z.map (·, b)) r := by
  cases z <;> rfl

/-- Members. -/
theorem declare_member {v l f ty n m r i ts} (h : Spells (.member v l f ty n m r i) ts) (c : Ctx) (k : Nat) (rest : List Tok) :
    ∃ last, declaration (k + 1) c.toWhere c.isIface (ts ++ rest) =
      Res.ofOption ((meaning c (.member v l f ty n m r i)).map (·, c.isIface)) (last :: rest) := by
  cases h with
  | @member _ _ _ _ _ _ _ _ vt lt ft tt nt mt rt it s hv hl hf ht hn hm hr hi hs =>
    simp only [List.append_assoc, List.cons_append, List.nil_append]
    obtain ⟨t, q, e, h1, h2⟩ := ht.first (nt :: (mt ++ (rt ++ (it ++ s :: rest))))
    obtain ⟨q1, q2, q3, q4, q5⟩ := member_questions (X := tt ++ nt :: (mt ++ (rt ++ (it ++ s :: rest)))) hv hl hf (ht.starts.append _)
      (by rw [e]; intro _ _ e'; cases e'; exact h2)
    refine ⟨s, ?_⟩
    simp only [declaration, q1, q2, q3, q4, q5]
    have s0 := hs.starts (by decide) rest
    have s1 := hm.starts (fun _ _ => mutTok_word) (hr.starts (fun _ _ => refTok_word) (hi.starts s0))
    obtain ⟨u, us, e1, e2, _⟩ := s1
    have hu : u.ty ≠ .PARENTHESIS_OPEN := fun e => by rw [e] at e2; revert e2; decide
    have hmt := fun l' => member_text (ty := ty) (n := n) hm hr hi hs c (v.getD .priv) l' (f.getD .stable) rest
    rw [e1] at hmt ⊢
    rw [memberOrMethod_head hv hl hf ht hn]
    simp only [meaning]
    cases layoutIn c l with
    | none => simp [Res.bind, Res.ofOption]
    | some l' =>
      simp only [hu, if_false, hmt, Option.bind_some]
      by_cases hq : c.const = true ∧ m ≠ some .const
      · simp [hq, Res.ofOption, Res.bind]
      · rw [if_neg hq]
        cases initOf (dotted ty.path) i <;> simp [Res.ofOption, Res.bind]

theorem iface_layout {c : Ctx} {l : Option Layout} {l' : Layout} (h : layoutIn c l = some l') :
    ¬ (c.isIface = true ∧ l' ≠ .abstr) := by
  cases c with
  | space => simp [Ctx.isIface]
  | cls k => simp [Ctx.isIface]
  | iface k => cases l with
    | none => cases h; simp
    | some l => cases h

theorem kind_eq (c : Ctx) (n : Text) : (if c.toWhere ≠ .space ∧ n = "Constructor".toList then MethodKind.constructor
    else if c.toWhere ≠ .space ∧ n = "Destructor".toList then .destructor else .method) = kindOf c n := by
  simp only [kindOf, ne_eq, toWhere_space]
  by_cases hc : c = .space
  · simp only [hc, not_true_eq_false, false_and, if_false, if_true]
  · simp only [hc, not_false_eq_true, true_and, if_false]

/-- Methods. -/
theorem declare_method {v l f ty n ps m e b ts} (h : Spells (.method v l f ty n ps m e b) ts) (c : Ctx) (k : Nat) (rest : List Tok) :
    ∃ last, declaration (k + 1) c.toWhere c.isIface (ts ++ rest) =
      Res.ofOption ((meaning c (.method v l f ty n ps m e b)).map (·, c.isIface)) (last :: rest) := by
  cases h with
  | @method _ _ _ _ _ _ _ _ _ vt lt ft tt nt o pt d mt et bt hv hl hf ht hn ho hp hd hm he hb =>
    simp only [List.append_assoc, List.cons_append]
    obtain ⟨t, q, e', h1, h2⟩ := ht.first (nt :: o :: (pt ++ d :: (mt ++ (et ++ (bt ++ rest)))))
    obtain ⟨q1, q2, q3, q4, q5⟩ := member_questions (X := tt ++ nt :: o :: (pt ++ d :: (mt ++ (et ++ (bt ++ rest))))) hv hl hf
      (ht.starts.append _) (by rw [e']; intro _ _ e''; cases e''; exact h2)
    simp only [declaration, q1, q2, q3, q4, q5]
    rw [memberOrMethod_head hv hl hf ht hn]
    simp only [meaning]
    cases hla : layoutIn c l with
    | none => exact ⟨o, by simp [Res.bind, Res.ofOption]⟩
    | some l' =>
      simp only [ho.1, if_true, Option.bind_some]
      simp only [methodStub, iface_layout hla, if_false, kind_eq c n]
      rw [parameters_text hp ho hd]
      cases hps : paramsOf ps with
      | none => exact ⟨o, by simp [Res.bind, Res.ofOption]⟩
      | some qs =>
        obtain ⟨last, hend⟩ := methodEnd_text hm he hb c (v.getD .priv) l' (f.getD .stable) (typeOf ty) n qs (kindOf c n)
          (type_named ht) rest
        refine ⟨last, ?_⟩
        simp only [Res.ofOption, Option.bind_some, bind_ok, List.drop_succ_cons, List.drop_zero]
        rw [hend]
        exact ofOption_pair _ _ _

/-- Enumerations. -/
theorem declare_enum {v f ty es ts} (h : Spells (.enum v f ty es) ts) (hreg : v = none ∨ f = none) (c : Ctx) (k : Nat)
    (rest : List Tok) : ∃ last, declaration (k + 1) c.toWhere c.isIface (ts ++ rest) =
      Res.ofOption ((meaning c (.enum v f ty es)).map (·, c.isIface)) (last :: rest) := by
  cases h with
  | @enum _ _ _ _ vt ft w tt o d hv hf hw ht ho hb hd =>
    refine ⟨d, ?_⟩
    simp only [List.append_assoc, List.cons_append, List.nil_append]
    have hq := word_questions hv hf hw (by decide) (tt ++ o :: (es ++ d :: rest))
    have how : w.optional = false := by rw [hw.2.2]; decide
    obtain ⟨t, q, e, h1, h2⟩ := ht.first (o :: (es ++ d :: rest))
    have he : wordAndName "enum" (vt ++ (ft ++ w :: (tt ++ o :: (es ++ d :: rest)))) = some true := by
      rcases v with _ | v <;> rcases f with _ | f
      · cases hv; cases hf
        simp [wordAndName, skipOptional, how, hw.1, hw.2.1, e, h1, h2]
      · cases hv
        obtain ⟨a, rfl, ha⟩ := hf
        simp [wordAndName, skipOptional, featureTok_optional ha, hw.1, hw.2.1, e, h1, h2]
      · cases hf
        obtain ⟨a, rfl, ha⟩ := hv
        simp [wordAndName, skipOptional, visTok_optional ha, hw.1, hw.2.1, e, h1, h2]
      · rcases hreg with h | h <;> cases h
    have hno : ("enum".toList : Text) ≠ "object".toList := by decide
    simp only [declaration, hq.1, hno, decide_false, he]
    have s0 : Starts [.RESERVED_WORD] (w :: (tt ++ o :: (es ++ d :: rest))) := hw.starts (by decide) _
    have s1 := hf.starts (fun _ _ => featureTok_word) s0
    simp only [enumeration]
    rw [visibility_opt hv _ s1, bind_ok, attr_opt hf (fun _ _ => featureTok) s0, bind_ok]
    simp only [hw.2.1, ne_eq, not_true_eq_false, if_false]
    rw [typeDeclaration_text ht (ho.starts (by decide) _), bind_ok, block_text ho hb hd]
    simp only [meaning, typeOf, argsOf, List.map_eq_nil_iff]
    cases hta : ty.args <;> simp [Res.bind, Res.ofOption]

/-- Imports. -/
theorem declare_library {x p ts} (h : Spells (.library x p) ts) (c : Ctx) (k : Nat) (rest : List Tok) :
    ∃ last, declaration (k + 1) c.toWhere c.isIface (ts ++ rest) =
      Res.ofOption ((meaning c (.library x p)).map (·, c.isIface)) (last :: rest) := by
  have n1 : ("import".toList : Text) ≠ "object".toList := by decide
  have n2 : ("import".toList : Text) ≠ "interface".toList := by decide
  cases h with
  | @library _ w pt s hw hp hs =>
    refine ⟨s, ?_⟩
    simp only [List.append_assoc, List.cons_append, List.nil_append]
    have hq := word_questions (v := none) (f := none) (vt := []) (ft := []) rfl rfl hw (by decide) (pt ++ s :: rest)
    have he := word_not (v := none) (f := none) (vt := []) (ft := []) rfl rfl hw "enum" (by decide) (pt ++ s :: rest)
    simp only [List.nil_append] at hq he
    have how : w.optional = false := by rw [hw.2.2]; decide
    obtain ⟨t, q, e, h1, h2, h3⟩ : ∃ t q, pt = t :: q ∧ t.ty = .IDENTIFIER ∧ t.optional = false ∧ t.content ≠ "extension".toList := by
      cases hp with
      | one h => exact ⟨_, _, rfl, h.1, h.2.2.1, fun e => h.2.2.2 (by rw [← h.2.1, e]; decide)⟩
      | more h _ _ => exact ⟨_, _, rfl, h.1, h.2.2.1, fun e => h.2.2.2 (by rw [← h.2.1, e]; decide)⟩
    have hi : wordAndName "import" (w :: (pt ++ s :: rest)) = some true := by
      simp [wordAndName, skipOptional, how, hw.1, hw.2.1, e, h1, h2]
    simp only [declaration, hq.1, hq.2.1, he, hi, n1, n2, decide_false, library, expect, hw.1, if_true, bind_ok]
    have hr := reference_path hp hs rest
    rw [e, List.cons_append] at hr ⊢
    simp only [h3, decide_false, Bool.false_eq_true, if_false, hr, bind_ok, hs.1, if_true, meaning]
    rfl
  | @extension _ w x pt s hw hx hp hs =>
    refine ⟨s, ?_⟩
    simp only [List.append_assoc, List.cons_append, List.nil_append]
    have hq := word_questions (v := none) (f := none) (vt := []) (ft := []) rfl rfl hw (by decide) (x :: (pt ++ s :: rest))
    have he := word_not (v := none) (f := none) (vt := []) (ft := []) rfl rfl hw "enum" (by decide) (x :: (pt ++ s :: rest))
    simp only [List.nil_append] at hq he
    have how : w.optional = false := by rw [hw.2.2]; decide
    have hox : x.optional = false := by rw [hx.2.2]; decide
    have hi : wordAndName "import" (w :: x :: (pt ++ s :: rest)) = some true := by
      simp [wordAndName, skipOptional, how, hw.1, hw.2.1, hx.1, hox]
    simp only [declaration, hq.1, hq.2.1, he, hi, n1, n2, decide_false, library, expect, hw.1, if_true, bind_ok, hx.2.1, decide_true,
      reference_path hp hs rest, hs.1, meaning]
    rfl

mutual

/-- One declaration. -/
theorem declaration_text : ∀ {i : Item} {ts : List Tok}, Spells i ts → Regular i → ∀ (c : Ctx), (c.isIface = true → i.isType = false) →
    ∀ (n : Nat), 3 * ts.length ≤ n → ∀ (rest : List Tok), ∃ last, declaration n c.toWhere c.isIface (ts ++ rest) =
      Res.ofOption ((meaning c i).map (·, c.isIface)) (last :: rest)
  | _, _, .object (v := v) (f := f) (l := l) (ty := ty) (ps := ps) (vt := vt) (ft := ft) (lt := lt) (w := w) (tt := tt) (pt := pt)
      (o := o) (bt := bt) (c := d) (body := body) hv hf hl hw ht hp ho hb hd, hreg, c, hc, n, hn, rest => by
    simp only [Regular] at hreg
    have hci : c.isIface = false := by
      cases h : c.isIface with
      | false => rfl
      | true => exact absurd (hc h) (by simp [Item.isType])
    simp only [List.length_append, List.length_cons, List.length_nil] at hn
    obtain ⟨k, rfl⟩ : ∃ k, n = k + 2 := ⟨n - 2, by omega⟩
    refine ⟨d, ?_⟩
    simp only [List.append_assoc, List.cons_append, List.nil_append]
    have s0 : Starts [.RESERVED_WORD] (w :: (tt ++ (pt ++ o :: (bt ++ d :: rest)))) := hw.starts (by decide) _
    have s1 := hl.starts (fun _ _ => layoutTok_word) s0
    have s2 := hf.starts (fun _ _ => featureTok_word) s1
    have hq : isObject (vt ++ (ft ++ (lt ++ w :: (tt ++ (pt ++ o :: (bt ++ d :: rest)))))) = some true := by
      simp only [isObject]
      rw [skip_opt hv (fun _ _ h => (visTok h).1) s2, skip_opt hf (fun _ _ h => (featureTok h).1) s1,
        skip_opt hl (fun _ _ h => (layoutTok h).1) s0]
      simp [isWord, hw.1, hw.2.1]
    have hends : Ends (o :: (bt ++ d :: rest)) := (ho.starts (by decide) _).mono
    simp only [declaration, hq, object]
    rw [objectHead_text hv hf hl hw ht hp hends]
    have he : early ps = false := by
      cases e : early ps with
      | false => rfl
      | true => obtain ⟨x, hx, hr⟩ := early_replicates e; exact absurd hr (hreg.1 x hx)
    have hco : combines ps = false := by
      have : ps.any (fun c => decide (c.1 = .replicates)) = false := by
        simp only [List.any_eq_false, decide_eq_true_eq]; exact hreg.1
      simp [combines, this]
    have ih := generate_text hb hreg.2 (.cls (ty.mutab = some .const)) (by simp [Ctx.isIface]) k (by omega) [] (.inl rfl)
    simp only [List.append_nil] at ih
    by_cases hlo : (l != some .over && l != some .stat) = true
    · simp only [hlo, he, and_self, if_true, bind_ok]
      have hrep := not_all_replicates hreg.1
      have hsemi : o.ty ≠ .SEMICOLON := by rw [ho.1]; decide
      simp only [hrep, decide_false, Bool.false_eq_true, hsemi, or_self, if_false, block_text ho hb.bal hd, bind_ok, ht.mutab.1,
        ht.mutab.2, any_extends hp.named, meaning, objectOk, hlo, hco]
      by_cases hce : ty.mutab = some .const ∧ extendsSome ps = true
      · simp [hce, Res.ofOption]
      · have : (decide (ty.mutab = some .const) && extendsSome ps) = false := by
          cases h1 : decide (ty.mutab = some .const) <;> cases h2 : extendsSome ps <;> simp_all
        simp only [hce, if_false, this, Bool.not_false, Bool.and_self, if_true]
        simp only [Ctx.toWhere, Ctx.isIface] at ih
        simp only [hci]
        rw [ih]
        cases meaningAll (.cls (ty.mutab = some .const)) body <;> simp [Res.ofOption, Res.bind]
    · have hlo' : (l != some .over && l != some .stat) = false := by simpa using hlo
      simp [hlo', meaning, objectOk, Res.bind, Res.ofOption]
  | _, _, .forward (v := v) (f := f) (l := l) (ty := ty) (ps := ps) (vt := vt) (ft := ft) (lt := lt) (w := w) (tt := tt) (pt := pt)
      (s := s) hv hf hl hw ht hp hs, hreg, c, hc, n, hn, rest => by
    simp only [Regular] at hreg
    simp only [List.length_append, List.length_cons, List.length_nil] at hn
    obtain ⟨k, rfl⟩ : ∃ k, n = k + 2 := ⟨n - 2, by omega⟩
    refine ⟨s, ?_⟩
    simp only [List.append_assoc, List.cons_append, List.nil_append]
    have s0 : Starts [.RESERVED_WORD] (w :: (tt ++ (pt ++ s :: rest))) := hw.starts (by decide) _
    have s1 := hl.starts (fun _ _ => layoutTok_word) s0
    have s2 := hf.starts (fun _ _ => featureTok_word) s1
    have hq : isObject (vt ++ (ft ++ (lt ++ w :: (tt ++ (pt ++ s :: rest))))) = some true := by
      simp only [isObject]
      rw [skip_opt hv (fun _ _ h => (visTok h).1) s2, skip_opt hf (fun _ _ h => (featureTok h).1) s1,
        skip_opt hl (fun _ _ h => (layoutTok h).1) s0]
      simp [isWord, hw.1, hw.2.1]
    have hends : Ends (s :: rest) := (hs.starts (by decide) _).mono
    simp only [declaration, hq, object]
    rw [objectHead_text hv hf hl hw ht hp hends, early_combines hreg]
    simp only [meaning, objectOk]
    rcases Bool.eq_false_or_eq_true (l != some .over && l != some .stat) with h1 | h1
    rotate_left
    · simp [h1, Res.bind, Res.ofOption]
    · rcases Bool.eq_false_or_eq_true (combines ps) with h2 | h2
      · simp [h2, Res.bind, Res.ofOption]
      · simp only [h1, h2]
        simp only [and_self, if_true, bind_ok, hs.1, or_true, ht.mutab.1, ht.mutab.2, any_extends hp.named, if_false]
        by_cases hce : ty.mutab = some .const ∧ extendsSome ps = true
        · simp [hce, Res.ofOption]
        · have : (decide (ty.mutab = some .const) && extendsSome ps) = false := by
            cases h1 : decide (ty.mutab = some .const) <;> cases h2 : extendsSome ps <;> simp_all
          simp [hce, this, Res.ofOption]
  | _, _, .enum hv hf hw ht ho hb hd, hreg, c, hc, n, hn, rest => by
    simp only [List.length_append, List.length_cons, List.length_nil] at hn
    obtain ⟨k, rfl⟩ : ∃ k, n = k + 1 := ⟨n - 1, by omega⟩
    exact declare_enum (.enum hv hf hw ht ho hb hd) (by simpa [Regular] using hreg) c k rest
  | _, _, .interface (v := v) (f := f) (ty := ty) (ps := ps) (vt := vt) (ft := ft) (w := w) (tt := tt) (pt := pt)
      (o := o) (bt := bt) (c := d) (body := body) hv hf hw ht hp ho hb hd, hreg, c, hc, n, hn, rest => by
    simp only [Regular] at hreg
    have hci : c.isIface = false := by
      cases h : c.isIface with
      | false => rfl
      | true => exact absurd (hc h) (by simp [Item.isType])
    simp only [List.length_append, List.length_cons, List.length_nil] at hn
    obtain ⟨k, rfl⟩ : ∃ k, n = k + 2 := ⟨n - 2, by omega⟩
    refine ⟨d, ?_⟩
    simp only [List.append_assoc, List.cons_append, List.nil_append]
    have hq := word_questions hv hf hw (by decide) (tt ++ (pt ++ o :: (bt ++ d :: rest)))
    have hen := word_not hv hf hw "enum" (by decide) (tt ++ (pt ++ o :: (bt ++ d :: rest)))
    have n1 : ("interface".toList : Text) ≠ "object".toList := by decide
    simp only [declaration, hq.1, hq.2.1, hen, n1, decide_false, decide_true, interface]
    have hends : Ends (o :: (bt ++ d :: rest)) := (ho.starts (by decide) _).mono
    have s0 : Starts [.RESERVED_WORD] (w :: (tt ++ (pt ++ o :: (bt ++ d :: rest)))) := hw.starts (by decide) _
    have s1 := hf.starts (fun _ _ => featureTok_word) s0
    simp only [interfaceHead]
    rw [visibility_opt hv _ s1, bind_ok, attr_opt hf (fun _ _ => featureTok) s0, bind_ok]
    simp only [hw.2.1, ne_eq, not_true_eq_false, if_false]
    rw [typeDeclaration_text ht (hp.starts hends), bind_ok, if_neg ht.mutab.1, inheritance_text hp hends]
    have ih := generate_text hb hreg.2 (.iface (ty.mutab = some .const)) (fun _ => hreg.1) k (by omega) [] (.inl rfl)
    simp only [List.append_nil] at ih
    cases he : early ps with
    | true =>
      obtain ⟨x, hx, hr⟩ := early_replicates he
      have : ps.all (fun c => decide (c.1 = .implements)) = false := by
        rw [List.all_eq_false]; exact ⟨x, hx, by rw [hr]; decide⟩
      simp [meaning, this, Res.bind, Res.ofOption]
    | false =>
      simp only [Bool.false_eq_true, if_false, bind_ok, all_implements hp.named, meaning]
      by_cases hall : ps.all (fun c => decide (c.1 = .implements)) = true
      · simp only [hall, if_true, bind_ok, block_text ho hb.bal hd, ht.mutab.2]
        simp only [Ctx.toWhere, Ctx.isIface] at ih
        simp only [hci]
        rw [ih]
        cases meaningAll (.iface (ty.mutab = some .const)) body <;> simp [Res.ofOption, Res.bind]
      · simp [hall, Res.bind, Res.ofOption]
  | _, _, .library hw hp hs, _, c, _, n, hn, rest => by
    simp only [List.length_append, List.length_cons, List.length_nil] at hn
    obtain ⟨k, rfl⟩ : ∃ k, n = k + 1 := ⟨n - 1, by omega⟩
    exact declare_library (.library hw hp hs) c k rest
  | _, _, .extension hw he hp hs, _, c, _, n, hn, rest => by
    simp only [List.length_append, List.length_cons, List.length_nil] at hn
    obtain ⟨k, rfl⟩ : ∃ k, n = k + 1 := ⟨n - 1, by omega⟩
    exact declare_library (.extension hw he hp hs) c k rest
  | _, _, .space (v := v) (f := f) (p := p) (vt := vt) (ft := ft) (w := w) (pt := pt) (o := o) (bt := bt) (c := d) (body := body)
      hv hf hw hp ho hb hd, hreg, c, hc, n, hn, rest => by
    simp only [Regular] at hreg
    simp only [List.length_append, List.length_cons, List.length_nil] at hn
    obtain ⟨k, rfl⟩ : ∃ k, n = k + 2 := ⟨n - 2, by omega⟩
    refine ⟨d, ?_⟩
    simp only [List.append_assoc, List.cons_append, List.nil_append]
    have hq := word_questions hv hf hw (by decide) (pt ++ o :: (bt ++ d :: rest))
    have hen := word_not hv hf hw "enum" (by decide) (pt ++ o :: (bt ++ d :: rest))
    have him := word_not hv hf hw "import" (by decide) (pt ++ o :: (bt ++ d :: rest))
    have n1 : ("namespace".toList : Text) ≠ "object".toList := by decide
    have n2 : ("namespace".toList : Text) ≠ "interface".toList := by decide
    simp only [declaration, hq.1, hq.2.1, hq.2.2, hen, him, n1, n2, decide_false, decide_true, toWhere_space, meaning]
    by_cases hcs : c = .space
    · subst hcs
      have s0 : Starts [.RESERVED_WORD] (w :: (pt ++ o :: (bt ++ d :: rest))) := hw.starts (by decide) _
      have s1 := hf.starts (fun _ _ => featureTok_word) s0
      simp only [if_true, space, spaceHead]
      rw [visibility_opt hv _ s1, bind_ok, attr_opt hf (fun _ _ => featureTok) s0, bind_ok]
      have ih := generate_text hb hreg .space (by simp [Ctx.isIface]) k (by omega) [] (.inl rfl)
      simp only [List.append_nil] at ih
      simp only [expect, hw.1, if_true, bind_ok, spaceNames_path hp ho, block_text ho hb.bal hd]
      simp only [Ctx.toWhere, Ctx.isIface] at ih ⊢
      rw [ih]
      cases meaningAll .space body <;> simp [Res.ofOption, Res.bind]
    · simp [hcs, Res.ofOption]
  | _, _, .member hv hl hf ht hn hm hr hi hs, _, c, _, n, hnn, rest => by
    simp only [List.length_append, List.length_cons, List.length_nil] at hnn
    obtain ⟨k, rfl⟩ : ∃ k, n = k + 1 := ⟨n - 1, by omega⟩
    exact declare_member (.member hv hl hf ht hn hm hr hi hs) c k rest
  | _, _, .method hv hl hf ht hn ho hp hd hm he hb, _, c, _, n, hnn, rest => by
    simp only [List.length_append, List.length_cons] at hnn
    obtain ⟨k, rfl⟩ : ∃ k, n = k + 1 := ⟨n - 1, by omega⟩
    exact declare_method (.method hv hl hf ht hn ho hp hd hm he hb) c k rest

/-- All declarations of a scope. -/
theorem generate_text : ∀ {is : List Item} {ts : List Tok}, SpellsAll is ts → RegularAll is → ∀ (c : Ctx),
    (c.isIface = true → ∀ i ∈ is, i.isType = false) → ∀ (n : Nat), 3 * ts.length + 1 ≤ n → ∀ (rest : List Tok), Stops rest →
      generate n c.toWhere c.isIface (ts ++ rest) = Res.ofOption ((meaningAll c is).map (·, c.isIface)) rest
  | _, _, .nil, _, c, _, n, hn, rest, hr => by
    obtain ⟨k, rfl⟩ : ∃ k, n = k + 1 := ⟨n - 1, by omega⟩
    rcases hr with rfl | ⟨t, r, rfl, ht⟩
    · simp [generate, meaningAll, Res.ofOption]
    · simp [generate, ht, meaningAll, Res.ofOption]
  | _, _, .cons (i := i) (is := is) (ts := ts) (us := us) h hs, hreg, c, hc, n, hn, rest, hr => by
    simp only [RegularAll] at hreg
    simp only [List.length_append] at hn
    obtain ⟨t, r, e, ht, _⟩ := h.starts
    have hlen : 1 ≤ ts.length := by rw [e]; simp
    obtain ⟨k, rfl⟩ : ∃ k, n = k + 1 := ⟨n - 1, by omega⟩
    obtain ⟨last, hd⟩ := declaration_text h hreg.1 c (fun hi => hc hi i (by simp)) k (by omega) (us ++ rest)
    have ih := generate_text hs hreg.2 c (fun hi j hj => hc hi j (by simp [hj])) k (by omega) rest hr
    have hte : t.ty ≠ .ENDOFFILE := fun e' => by rw [e'] at ht; revert ht; decide
    rw [List.append_assoc]
    rw [e, List.cons_append] at hd ⊢
    simp only [generate, hte, if_false, hd, meaningAll]
    cases meaning c i with
    | none => simp [Res.ofOption, Res.bind]
    | some x =>
      simp only [Option.map_some, Res.ofOption, bind_ok, List.drop_succ_cons, List.drop_zero, Option.bind_some]
      rw [ih]
      cases meaningAll c is <;> simp [Res.ofOption, Res.bind]

end

end Verif.Decl
