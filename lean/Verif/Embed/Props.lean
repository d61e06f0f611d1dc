import Verif.Embed.Model

/-!
C161: the methods of extensions.  C162: methods called by name.
-/

namespace Verif.Embed

open Verif.Str (Text)
open Verif.Scope (Meth Vis Param firstApplicable defineMethod isSignatureValid)

/-! ## Specification of C161 -/

/-- `n` is in the way of `m`: it has the same name and can be called with the parameters of `m`. -/
def InTheWay (n m : Meth) : Prop := n.name = m.name ∧ isSignatureValid n.sig (m.sig.map Param.type) = true

/-- No method is in the way of a later one. -/
def Compatible : List Meth → Prop := List.Pairwise fun n m => ¬ InTheWay n m

/-- The methods an extension offers: none if it does not start. -/
def offers (e : Extension) : List Meth := if e.starts then e.methods else []

/-! ## Lemmas -/

theorem firstApplicable_none {ms : List Meth} {m : Meth} :
    firstApplicable ms m.name (m.sig.map Param.type) .designtime = none ↔ ∀ n ∈ ms, ¬ InTheWay n m := by
  have hv : ∀ v : Vis, Vis.designtime ≤ v := fun v => Nat.zero_le _
  simp [firstApplicable, InTheWay, hv]

theorem defineMethod_some {ms : List Meth} {m : Meth} {k : Nat} {r : List Meth} (h : defineMethod ms [] m k = some r) :
    (∀ n ∈ ms, ¬ InTheWay n m) ∧ r.Perm (ms ++ [m]) := by
  have h0 : firstApplicable [] m.name (m.sig.map Param.type) .designtime = none := rfl
  simp only [defineMethod, h0, Option.or_none] at h
  split at h
  · cases h
  · rename_i hn
    cases h
    refine ⟨firstApplicable_none.1 hn, ?_⟩
    refine List.perm_middle.trans ?_
    rw [List.take_append_drop]
    exact (List.perm_append_singleton _ _).symm

theorem defineMethod_none {ms : List Meth} {m : Meth} {k : Nat} :
    defineMethod ms [] m k = none ↔ ∃ n ∈ ms, InTheWay n m := by
  have h0 : firstApplicable [] m.name (m.sig.map Param.type) .designtime = none := rfl
  have := firstApplicable_none (ms := ms) (m := m)
  simp only [defineMethod, h0, Option.or_none]
  cases h : firstApplicable ms m.name (m.sig.map Param.type) .designtime with
  | none =>
    rw [h] at this
    have h1 := this.1 rfl
    simp only [reduceCtorEq, false_iff]
    rintro ⟨n, hn, hw⟩
    exact h1 n hn hw
  | some x =>
    rw [h] at this
    simp only [true_iff]
    refine Classical.byContradiction fun hc => ?_
    have := this.2 fun n hn hw => hc ⟨n, hn, hw⟩
    cases this

/-- What the loop does: it stops in front of the first method that has another one in its way. -/
theorem addMethods_prefix (w : World) (ms : List Meth) (s : Machine) :
    ∃ pre post, ms = pre ++ post ∧ (addMethods w ms s).methods.Perm (s.methods ++ pre) ∧
      (addMethods w ms s).specification = s.specification ++ pre.map w.describe ∧
      (addMethods w ms s).extensions = s.extensions ∧
      Compatible pre ∧ (∀ n ∈ s.methods, ∀ m ∈ pre, ¬ InTheWay n m) ∧
      (∀ m rest, post = m :: rest → ∃ n ∈ s.methods ++ pre, InTheWay n m) := by
  induction ms generalizing s with
  | nil =>
    exact ⟨[], [], rfl, by simp [addMethods], by simp [addMethods], rfl, .nil, by simp, by simp⟩
  | cons m ms ih =>
    simp only [addMethods]
    cases h : defineMethod s.methods [] m (w.place s.methods m) with
    | none =>
      obtain ⟨n, hn, hw⟩ := defineMethod_none.1 h
      refine ⟨[], m :: ms, rfl, by simp, by simp, rfl, .nil, by simp, ?_⟩
      intro m' rest he
      cases he
      exact ⟨n, by simpa using hn, hw⟩
    | some r =>
      obtain ⟨h1, h2⟩ := defineMethod_some h
      obtain ⟨pre, post, e1, e2, e3, e4, e5, e5', e6⟩ := ih { s with methods := r, specification := s.specification ++ [w.describe m] }
      have hm : ∀ (l : List Meth) (n : Meth), n ∈ r ++ l ↔ n ∈ s.methods ++ m :: l := by
        intro l n
        simp only [List.mem_append, h2.mem_iff, List.mem_cons, List.not_mem_nil, or_false]
        constructor
        · rintro ((h | h) | h) <;> simp [h]
        · rintro (h | h | h) <;> simp [h]
      refine ⟨m :: pre, post, by simp [e1], ?_, by simp [e3], e4, ?_, ?_, ?_⟩
      · refine e2.trans ((h2.append_right pre).trans ?_)
        simp
      · exact List.pairwise_cons.2 ⟨fun x hx => e5' m (h2.mem_iff.2 (by simp)) x hx, e5⟩
      · intro n hn x hx
        rcases List.mem_cons.1 hx with rfl | hx
        · exact h1 n hn
        · exact e5' n (h2.mem_iff.2 (by simp [hn])) x hx
      · intro m' rest he
        obtain ⟨n, hn, hw⟩ := e6 m' rest he
        exact ⟨n, (hm pre n).1 hn, hw⟩

theorem addAll_append (w : World) (es fs : List (Option Extension)) (s : Machine) :
    addAll w (es ++ fs) s = addAll w fs (addAll w es s) := by
  induction es generalizing s with
  | nil => rfl
  | cons e es ih => exact ih _

/-! ## C161 -/

/-- The headline of an extension. -/
def headlines (e : Extension) : List Text := ["Extension ".toList ++ e.name ++ [':'], "---".toList]

/-- Paragraphs with an empty line between them. -/
def paragraphs : List (List Text) → List Text
  | [] => []
  | [p] => p
  | p :: ps => p ++ [] :: paragraphs ps

/-- The paragraph of an extension with these methods. -/
def paragraph (w : World) (g : Extension × List Meth) : List Text := headlines g.1 ++ g.2.map w.describe

/-- The specification with these extensions and their methods. -/
def listed (w : World) (got : List (Extension × List Meth)) : List Text :=
  paragraphs ((got.filter (·.1.starts)).map (paragraph w))

theorem paragraphs_snoc (ps : List (List Text)) (q : List Text) :
    paragraphs (ps ++ [q]) = if ps.isEmpty then q else paragraphs ps ++ [] :: q := by
  induction ps with
  | nil => rfl
  | cons p ps ih =>
    cases ps with
    | nil => rfl
    | cons p' ps =>
      simp only [List.cons_append, paragraphs, List.isEmpty_cons] at ih ⊢
      rw [ih]
      simp

theorem listed_empty (w : World) (got : List (Extension × List Meth)) :
    (listed w got).isEmpty = ((got.filter (·.1.starts)).map (paragraph w)).isEmpty := by
  unfold listed
  cases got.filter (·.1.starts) with
  | nil => rfl
  | cons g gs => cases gs <;> simp [paragraphs, paragraph, headlines]

/-- What holds of a machine to which the extensions `es` were added. -/
def Holds (w : World) (es : List (Option Extension)) (s : Machine) (got : List (Extension × List Meth)) : Prop :=
  got.map (·.1) = es.filterMap id ∧ s.extensions = es.filterMap id ∧ (∀ g ∈ got, g.2 <+: offers g.1) ∧
  s.methods.Perm (got.flatMap (·.2)) ∧ Compatible (got.flatMap (·.2)) ∧ s.specification = listed w got

theorem holds_step {w : World} {es : List (Option Extension)} {s : Machine} {got : List (Extension × List Meth)}
    (h : Holds w es s got) (e : Option Extension) :
    ∃ got', Holds w (es ++ [e]) (addExtension w e s).2 (got ++ got') := by
  obtain ⟨h1, h2, h3, h4, h5, h6⟩ := h
  cases e with
  | none => exact ⟨[], by simpa using h1, by simpa [addExtension] using h2, by simpa using h3, by simpa [addExtension] using h4,
      by simpa using h5, by simpa [addExtension] using h6⟩
  | some e =>
    cases hs : e.starts with
    | false =>
      refine ⟨[(e, [])], by simp [h1], by simp [addExtension, hs, h2], ?_, by simpa [addExtension, hs] using h4,
        by simpa using h5, ?_⟩
      · intro g hg
        rcases List.mem_append.1 hg with hg | hg
        · exact h3 g hg
        · simp only [List.mem_singleton] at hg
          subst hg
          exact List.nil_prefix
      · simp [addExtension, hs, h6, listed]
    | true =>
      obtain ⟨pre, post, e1, e2, e3, e4, e5, e5', -⟩ := addMethods_prefix w e.methods { s with specification :=
          (if s.specification.isEmpty then [] else s.specification ++ [[]]) ++
            ["Extension ".toList ++ e.name ++ [':'], "---".toList] }
      refine ⟨[(e, pre)], by simp [h1], ?_, ?_, ?_, ?_, ?_⟩
      · simp only [addExtension, hs, if_true, e4]
        simp [h2]
      · intro g hg
        rcases List.mem_append.1 hg with hg | hg
        · exact h3 g hg
        · simp only [List.mem_singleton] at hg
          subst hg
          exact ⟨post, by simp [offers, hs, e1]⟩
      · simp only [addExtension, hs, if_true]
        refine e2.trans ?_
        simpa using h4.append_right pre
      · rw [List.flatMap_append]
        refine List.pairwise_append.2 ⟨h5, ?_, ?_⟩
        · have : List.flatMap (fun g : Extension × List Meth => g.2) [(e, pre)] = pre := by simp
          rw [this]; exact e5
        intro n hn m hm
        exact e5' n (h4.mem_iff.2 hn) m (by simpa using hm)
      · simp only [addExtension, hs, if_true, e3]
        rw [h6, listed_empty]
        unfold listed
        rw [List.filter_append, List.map_append]
        have : (List.filter (fun g : Extension × List Meth => g.1.starts) [(e, pre)]) = [(e, pre)] := by simp [hs]
        rw [this, List.map_singleton, paragraphs_snoc]
        cases ((got.filter (·.1.starts)).map (paragraph w)).isEmpty <;> simp [paragraph, headlines]

theorem holds_all (w : World) (es done : List (Option Extension)) (s : Machine) (got : List (Extension × List Meth))
    (h : Holds w done s got) : ∃ got', Holds w (done ++ es) (addAll w es s) got' := by
  induction es generalizing done s got with
  | nil => exact ⟨got, by rw [List.append_nil]; exact h⟩
  | cons e es ih =>
    obtain ⟨g, hg⟩ := holds_step h e
    obtain ⟨g', hg'⟩ := ih _ _ _ hg
    exact ⟨g', by rw [List.append_assoc] at hg'; exact hg'⟩

/-- **C161, the list.**  Whatever extensions are added in whatever order: the methods that can be called are exactly the ones that
the specification lists, extension by extension; those of an extension are the first ones it offers; no method is in the way of a
later one. -/
theorem specification_lists_methods (w : World) (es : List (Option Extension)) :
    ∃ got : List (Extension × List Meth),
      got.map (·.1) = es.filterMap id ∧
      (addAll w es .new).extensions = es.filterMap id ∧
      (∀ g ∈ got, g.2 <+: offers g.1) ∧
      (addAll w es .new).methods.Perm (got.flatMap (·.2)) ∧
      Compatible (got.flatMap (·.2)) ∧
      (addAll w es .new).specification = paragraphs ((got.filter (·.1.starts)).map fun g => headlines g.1 ++ g.2.map w.describe) := by
  obtain ⟨got, h⟩ := holds_all w es [] .new [] ⟨rfl, rfl, by simp, by simp [Machine.new], .nil, rfl⟩
  exact ⟨got, h⟩

theorem addMethods_all {w : World} {ms : List Meth} {s : Machine} (h : Compatible ms)
    (hk : ∀ n ∈ s.methods, ∀ m ∈ ms, ¬ InTheWay n m) : (addMethods w ms s).methods.Perm (s.methods ++ ms) := by
  obtain ⟨pre, post, e1, e2, -, -, -, -, e6⟩ := addMethods_prefix w ms s
  cases post with
  | nil => simpa [e1] using e2
  | cons m rest =>
    obtain ⟨n, hn, hw⟩ := e6 m rest rfl
    rcases List.mem_append.1 hn with hn | hn
    · exact absurd hw (hk n hn m (by simp [e1]))
    · rw [e1] at h
      exact absurd hw ((List.pairwise_append.1 h).2.2 n hn m (by simp))

/-- **C161, all methods.**  If no offered method is in the way of a later one, all methods of all extensions can be called. -/
theorem extensions_complete_partial (w : World) {es : List (Option Extension)}
    (h : Compatible ((es.filterMap id).flatMap offers)) :
    (addAll w es .new).methods.Perm ((es.filterMap id).flatMap offers) := by
  have key : ∀ (es : List (Option Extension)) (known : List Meth) (s : Machine), s.methods.Perm known →
      Compatible (known ++ (es.filterMap id).flatMap offers) →
      (addAll w es s).methods.Perm (known ++ (es.filterMap id).flatMap offers) := by
    intro es
    induction es with
    | nil => intro known s h1 _; simpa [addAll] using h1
    | cons e es ih =>
      intro known s h1 h2
      cases e with
      | none => exact ih known _ (by simpa [addExtension] using h1) (by simpa using h2)
      | some e =>
        have e0 : (some e :: es).filterMap id = e :: es.filterMap id := by simp
        rw [e0, List.flatMap_cons, ← List.append_assoc] at h2 ⊢
        refine ih (known ++ offers e) _ ?_ h2
        cases hs : e.starts with
        | false => simpa [addExtension, hs, offers] using h1
        | true =>
          simp only [addExtension, hs, if_true, offers]
          have := (List.pairwise_append.1 h2).1
          simp only [offers, hs, if_true] at this
          obtain ⟨-, p2, p3⟩ := List.pairwise_append.1 this
          refine (addMethods_all (w := w) p2 ?_).trans (h1.append_right _)
          exact fun n hn m hm => p3 n (h1.mem_iff.1 hn) m hm
  simpa using key es [] .new (by simp [Machine.new]) (by simpa using h)

theorem addMethods_extensions (w : World) : ∀ (ms : List Meth) (s : Machine), (addMethods w ms s).extensions = s.extensions
  | [], _ => rfl
  | m :: ms, s => by
    rw [addMethods]
    split
    · rfl
    · rw [addMethods_extensions]

/-- C161, the answer: yes means that the extension is kept behind the others, no that there was none and nothing has changed. -/
theorem extension_answer (w : World) (s : Machine) (e : Option Extension) :
    ((addExtension w e s).1 = true ∧ ∃ x, e = some x ∧ (addExtension w e s).2.extensions = s.extensions ++ [x]) ∨
      ((addExtension w e s).1 = false ∧ e = none ∧ (addExtension w e s).2 = s) := by
  cases e with
  | none => exact .inr ⟨rfl, rfl, rfl⟩
  | some x =>
    refine .inl ⟨rfl, x, rfl, ?_⟩
    simp only [addExtension]
    split <;> simp [addMethods_extensions]

/-- C161 is false in general: whatever the machine knows, if one of its methods is in the way of one of an extension, that method
and all the following ones of the extension are missing, and yet `addExtension` says yes and lists the extension as loaded. -/
theorem extension_cut_refuted (w : World) (s : Machine) {name : Text} {pre post : List Meth} {n m : Meth} (hn : n ∈ s.methods)
    (hw : InTheWay n m) :
    (addExtension w (some ⟨name, true, pre ++ m :: post⟩) s).1 = true ∧
      ⟨name, true, pre ++ m :: post⟩ ∈ (addExtension w (some ⟨name, true, pre ++ m :: post⟩) s).2.extensions ∧
      ∀ x ∈ m :: post, x ∉ s.methods → x ∉ pre → x ∉ (addExtension w (some ⟨name, true, pre ++ m :: post⟩) s).2.methods := by
  refine ⟨rfl, by simp [addExtension], ?_⟩
  intro x hx h1 h2 hc
  obtain ⟨pre', post', e1, e2, -, -, -, e5, -⟩ := addMethods_prefix w (pre ++ m :: post) { s with specification :=
          (if s.specification.isEmpty then [] else s.specification ++ [[]]) ++ ["Extension ".toList ++ name ++ [':'], "---".toList] }
  have hc' := e2.mem_iff.1 hc
  rcases List.mem_append.1 hc' with h | h
  · exact h1 h
  · have hm : m ∉ pre' := fun h => e5 n hn m h hw
    rcases List.append_eq_append_iff.1 e1 with ⟨a, ha, hb⟩ | ⟨a, ha, hb⟩
    · cases a with
      | nil => rw [List.append_nil] at ha; subst ha; exact h2 h
      | cons y a =>
        simp only [List.cons_append, List.cons.injEq] at hb
        exact hm (by rw [ha, hb.1]; simp)
    · exact h2 (by rw [ha]; simp [h])

/-- C161 is false in general: the order of the extensions decides what can be called.  With a method that has a parameter with a
default value and one of the same name without parameters, one order gives both, the other only one. -/
theorem extension_order_refuted (w : World) (f t : String) (x y : Text) (i j : Nat) :
    let a : Meth := ⟨i, f, .pub, [⟨t, true⟩], false⟩
    let b : Meth := ⟨j, f, .pub, [], false⟩
    (addAll w [some ⟨x, true, [b]⟩, some ⟨y, true, [a]⟩] .new).methods.Perm [b, a] ∧
      (addAll w [some ⟨y, true, [a]⟩, some ⟨x, true, [b]⟩] .new).methods = [a] := by
  intro a b
  have hab : ¬ InTheWay b a := by simp [InTheWay, a, b, isSignatureValid]
  have hba : InTheWay a b := by simp [InTheWay, a, b, isSignatureValid, isSignatureValid.go]
  constructor
  · have := extensions_complete_partial w (es := [some ⟨x, true, [b]⟩, some ⟨y, true, [a]⟩])
      (by simp [offers, Compatible, hab])
    simpa [offers] using this
  · have h1 : defineMethod [a] [] b (w.place [a] b) = none := defineMethod_none.2 ⟨a, by simp, hba⟩
    have h2 : defineMethod [] [] a (w.place [] a) = some [a] := by
      cases h : defineMethod [] [] a (w.place [] a) with
      | none => obtain ⟨n, hn, -⟩ := defineMethod_none.1 h; cases hn
      | some r =>
        have := List.perm_singleton.1 (show r.Perm [a] from by simpa using (defineMethod_some h).2)
        rw [this]
    simp [addAll, addExtension, Machine.new, addMethods, h1, h2]

theorem contains_iff (p t : Text) : contains p t = true ↔ ∃ a b, t = a ++ p ++ b := by
  induction t with
  | nil =>
    simp only [contains, List.isEmpty_iff]
    constructor
    · rintro rfl; exact ⟨[], [], rfl⟩
    · rintro ⟨a, b, h⟩
      simp only [List.nil_eq, List.append_eq_nil_iff] at h
      exact h.1.2
  | cons c t ih =>
    simp only [contains, Bool.or_eq_true, ih, List.isPrefixOf_iff_prefix]
    constructor
    · rintro (⟨b, h⟩ | ⟨a, b, h⟩)
      · exact ⟨[], b, by simpa using h.symm⟩
      · exact ⟨c :: a, b, by simp [h]⟩
    · rintro ⟨a, b, h⟩
      cases a with
      | nil => exact Or.inl ⟨b, by simpa using h.symm⟩
      | cons d a =>
        simp only [List.cons_append, List.cons.injEq] at h
        exact Or.inr ⟨a, b, h.2⟩

theorem mem_paragraphs {ps : List (List Text)} {l : Text} : (∃ p ∈ ps, l ∈ p) → l ∈ paragraphs ps := by
  rintro ⟨p, hp, hl⟩
  induction ps with
  | nil => cases hp
  | cons q ps ih =>
    cases ps with
    | nil => simp only [List.mem_singleton] at hp; subst hp; exact hl
    | cons q' ps =>
      rcases List.mem_cons.1 hp with rfl | hp
      · exact List.mem_append.2 (Or.inl hl)
      · exact List.mem_append.2 (Or.inr (List.mem_cons_of_mem _ (ih hp)))

/-- **C161, the search.**  Searching the specification prints every method that can be called and whose text has the searched text
in it; only such lines of the specification are printed, or that there is none. -/
theorem specification_search (w : World) (es : List (Option Extension)) {search : Text} (hs : search ≠ []) :
    (∀ m ∈ (addAll w es .new).methods, (∃ a b, w.describe m = a ++ search ++ b) →
      w.describe m ∈ printSpecification (addAll w es .new) search) ∧
    ((∀ l ∈ printSpecification (addAll w es .new) search, l ∈ (addAll w es .new).specification ∧ ∃ a b, l = a ++ search ++ b) ∨
      printSpecification (addAll w es .new) search = ["no result found for '".toList ++ search ++ ['\'']] ∧
        ∀ l ∈ (addAll w es .new).specification, ¬ ∃ a b, l = a ++ search ++ b) := by
  obtain ⟨got, -, -, h3, h4, -, h6⟩ := specification_lists_methods w es
  have hne : search.isEmpty = false := by cases search <;> simp_all
  simp only [printSpecification, hne, Bool.false_eq_true, if_false]
  cases hf : (addAll w es .new).specification.filter (contains search) with
  | nil =>
    have hnone : ∀ l ∈ (addAll w es .new).specification, ¬ ∃ a b, l = a ++ search ++ b := by
      intro l hl hc
      have := List.filter_eq_nil_iff.1 hf l hl
      exact this ((contains_iff _ _).2 hc)
    refine ⟨?_, Or.inr ⟨rfl, hnone⟩⟩
    intro m hm hc
    exact absurd hc (hnone _ (by
      obtain ⟨g, hg, hmg⟩ := List.mem_flatMap.1 (h4.mem_iff.1 hm)
      rw [h6]
      refine mem_paragraphs ⟨_, List.mem_map_of_mem (List.mem_filter.2 ⟨hg, ?_⟩), List.mem_append.2 (Or.inr (List.mem_map_of_mem hmg))⟩
      have := (h3 g hg).subset hmg
      simp only [offers] at this
      split at this
      · assumption
      · cases this))
  | cons x xs =>
    refine ⟨?_, Or.inl ?_⟩
    · intro m hm hc
      simp only [List.isEmpty_cons, Bool.false_eq_true, if_false]
      rw [← hf]
      refine List.mem_filter.2 ⟨?_, (contains_iff _ _).2 hc⟩
      obtain ⟨g, hg, hmg⟩ := List.mem_flatMap.1 (h4.mem_iff.1 hm)
      rw [h6]
      refine mem_paragraphs ⟨_, List.mem_map_of_mem (List.mem_filter.2 ⟨hg, ?_⟩), List.mem_append.2 (Or.inr (List.mem_map_of_mem hmg))⟩
      have := (h3 g hg).subset hmg
      simp only [offers] at this
      split at this
      · assumption
      · cases this
    · intro l hl
      simp only [List.isEmpty_cons, Bool.false_eq_true, if_false] at hl
      rw [← hf] at hl
      obtain ⟨h1, h2⟩ := List.mem_filter.1 hl
      exact ⟨h1, (contains_iff _ _).1 h2⟩

/-! ## Specification of C162 -/

/-- The namespace that this path leads to, from one namespace into the next. -/
inductive Inside : Space → List Text → Space → Prop where
  | here {s : Space} : Inside s [] s
  | into {s t u : Space} {n : Text} {ns : List Text} : s.spaces.lookup n = some t → Inside t ns u → Inside s (n :: ns) u

/-- The names with dots between them. -/
def dotted : List Text → Text
  | [] => []
  | [n] => n
  | n :: ns => n ++ '.' :: dotted ns

/-- The method can be called from outside by this name with arguments of these types. -/
def Callable (s : Space) (f : Text) (args : List String) (m : Meth) : Prop :=
  m ∈ s.methods ∧ m.name = String.ofList f ∧ m.vis = .pub ∧ isSignatureValid m.sig args = true

theorem split_part (p t : Text) (hp : '.' ∉ p) : split '.' (p ++ '.' :: t) = p :: split '.' t := by
  induction p with
  | nil => simp [split]
  | cons c p ih =>
    simp only [List.mem_cons, not_or] at hp
    simp only [List.cons_append, split, ih hp.2]
    rw [if_neg (fun h => hp.1 h.symm)]

theorem split_last (p : Text) (hp : '.' ∉ p) : split '.' p = [p] := by
  induction p with
  | nil => rfl
  | cons c p ih =>
    simp only [List.mem_cons, not_or] at hp
    simp only [split, ih hp.2]
    rw [if_neg (fun h => hp.1 h.symm)]

/-- The name is taken apart at its dots. -/
theorem split_dotted {ns : List Text} (h : ns ≠ []) (hd : ∀ n ∈ ns, '.' ∉ n) : split '.' (dotted ns) = ns := by
  induction ns with
  | nil => exact absurd rfl h
  | cons n ns ih =>
    cases ns with
    | nil => exact split_last n (hd n (by simp))
    | cons n' ns =>
      simp only [dotted]
      rw [split_part _ _ (hd n (by simp)), ih (by simp) (fun x hx => hd x (by simp [hx]))]

theorem walk_inside {args : List String} {s t : Space} {path : List Text} {f : Text} (h : Inside s path t) (around : List Space) :
    walk args (path ++ [f]) around s = match firstApplicable t.methods (String.ofList f) args .pub with
      | some m => .calls m
      | none => .unknownMethod := by
  induction h generalizing around with
  | here => rfl
  | @into s t u n ns h1 h2 ih =>
    have : resolve n around s = some (.space (s :: around) t) := by cases around <;> simp [resolve, h1]
    cases ns with
    | nil => simpa [walk, this] using ih (s :: around)
    | cons n' ns => simpa [walk, this] using ih (s :: around)

theorem firstApplicable_pub {ms : List Meth} {f : Text} {args : List String} :
    (∃ m, firstApplicable ms (String.ofList f) args .pub = some m ∧ m ∈ ms ∧ m.name = String.ofList f ∧ m.vis = .pub ∧
        isSignatureValid m.sig args = true) ∨
      firstApplicable ms (String.ofList f) args .pub = none ∧
        ∀ m ∈ ms, ¬ (m.name = String.ofList f ∧ m.vis = .pub ∧ isSignatureValid m.sig args = true) := by
  have hv : ∀ v : Vis, Vis.pub ≤ v ↔ v = .pub := by intro v; cases v <;> decide
  cases h : firstApplicable ms (String.ofList f) args .pub with
  | none =>
    refine Or.inr ⟨rfl, fun m hm hc => ?_⟩
    have := List.find?_eq_none.1 h m hm
    simp [hv, hc] at this
  | some m =>
    have h1 := List.mem_of_find?_eq_some h
    have h2 := List.find?_some h
    simp only [hv, Bool.and_eq_true, decide_eq_true_eq, beq_iff_eq] at h2
    exact Or.inl ⟨m, rfl, h1, h2.2.1, h2.1, h2.2.2⟩

/-- **C162.**  If there are namespaces as the name says, a method of the last one is called that fits the name and the arguments, if
there is one, and otherwise an exception tells so. -/
theorem called_by_name_partial {global s : Space} {path : List Text} {f : Text} (args : List String) (hs : Inside global path s)
    (hd : ∀ n ∈ path ++ [f], '.' ∉ n) :
    (∃ m, execute global (dotted (path ++ [f])) args = .calls m ∧ Callable s f args m) ∨
      execute global (dotted (path ++ [f])) args = .unknownMethod ∧ ∀ m, ¬ Callable s f args m := by
  rw [execute, split_dotted (by simp) hd, walk_inside hs]
  rcases firstApplicable_pub (ms := s.methods) (f := f) (args := args) with ⟨m, h1, h2⟩ | ⟨h1, h2⟩
  · exact Or.inl ⟨m, by simp [h1], h2⟩
  · exact Or.inr ⟨by simp [h1], fun m hm => h2 m hm.1 hm.2⟩

/-- **C162, one namespace.**  With at most one namespace in the name, a method is called only if it is where the name says. -/
theorem called_by_name_short {global : Space} {path : List Text} {f : Text} {args : List String} {m : Meth} (hp : path.length ≤ 1)
    (hd : ∀ n ∈ path ++ [f], '.' ∉ n) (h : execute global (dotted (path ++ [f])) args = .calls m) :
    ∃ s, Inside global path s ∧ Callable s f args m := by
  have key : ∀ s, Inside global path s → ∃ s, Inside global path s ∧ Callable s f args m := by
    intro s hs
    rcases called_by_name_partial args hs hd with ⟨m', h1, h2⟩ | ⟨h1, -⟩
    · rw [h1] at h; cases h; exact ⟨s, hs, h2⟩
    · rw [h1] at h; cases h
  cases path with
  | nil => exact key _ .here
  | cons n path =>
    have : path = [] := List.eq_nil_of_length_eq_zero (by simpa using hp)
    subst this
    cases hl : global.spaces.lookup n with
    | some t => exact key t (.into hl .here)
    | none =>
      rw [execute, split_dotted (by simp) hd] at h
      simp only [List.cons_append, List.nil_append, walk, resolve, hl] at h
      split at h
      · rename_i h'
        split at h'
        · cases h'
        · split at h' <;> cases h'
      · cases h

/-- C162 is false in general: a name that is not known in a namespace is looked for around it.  If the namespace `A` has nothing
called `A` in it, `A.A.f`, `A.A.A.f` and so on call `A.f`. -/
theorem called_by_name_refuted {global a : Space} {n f : Text} (args : List String) (k : Nat) (ha : global.spaces.lookup n = some a)
    (h1 : a.spaces.lookup n = none) (h2 : n ∉ a.others) (h3 : ∀ m ∈ a.methods, m.name.toList ≠ n) (hn : '.' ∉ n) (hf : '.' ∉ f) :
    execute global (dotted (List.replicate (k + 1) n ++ [f])) args = execute global (dotted [n, f]) args ∧
      (0 < k → ∀ s, ¬ Inside global (List.replicate (k + 1) n) s) := by
  constructor
  · have hd : ∀ k, ∀ x ∈ List.replicate (k + 1) n ++ [f], '.' ∉ x := by
      intro k x hx
      simp only [List.mem_append, List.mem_replicate, List.mem_singleton] at hx
      rcases hx with ⟨-, rfl⟩ | rfl <;> assumption
    have hw : ∀ k, walk args (List.replicate k n ++ [f]) [global] a = walk args [f] [global] a := by
      intro k
      induction k with
      | zero => rfl
      | succ k ih =>
        have hr : resolve n [global] a = some (.space [global] a) := by
          simp only [resolve, h1, h2, if_false, ha]
          rw [if_neg]
          simpa using h3
        have : List.replicate (k + 1) n ++ [f] = n :: (List.replicate k n ++ [f]) := rfl
        rw [this]
        cases k with
        | zero => simp [walk, hr]
        | succ k =>
          rw [← ih]
          simp [walk, hr, List.replicate_succ]
    have he : ∀ k, execute global (dotted (List.replicate (k + 1) n ++ [f])) args = walk args [f] [global] a := by
      intro k
      rw [execute, split_dotted (by simp) (hd k), ← hw k]
      have hr : resolve n [] global = some (.space [global] a) := by simp [resolve, ha]
      have : List.replicate (k + 1) n ++ [f] = n :: (List.replicate k n ++ [f]) := rfl
      rw [this]
      cases k with
      | zero => simp [walk, hr]
      | succ k => simp [walk, hr, List.replicate_succ]
    rw [he k, ← he 0]
    rfl
  · intro hk s hs
    cases k with
    | zero => exact absurd hk (by simp)
    | succ k =>
      cases hs with
      | into h4 h5 =>
        rw [ha] at h4
        cases h4
        cases h5 with
        | into h6 _ => rw [h1] at h6; cases h6

/-! ## Examples -/

namespace Demo

def world : World := ⟨fun ms _ => ms.length / 2, fun m => m.name.toList⟩

def sleep : Meth := ⟨1, "sleep", .pub, [⟨"int", false⟩], false⟩
def log : Meth := ⟨2, "log", .pub, [⟨"string", true⟩], false⟩
def log0 : Meth := ⟨3, "log", .pub, [], false⟩
def send : Meth := ⟨4, "send", .pub, [⟨"string", false⟩], false⟩

def time : Extension := { name := "Time".toList, methods := [sleep, log] }
def net : Extension := { name := "Net".toList, methods := [log0, send] }

/-- The hypothesis of `extensions_complete_partial` is met with `net` in front of `time`. -/
example : (addAll world [some net, none, some time] .new).methods.Perm [log0, send, sleep, log] := by
  have h : Compatible (([some net, none, some time].filterMap id).flatMap offers) := by
    simp [offers, net, time, Compatible, InTheWay, log0, send, sleep, log, isSignatureValid]
  simpa [offers, net, time] using extensions_complete_partial world h

/-- That of `extension_cut_refuted` with `net` behind `time`: `send` is missing. -/
example : (addExtension world (some net) (addAll world [some time] .new)).1 = true ∧
    send ∉ (addExtension world (some net) (addAll world [some time] .new)).2.methods := by
  have := extension_cut_refuted world (addAll world [some time] .new) (name := "Net".toList) (pre := []) (post := [send])
    (n := log) (m := log0) (by decide) ⟨rfl, by decide⟩
  exact ⟨this.1, this.2.2 send (by simp) (by decide) (by simp)⟩

/-- `specification_search` finds `log`. -/
example : log.name.toList ∈ printSpecification (addAll world [some time] .new) "lo".toList :=
  (specification_search world [some time] (search := "lo".toList) (by decide)).1 log (by decide) ⟨[], ['g'], by decide⟩

def inner : Space := .mk [] [] [send]
def outer : Space := .mk [("Net".toList, inner)] ["count".toList] [log, sleep]
def program : Space := .mk [("Tools".toList, outer)] [] []

/-- The hypotheses of `called_by_name_partial` are met by `Tools.Net.send`. -/
example : (∃ m, execute program (dotted ["Tools".toList, "Net".toList, "send".toList]) ["string"] = .calls m ∧
      Callable inner "send".toList ["string"] m) ∨
    execute program (dotted ["Tools".toList, "Net".toList, "send".toList]) ["string"] = .unknownMethod ∧
      ∀ m, ¬ Callable inner "send".toList ["string"] m :=
  called_by_name_partial ["string"] (path := ["Tools".toList, "Net".toList]) (f := "send".toList) (.into rfl (.into rfl .here))
    (by decide)

example : execute program "Tools.Net.send".toList ["string"] = .calls send := by decide +kernel

/-- Those of `called_by_name_refuted` by `Tools.Tools.log`. -/
example : execute program (dotted (List.replicate 2 "Tools".toList ++ ["log".toList])) [] =
    execute program (dotted ["Tools".toList, "log".toList]) [] :=
  (called_by_name_refuted [] 1 (a := outer) rfl rfl (by decide) (by decide) (by decide) (by decide)).1

example : execute program "Tools.Tools.log".toList [] = .calls log := by decide +kernel

end Demo

end Verif.Embed
