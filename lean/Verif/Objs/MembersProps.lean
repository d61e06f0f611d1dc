import Verif.Objs.Members

/-! # C131: new objects start with their declared values -/

namespace Verif.Objs

open Generic (Constraint lookupType lookupConstraint buildRuntimeConstraints)

/-! ## Specification -/

/-- The declarations of a class. -/
def Cls.decls : Cls → List MemberDecl
  | .plain ds => ds
  | .inst ds _ => ds

/-- The type a member of that declared type has in the class: type parameters are replaced by their arguments. -/
def Cls.typeOf : Cls → MemberDecl → String
  | .plain _, d => d.type
  | .inst _ cs, d => if d.args ≠ [] then d.type else lookupType cs d.type

/-- The text of a value of this type that nobody has set: empty for strings, 0 for everything else
(the default values of `Core/Runtime/BuildInTypes`). -/
def defaultText (type : String) : String := if type = "string" then "" else "0"

/-- The text of the value a member should have in a new object of the class. -/
def expectedText (number : String → String) (c : Cls) (d : MemberDecl) : String :=
  match d.init with
  | some v => v.text number
  | none => defaultText (c.typeOf d)

/-! ## Proofs -/

theorem text_zero (number : String → String) : (Val.int 0).text number = "0" := by
  show toString (0 : Int) = "0"
  decide

theorem text_empty (number : String → String) : (Val.str "").text number = "" := rfl

theorem find_filter_map {α β : Type} (f : α → β) (p : String × α → Bool) (ms : AMap String α) (n : String)
    (a : α) (h : ms.find n = some a) (hp : p (n, a) = true) :
    AMap.find n ((ms.filter p).map fun e => (e.1, f e.2)) = some (f a) := by
  induction ms with
  | nil => simp [AMap.find] at h
  | cons e ms ih =>
    obtain ⟨k, b⟩ := e
    by_cases hk : k = n
    · subst hk
      simp [AMap.find] at h
      subst h
      simp [hp, AMap.find]
    · have h' : AMap.find n ms = some a := by simpa [AMap.find, hk] using h
      by_cases hq : p (k, b) = true
      · simp [hq, AMap.find, hk]
        simpa using ih h'
      · simp [hq]
        simpa using ih h'

theorem find_filter_none {α β : Type} (f : α → β) (p : String × α → Bool) (ms : AMap String α) (n : String)
    (h : ∀ a, (n, a) ∈ ms → p (n, a) = false) :
    AMap.find n ((ms.filter p).map fun e => (e.1, f e.2)) = none := by
  induction ms with
  | nil => rfl
  | cons e ms ih =>
    obtain ⟨k, b⟩ := e
    have ih := ih (fun a ha => h a (List.mem_cons_of_mem _ ha))
    by_cases hq : p (k, b) = true
    · have hk : k ≠ n := by
        rintro rfl
        have := h b (List.mem_cons_self ..)
        rw [this] at hq; cases hq
      simp [hq, AMap.find, hk]
      simpa using ih
    · simp [hq]
      simpa using ih

theorem defineMembers_find : ∀ (ds : List MemberDecl) (ms ms' : AMap String BlueMember),
    defineMembers ds ms = some ms' →
    (∀ n b, ms.find n = some b → ms'.find n = some b) ∧ ∀ d ∈ ds, ms'.find d.name = some (createMember d) := by
  intro ds
  induction ds with
  | nil => intro ms ms' h; cases h; exact ⟨fun _ _ h => h, fun _ h => nomatch h⟩
  | cons d ds ih =>
    intro ms ms' h
    unfold defineMembers at h
    cases hd : ms.find d.name with
    | some _ => rw [hd] at h; cases h
    | none =>
      rw [hd] at h
      obtain ⟨h1, h2⟩ := ih _ _ h
      refine ⟨fun n b hb => h1 n b ?_, fun d' hd' => ?_⟩
      · have : d.name ≠ n := by rintro rfl; rw [hd] at hb; cases hb
        rw [AMap.find_set_ne this]; exact hb
      · rcases List.mem_cons.1 hd' with rfl | hd'
        · exact h1 _ _ (by rw [AMap.find_set_self])
        · exact h2 d' hd'

/-- What the class makes of one of its declarations. -/
def Cls.convert : Cls → BlueMember → BlueMember
  | .plain _, b => b
  | .inst _ cs, b => if b.args ≠ [] then { b with args := buildRuntimeConstraints b.args cs }
      else { b with type := lookupType cs b.type, args := [] }

theorem convert_blueprint (c : Cls) (b : BlueMember) : (c.convert b).isBlueprint = b.isBlueprint := by
  cases c with
  | plain _ => rfl
  | inst _ cs => simp only [Cls.convert]; split <;> rfl

theorem convert_value (c : Cls) (b : BlueMember) : (c.convert b).value = b.value := by
  cases c with
  | plain _ => rfl
  | inst _ cs => simp only [Cls.convert]; split <;> rfl

theorem convert_type (c : Cls) (d : MemberDecl) : (c.convert (createMember d)).type = c.typeOf d := by
  cases c with
  | plain _ => rfl
  | inst _ cs => by_cases h : d.args = [] <;> simp [Cls.convert, Cls.typeOf, createMember, h]

theorem blueprint_find {c : Cls} {ms : AMap String BlueMember} (h : c.blueprint = some ms) {d : MemberDecl}
    (hd : d ∈ c.decls) (hs : d.static = false) : ms.find d.name = some (c.convert (createMember d)) := by
  cases c with
  | plain ds => exact (defineMembers_find ds [] ms h).2 d hd
  | inst ds cs =>
    simp only [Cls.blueprint, Option.map_eq_some_iff] at h
    obtain ⟨ms0, h0, rfl⟩ := h
    have hf := (defineMembers_find ds [] ms0 h0).2 d hd
    exact find_filter_map (fun b => (Cls.inst ds cs).convert b) _ ms0 d.name (createMember d) hf
      (by simp [createMember, hs])

theorem createObject_length : ∀ (cs : List Cls) o, createObject cs = some o → o.length = cs.length := by
  intro cs
  induction cs with
  | nil => intro o h; cases h; rfl
  | cons c cs ih =>
    intro o h
    unfold createObject at h
    cases h1 : createObject cs with
    | none => rw [h1] at h; cases h
    | some o1 =>
      cases h2 : c.blueprint with
      | none => rw [h1, h2] at h; cases h
      | some ms => rw [h1, h2] at h; cases h; simp [ih o1 h1]

theorem createObject_level : ∀ (cs : List Cls) o, createObject cs = some o → ∀ (i : Nat) (c : Cls), cs[i]? = some c →
    ∃ ms, c.blueprint = some ms ∧ o[i]? = some (createMembers ms) := by
  intro cs
  induction cs with
  | nil => intro o h i c hc; simp at hc
  | cons c0 cs ih =>
    intro o h i c hc
    unfold createObject at h
    cases h1 : createObject cs with
    | none => rw [h1] at h; cases h
    | some o1 =>
      cases h2 : c0.blueprint with
      | none => rw [h1, h2] at h; cases h
      | some ms =>
        rw [h1, h2] at h; cases h
        cases i with
        | zero => simp at hc; subst hc; exact ⟨ms, h2, rfl⟩
        | succ i => simpa using ih o1 h1 i c (by simpa using hc)

/-! ## Theorems -/

/-- Each member that the class or an ancestor declares, other than static ones, is a member of the new object, of the
declared type with type arguments put in, and with the declared value, or else with the default value of its type:
this last for every declared type that is no type parameter replaced by `string`. -/
theorem new_members_partial (number : String → String) (cs : List Cls) (o : List (AMap String ObjMember))
    (h : createObject cs = some o) (i : Nat) (c : Cls) (hc : cs[i]? = some c) (d : MemberDecl) (hd : d ∈ c.decls)
    (hs : d.static = false) (hgen : d.init ≠ none ∨ c.typeOf d = d.type ∨ (c.typeOf d ≠ "string" ∧ d.type ≠ "string")) :
    ∃ level m, o[i]? = some level ∧ level.find d.name = some m ∧ m.type = c.typeOf d ∧
      (∀ v, d.init = some v → m.value = v) ∧ m.value.text number = expectedText number c d := by
  obtain ⟨ms, hb, hl⟩ := createObject_level cs o h i c hc
  have hf := blueprint_find hb hd hs
  have hm : (createMembers ms).find d.name = some ⟨(c.convert (createMember d)).type,
      (c.convert (createMember d)).args, (c.convert (createMember d)).value⟩ :=
    find_filter_map (fun b : BlueMember => (⟨b.type, b.args, b.value⟩ : ObjMember)) _ ms d.name _ hf
      (by simp [convert_blueprint, createMember, hs])
  refine ⟨_, _, hl, hm, convert_type c d, fun v hv => ?_, ?_⟩
  · simp only [convert_value, createMember, hv, Option.getD_some]
  · simp only [convert_value, createMember, expectedText]
    cases hi : d.init with
    | some v => rfl
    | none =>
      simp only [Option.getD_none, defaultText]
      rcases hgen with h1 | h1 | ⟨h1, h2⟩
      · exact absurd hi h1
      · rw [h1]
        split <;> simp [text_zero, text_empty]
      · rw [if_neg h2, if_neg h1]; simp [text_zero, text_empty]

/-- Refuted for generic classes: a member without a value whose type is a type parameter reads "0", not the empty
text, in every object of every instance of the class with `string`. -/
theorem generic_string_member_refuted (number : String → String) (cs : List Cls) (o : List (AMap String ObjMember))
    (h : createObject cs = some o) (i : Nat) (ds : List MemberDecl) (args : List Constraint)
    (hc : cs[i]? = some (.inst ds args)) (d : MemberDecl) (hd : d ∈ ds) (hs : d.static = false)
    (hi : d.init = none) (ht : d.type ≠ "string") (ha : d.args = []) (hstr : lookupType args d.type = "string") :
    ∃ level m, o[i]? = some level ∧ level.find d.name = some m ∧ m.type = "string" ∧
      m.value.text number = "0" ∧ expectedText number (.inst ds args) d = "" := by
  obtain ⟨ms, hb, hl⟩ := createObject_level cs o h i _ hc
  have hf := blueprint_find hb hd hs
  have hm := find_filter_map (fun b : BlueMember => (⟨b.type, b.args, b.value⟩ : ObjMember))
    (fun e => e.2.isBlueprint) ms d.name _ hf (by simp [convert_blueprint, createMember, hs])
  refine ⟨_, _, hl, hm, ?_, ?_, ?_⟩
  · simp only [convert_type, Cls.typeOf, ha]; simpa using hstr
  · simp only [convert_value, createMember, hi, Option.getD_none, if_neg ht]; simp [text_zero, text_empty]
  · simp [expectedText, hi, Cls.typeOf, ha, hstr, defaultText]

/-- Static members are no members of the objects; in a class that is no instance of a generic class they are symbols
of the class, with the declared value or the default value of the declared type. -/
theorem static_member_of_class (number : String → String) (ds : List MemberDecl) (ms : AMap String BlueMember)
    (h : (Cls.plain ds).blueprint = some ms) (d : MemberDecl) (hd : d ∈ ds) :
    ∃ b, ms.find d.name = some b ∧ b.type = d.type ∧ b.value.text number = expectedText number (.plain ds) d := by
  refine ⟨_, (defineMembers_find ds [] ms h).2 d hd, rfl, ?_⟩
  simp only [createMember, expectedText, Cls.typeOf]
  cases d.init with
  | some v => rfl
  | none => simp only [Option.getD_none, defaultText]; split <;> simp [text_zero, text_empty]

theorem mem_of_find {α : Type} {ms : AMap String α} {n : String} {a : α} (h : ms.find n = some a) : (n, a) ∈ ms := by
  induction ms with
  | nil => simp [AMap.find] at h
  | cons e ms ih =>
    obtain ⟨k, b⟩ := e
    by_cases hk : k = n
    · simp [AMap.find, hk] at h; subst h; rw [hk]; exact List.mem_cons_self ..
    · exact List.mem_cons_of_mem _ (ih (by simpa [AMap.find, hk] using h))

/-- Names are declared once: an entry of the class under a name is the one that is found. -/
theorem defineMembers_mem : ∀ (ds : List MemberDecl) (ms ms' : AMap String BlueMember),
    defineMembers ds ms = some ms' → (∀ n b, (n, b) ∈ ms → ms.find n = some b) →
    ∀ n b, (n, b) ∈ ms' → ms'.find n = some b := by
  intro ds
  induction ds with
  | nil => intro ms ms' h hu; cases h; exact hu
  | cons d ds ih =>
    intro ms ms' h hu
    unfold defineMembers at h
    cases hd : ms.find d.name with
    | some _ => rw [hd] at h; cases h
    | none =>
      rw [hd] at h
      refine ih _ _ h (fun n b hb => ?_)
      by_cases hn : d.name = n
      · subst hn
        have : ∀ (l : AMap String BlueMember), l.find d.name = none → (d.name, b) ∈ l.set d.name (createMember d) →
            b = createMember d := by
          intro l
          induction l with
          | nil => intro _ hb; simpa [AMap.set] using hb
          | cons e l ihl =>
            intro hl hb
            obtain ⟨k, x⟩ := e
            by_cases hk : k = d.name
            · simp [AMap.find, hk] at hl
            · have hl' : AMap.find d.name l = none := by simpa [AMap.find, hk] using hl
              simp [AMap.set, hk] at hb
              rcases hb with hb | hb
              · exact absurd hb.1.symm hk
              · exact ihl hl' hb
        rw [AMap.find_set_self, this ms hd hb]
      · rw [AMap.find_set_ne hn]
        refine hu n b ?_
        have : ∀ (l : AMap String BlueMember), (n, b) ∈ l.set d.name (createMember d) → (n, b) ∈ l := by
          intro l
          induction l with
          | nil =>
            intro hb
            simp [AMap.set] at hb
            exact absurd hb.1.symm hn
          | cons e l ihl =>
            intro hb
            obtain ⟨k, x⟩ := e
            by_cases hk : k = d.name
            · simp [AMap.set, hk] at hb
              rcases hb with hb | hb
              · exact absurd hb.1.symm hn
              · exact List.mem_cons_of_mem _ hb
            · simp [AMap.set, hk] at hb
              rcases hb with hb | hb
              · rw [hb.1, hb.2]; exact List.mem_cons_self ..
              · exact List.mem_cons_of_mem _ (ihl hb)
        exact this ms hb

/-- Refuted for generic classes: no instance of the class has the static members that it declares. -/
theorem generic_static_member_refuted (ds : List MemberDecl) (cs : List Constraint) (ms : AMap String BlueMember)
    (h : (Cls.inst ds cs).blueprint = some ms) (d : MemberDecl) (hd : d ∈ ds) (hs : d.static = true) :
    ms.find d.name = none := by
  simp only [Cls.blueprint, Option.map_eq_some_iff] at h
  obtain ⟨ms0, h0, rfl⟩ := h
  refine find_filter_none (fun b => (Cls.inst ds cs).convert b) _ ms0 d.name (fun a ha => ?_)
  have h1 := defineMembers_mem ds [] ms0 h0 (fun _ _ h => nomatch h) _ _ ha
  rw [(defineMembers_find ds [] ms0 h0).2 d hd] at h1
  cases h1
  simp [createMember, hs]

/-- Declarations of one class under different names are accepted. -/
theorem class_accepted_iff_aux : ∀ (ds : List MemberDecl) (ms : AMap String BlueMember),
    (ds.map (·.name)).Nodup → (∀ d ∈ ds, ms.find d.name = none) → ∃ ms', defineMembers ds ms = some ms' := by
  intro ds
  induction ds with
  | nil => intro ms _ _; exact ⟨ms, rfl⟩
  | cons d ds ih =>
    intro ms hn hf
    unfold defineMembers
    rw [hf d (List.mem_cons_self ..)]
    simp only [List.map_cons, List.nodup_cons] at hn
    refine ih _ hn.2 (fun d' hd' => ?_)
    have : d.name ≠ d'.name := fun e => hn.1 (e ▸ List.mem_map_of_mem hd')
    rw [AMap.find_set_ne this]
    exact hf d' (List.mem_cons_of_mem _ hd')

/-- A class whose members have different names can be created, and objects of it: the hypotheses
`createObject cs = some o` above are met by all lists of such classes. -/
theorem object_created (cs : List Cls) (h : ∀ c ∈ cs, (c.decls.map (·.name)).Nodup) :
    ∃ o, createObject cs = some o := by
  induction cs with
  | nil => exact ⟨[], rfl⟩
  | cons c cs ih =>
    obtain ⟨o, ho⟩ := ih (fun c' hc' => h c' (List.mem_cons_of_mem _ hc'))
    have hb : ∃ ms, c.blueprint = some ms := by
      have hn := h c (List.mem_cons_self ..)
      cases c with
      | plain ds => exact class_accepted_iff_aux ds [] hn (fun _ _ => rfl)
      | inst ds ca =>
        obtain ⟨ms, hms⟩ := class_accepted_iff_aux ds [] hn (fun _ _ => rfl)
        exact ⟨_, by simp only [Cls.blueprint, hms, Option.map_some]; rfl⟩
    obtain ⟨ms, hms⟩ := hb
    exact ⟨_, by simp only [createObject, ho, hms]; rfl⟩

/-! ## A case that meets the hypotheses -/

/-- `class Box<T> { public T value; public static int count = 3; public string label = "box"; }` with `T = string`,
below a class with a number and a string without value. -/
def demoCls : List Cls :=
  [.plain [{ name := "n", type := "int" }, { name := "s", type := "string" }, { name := "k", type := "int", init := some (.int 7) }],
   .inst [{ name := "value", type := "T" }, { name := "count", type := "int", init := some (.int 3), static := true },
     { name := "label", type := "string", init := some (.str "box") }] [⟨0, "T", "string", ""⟩]]

example : ((createObject demoCls).map fun o => o.map fun l => l.map fun e => (e.1, e.2.type, e.2.value.text id)) =
    some [[("n", "int", "0"), ("s", "string", ""), ("k", "int", "7")],
      [("value", "string", "0"), ("label", "string", "box")]] := by decide +kernel

end Verif.Objs
