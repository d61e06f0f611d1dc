import Verif.Generic.Model

/-!
# What generic types guarantee
-/

namespace Verif
namespace Generic

theorem arguments_cons (c d : Constraint) (cs : List Constraint) :
    arguments (c :: d :: cs) = c.argument ++ "," ++ arguments (d :: cs) := rfl

/-! ## C46: the names of instantiated types -/

/-- A type: a name and its type arguments, which are types again. -/
inductive Ty where
  | app (name : String) (args : List Ty)

/-- Identifiers contain no brackets and no comma. -/
def NameOk (s : String) : Prop := s ≠ "" ∧ '<' ∉ s.toList ∧ ',' ∉ s.toList ∧ '>' ∉ s.toList

inductive Ty.Ok : Ty → Prop
  | app {name : String} {args : List Ty} (hn : NameOk name) (ha : ∀ t ∈ args, Ok t) : Ok (.app name args)

/-- The name of a type: each argument is instantiated first, its name is the run time type. -/
def Ty.typeName : Ty → String
  | .app name args => runtimeName name (args.attach.map fun ⟨t, _⟩ => ⟨0, "", t.typeName, ""⟩)

/-- The end of a type name: nothing, or a comma or bracket that is not part of it. -/
def Stop (l : List Char) : Prop := ∀ c ∈ l.head?, c = '<' ∨ c = ',' ∨ c = '>'

theorem word_split : ∀ {a b r r' : List Char}, (∀ c ∈ a, c ≠ '<' ∧ c ≠ ',' ∧ c ≠ '>') → (∀ c ∈ b, c ≠ '<' ∧ c ≠ ',' ∧ c ≠ '>') →
    Stop r → Stop r' → a ++ r = b ++ r' → a = b ∧ r = r'
  | [], [], _, _, _, _, _, _, h => ⟨rfl, h⟩
  | [], c :: b, r, r', _, hb, hr, _, h => by
    simp only [List.nil_append, List.cons_append] at h
    subst h
    have := hr c (by simp)
    obtain ⟨h1, h2, h3⟩ := hb c (by simp)
    rcases this with h | h | h <;> contradiction
  | c :: a, [], r, r', ha, _, _, hr, h => by
    simp only [List.nil_append, List.cons_append] at h
    subst h
    have := hr c (by simp)
    obtain ⟨h1, h2, h3⟩ := ha c (by simp)
    rcases this with h | h | h <;> contradiction
  | c :: a, d :: b, r, r', ha, hb, hr, hr', h => by
    simp only [List.cons_append, List.cons.injEq] at h
    obtain ⟨h1, h2⟩ := word_split (fun x hx => ha x (by simp [hx])) (fun x hx => hb x (by simp [hx])) hr hr' h.2
    exact ⟨by rw [h.1, h1], h2⟩

theorem NameOk.chars {s : String} (h : NameOk s) : ∀ c ∈ s.toList, c ≠ '<' ∧ c ≠ ',' ∧ c ≠ '>' := by
  intro c hc
  refine ⟨?_, ?_, ?_⟩ <;> rintro rfl
  · exact h.2.1 hc
  · exact h.2.2.1 hc
  · exact h.2.2.2 hc

/-- The characters of a type name. -/
def Ty.chars (t : Ty) : List Char := t.typeName.toList

/-- The characters of a list of arguments. -/
def argChars : List Ty → List Char
  | [] => []
  | [t] => t.chars
  | t :: ts => t.chars ++ ',' :: argChars ts

theorem typeName_app (name : String) (args : List Ty) :
    (Ty.app name args).typeName = runtimeName name (args.map fun t => ⟨0, "", t.typeName, ""⟩) := by
  rw [Ty.typeName]
  simp

theorem typeName_ne {t : Ty} (h : t.Ok) : t.typeName ≠ "" := by
  cases h with
  | @app name args hn ha =>
    rw [typeName_app, runtimeName]
    split
    · exact hn.1
    · intro h
      have := congrArg String.toList h
      simp at this

theorem arguments_chars : ∀ {args : List Ty}, (∀ t ∈ args, t.Ok) →
    (arguments (args.map fun t => ⟨0, "", t.typeName, ""⟩)).toList = argChars args
  | [], _ => by simp [arguments, argChars]
  | [t], h => by
    have := typeName_ne (h t (by simp))
    simp [arguments, argChars, Constraint.argument, this, Ty.chars]
  | t :: u :: ts, h => by
    have := typeName_ne (h t (by simp))
    have ih := arguments_chars (args := u :: ts) (fun x hx => h x (by simp [hx]))
    simp only [List.map_cons] at ih
    simp only [List.map_cons, arguments, argChars, String.toList_append, ih, Constraint.argument, if_neg this, Ty.chars]
    simp

theorem chars_app {name : String} {args : List Ty} (ha : ∀ t ∈ args, t.Ok) :
    (Ty.app name args).chars = if args = [] then name.toList else name.toList ++ '<' :: (argChars args ++ ['>']) := by
  rw [Ty.chars, typeName_app, runtimeName]
  cases args with
  | nil => simp
  | cons t ts =>
    rw [if_neg (by simp), if_neg (by simp)]
    simp only [String.toList_append, arguments_chars ha]
    simp

mutual
theorem chars_inj : ∀ {t u : Ty} {r r' : List Char}, t.Ok → u.Ok → (∀ c ∈ r.head?, c = ',' ∨ c = '>') → (∀ c ∈ r'.head?, c = ',' ∨ c = '>') →
    t.chars ++ r = u.chars ++ r' → t = u ∧ r = r'
  | .app n as, .app m bs, r, r', .app hn ha, .app hm hb, hr, hr', h => by
    have sr : Stop r := fun c hc => .inr (hr c hc)
    have sr' : Stop r' := fun c hc => .inr (hr' c hc)
    rw [chars_app ha, chars_app hb] at h
    by_cases h1 : as = []
    · by_cases h2 : bs = []
      · rw [if_pos h1, if_pos h2] at h
        obtain ⟨h3, h4⟩ := word_split hn.chars hm.chars sr sr' h
        rw [String.toList_inj.1 h3, h1, h2]
        exact ⟨rfl, h4⟩
      · rw [if_pos h1, if_neg h2] at h
        simp only [List.append_assoc, List.cons_append] at h
        obtain ⟨-, h4⟩ := word_split hn.chars hm.chars sr (by intro c hc; left; simpa using hc.symm) h
        subst h4
        rcases hr '<' (by simp) with h | h <;> cases h
    · by_cases h2 : bs = []
      · rw [if_neg h1, if_pos h2] at h
        simp only [List.append_assoc, List.cons_append] at h
        obtain ⟨-, h4⟩ := word_split hn.chars hm.chars (by intro c hc; left; simpa using hc.symm) sr' h
        subst h4
        rcases hr' '<' (by simp) with h | h <;> cases h
      · rw [if_neg h1, if_neg h2] at h
        simp only [List.append_assoc, List.cons_append] at h
        obtain ⟨h3, h4⟩ := word_split hn.chars hm.chars (by intro c hc; left; simpa using hc.symm)
          (by intro c hc; left; simpa using hc.symm) h
        simp only [List.cons.injEq, true_and, List.nil_append] at h4
        obtain ⟨h5, h6⟩ := args_inj ha hb h1 h2 h4
        rw [String.toList_inj.1 h3, h5]
        exact ⟨rfl, h6⟩

theorem args_inj : ∀ {as bs : List Ty} {r r' : List Char}, (∀ t ∈ as, t.Ok) → (∀ t ∈ bs, t.Ok) → as ≠ [] → bs ≠ [] →
    argChars as ++ '>' :: r = argChars bs ++ '>' :: r' → as = bs ∧ r = r'
  | [], _, _, _, _, _, h, _, _ => absurd rfl h
  | _ :: _, [], _, _, _, _, _, h, _ => absurd rfl h
  | [t], [u], r, r', ha, hb, _, _, h => by
    obtain ⟨h1, h2⟩ := chars_inj (t := t) (u := u) (ha t (by simp)) (hb u (by simp)) (by simp) (by simp) h
    simp only [List.cons.injEq, true_and] at h2
    exact ⟨by rw [h1], h2⟩
  | [t], u :: u' :: bs, r, r', ha, hb, _, _, h => by
    simp only [argChars, List.append_assoc, List.cons_append] at h
    obtain ⟨h1, h2⟩ := chars_inj (t := t) (u := u) (ha t (by simp)) (hb u (by simp)) (by simp) (by simp) h
    simp at h2
  | t :: t' :: as, [u], r, r', ha, hb, _, _, h => by
    simp only [argChars, List.append_assoc, List.cons_append] at h
    obtain ⟨h1, h2⟩ := chars_inj (t := t) (u := u) (ha t (by simp)) (hb u (by simp)) (by simp) (by simp) h
    simp at h2
  | t :: t' :: as, u :: u' :: bs, r, r', ha, hb, _, _, h => by
    simp only [argChars, List.append_assoc, List.cons_append] at h
    obtain ⟨h1, h2⟩ := chars_inj (t := t) (u := u) (ha t (by simp)) (hb u (by simp)) (by simp) (by simp) h
    simp only [List.cons.injEq, true_and] at h2
    obtain ⟨h3, h4⟩ := args_inj (as := t' :: as) (bs := u' :: bs) (fun x hx => ha x (List.mem_cons_of_mem _ hx))
      (fun x hx => hb x (List.mem_cons_of_mem _ hx)) (by simp) (by simp) h2
    exact ⟨by rw [h1, h3], h4⟩
end

/-- **C46**.  Two (possibly nested) instantiations have the same name only if the generic type and all the
type arguments are the same. -/
theorem instance_names_distinct {t u : Ty} (ht : t.Ok) (hu : u.Ok) (h : t.typeName = u.typeName) : t = u := by
  have : t.chars ++ [] = u.chars ++ [] := by rw [Ty.chars, Ty.chars, h]
  exact (chars_inj ht hu (by simp) (by simp) this).1

/-- **C46**, for one level: name and arguments are determined by the name of the instantiated type. -/
theorem instance_arguments_distinct {n n' : String} {cs cs' : List Constraint} (hn : NameOk n) (hn' : NameOk n')
    (hc : ∀ c ∈ cs, NameOk c.run) (hc' : ∀ c ∈ cs', NameOk c.run) (h : runtimeName n cs = runtimeName n' cs') :
    n = n' ∧ cs.map Constraint.run = cs'.map Constraint.run := by
  have key : ∀ (cs : List Constraint), (∀ c ∈ cs, NameOk c.run) → ∀ n, runtimeName n cs = (Ty.app n ((cs.map Constraint.run).map fun r => .app r [])).typeName := by
    intro cs hc n
    rw [typeName_app]
    have h0 : (cs = []) ↔ ((List.map (fun t : Ty => (⟨0, "", t.typeName, ""⟩ : Constraint)) ((cs.map Constraint.run).map fun r => Ty.app r [])) = []) := by
      simp
    have h1 : arguments cs = arguments (List.map (fun t : Ty => (⟨0, "", t.typeName, ""⟩ : Constraint)) ((cs.map Constraint.run).map fun r => Ty.app r [])) := by
      induction cs with
      | nil => rfl
      | cons c cs ih =>
        have e : (Ty.app c.run []).typeName = c.run := by rw [typeName_app]; simp [runtimeName]
        cases cs with
        | nil => simp [arguments, Constraint.argument, e]
        | cons d ds =>
          have := ih (fun x hx => hc x (List.mem_cons_of_mem _ hx)) (by simp)
          simp only [List.map_cons] at this ⊢
          rw [arguments_cons, arguments_cons, this]
          simp [Constraint.argument, e]
    unfold runtimeName
    by_cases h : cs = []
    · rw [if_pos h, if_pos (h0.1 h)]
    · rw [if_neg h, if_neg (fun h' => h (h0.2 h')), h1]
  rw [key cs hc, key cs' hc'] at h
  have ok : ∀ (n : String) (cs : List Constraint), NameOk n → (∀ c ∈ cs, NameOk c.run) →
      (Ty.app n ((cs.map Constraint.run).map fun r => Ty.app r [])).Ok := by
    intro n cs hn hc
    refine .app hn ?_
    intro t ht
    simp only [List.map_map, List.mem_map, Function.comp] at ht
    obtain ⟨c, hc', rfl⟩ := ht
    exact .app (hc c hc') (by simp)
  have := instance_names_distinct (ok n cs hn hc) (ok n' cs' hn' hc') h
  simp only [Ty.app.injEq] at this
  refine ⟨this.1, ?_⟩
  have h2 := this.2
  exact (List.map_inj_right fun a b h => by simpa using h).1 h2

/-- `Map<string,List<int>>` -/
example : (Ty.app "Map" [.app "string" [], .app "List" [.app "int" []]]).Ok := by
  have hn : ∀ s ∈ ["Map", "string", "List", "int"], NameOk s := by
    intro s hs
    simp only [List.mem_cons, List.not_mem_nil, or_false] at hs
    rcases hs with rfl | rfl | rfl | rfl <;> exact ⟨by decide, by decide, by decide, by decide⟩
  refine .app (hn _ (by simp)) ?_
  simp only [List.mem_cons, List.not_mem_nil, or_false]
  rintro t (rfl | rfl)
  · exact .app (hn _ (by simp)) (by simp)
  · refine .app (hn _ (by simp)) ?_
    simp only [List.mem_cons, List.not_mem_nil, or_false]
    rintro t rfl
    exact .app (hn _ (by simp)) (by simp)

example : (Ty.app "Map" [.app "string" [], .app "List" [.app "int" []]]).typeName = "Map<string,List<int>>" := by
  simp [Ty.typeName, runtimeName, arguments, Constraint.argument]

/-! ## C47: substitution -/

/-- `y` is what becomes of the name `x`: the type argument if `x` is a type parameter, otherwise `x`. -/
def Replaced (cs : List Constraint) (x y : String) : Prop :=
  (∃ c ∈ cs, c.design = x ∧ c.run = y) ∨ ((∀ c ∈ cs, c.design ≠ x) ∧ y = x)

/-- A type parameter has one argument. -/
theorem Replaced.unique {cs : List Constraint} (h : (cs.map Constraint.design).Nodup) {x y z : String}
    (hy : Replaced cs x y) (hz : Replaced cs x z) : y = z := by
  rcases hy with ⟨c, hc, hcx, rfl⟩ | ⟨hy, rfl⟩
  · rcases hz with ⟨d, hd, hdx, rfl⟩ | ⟨hz, -⟩
    · have : c = d := by
        induction cs with
        | nil => cases hc
        | cons a cs ih =>
          rw [List.map_cons, List.nodup_cons] at h
          rcases List.mem_cons.1 hc with rfl | _
          · rcases List.mem_cons.1 hd with rfl | hd
            · rfl
            · exact absurd (List.mem_map.2 ⟨d, hd, by rw [hdx, hcx]⟩) h.1
          · rename_i hc'
            rcases List.mem_cons.1 hd with rfl | hd
            · exact absurd (List.mem_map.2 ⟨c, hc', hcx.trans hdx.symm⟩) h.1
            · exact ih h.2 hc' hd
      rw [this]
    · exact absurd hcx (hz c hc)
  · rcases hz with ⟨d, hd, hdx, rfl⟩ | ⟨-, rfl⟩
    · exact absurd hdx (hy d hd)
    · rfl

/-- The parts, separated by commas. -/
def joined : List String → String
  | [] => ""
  | [a] => a
  | a :: as => a ++ "," ++ joined as

/-- A type with its arguments as it is written: `Map<string,int>`. -/
def written (name : String) (args : List String) : String :=
  if args = [] then name else name ++ "<" ++ joined args ++ ">"

/-- Two lists of the same length whose elements are related. -/
def Each {α β : Type} (R : α → β → Prop) : List α → List β → Prop
  | [], [] => True
  | a :: as, b :: bs => R a b ∧ Each R as bs
  | _, _ => False

/-- `s` is the type that results from a type by replacing all names in it. -/
def TypeReplaced (cs : List Constraint) (name : String) (args : List Constraint) (s : String) : Prop :=
  ∃ name' args', Replaced cs name name' ∧ Each (fun a b => Replaced cs a.design b) args args' ∧ s = written name' args'

/-- `m'` is `m` with all type parameters replaced. -/
structure MethodInstance (cs : List Constraint) (m m' : Method) : Prop where
  name : m'.name = m.name
  returns : TypeReplaced cs m.ret.name m.ret.cs m'.ret.combined
  parameters : Each (fun p p' => p'.name = p.name ∧ p'.hasDefault = p.hasDefault ∧ TypeReplaced cs p.type.name p.type.cs p'.type.name) m.sig m'.sig
  body : Each (fun t t' => t'.identifier = t.identifier ∧ if t.identifier then Replaced cs t.content t'.content else t'.content = t.content)
    m.tokens m'.tokens

theorem lookup_replaced (cs : List Constraint) (x : String) : Replaced cs x (lookupType cs x) := by
  unfold lookupType lookupConstraint
  cases h : cs.find? fun c => c.design = x with
  | some c =>
    have := List.find?_some h
    exact .inl ⟨c, List.mem_of_find?_eq_some h, by simpa using this, rfl⟩
  | none => exact .inr ⟨by simpa using List.find?_eq_none.1 h, rfl⟩

theorem each_map {α β : Type} {R : α → β → Prop} {f : α → β} : ∀ {l : List α}, (∀ a ∈ l, R a (f a)) → Each R l (l.map f)
  | [], _ => trivial
  | a :: l, h => ⟨h a (by simp), each_map fun x hx => h x (by simp [hx])⟩

theorem foldl_joined (cs : List Constraint) : ∀ (l : List Constraint) (acc : String), acc ≠ "" → l ≠ [] →
    l.foldl (fun result c => (if result ≠ "" then result ++ "," else result) ++ lookupType cs c.design) acc =
      acc ++ "," ++ joined (l.map fun c => lookupType cs c.design)
  | [], _, _, h => absurd rfl h
  | [c], acc, h, _ => by simp [h, joined]
  | c :: d :: l, acc, h, _ => by
    rw [List.foldl_cons, if_pos h, foldl_joined cs (d :: l) _ (by
      intro h'
      have := congrArg String.toList h'
      simp at this) (by simp)]
    simp [joined, String.append_assoc]

theorem extract_written (cs : List Constraint) (name : String) (args : List Constraint) (h : args ≠ [])
    (hne : ∀ a ∈ args, lookupType cs a.design ≠ "") :
    name ++ extractTypes cs args = written name (args.map fun c => lookupType cs c.design) := by
  unfold extractTypes written
  rw [if_neg (by simpa using h)]
  cases args with
  | nil => exact absurd rfl h
  | cons c l =>
    have hc := hne c (by simp)
    cases l with
    | nil => simp [joined, String.append_assoc]
    | cons d l =>
      rw [List.foldl_cons, if_neg (by simp), foldl_joined cs (d :: l) _ (by simpa using hc) (by simp)]
      simp [joined, String.append_assoc]

theorem type_replaced (cs : List Constraint) (t : TypeDecl) (hne : ∀ a ∈ t.cs, lookupType cs a.design ≠ "") :
    TypeReplaced cs t.name t.cs (if t.cs = [] then lookupType cs t.name else lookupType cs t.name ++ extractTypes cs t.cs) := by
  refine ⟨_, t.cs.map fun c => lookupType cs c.design, lookup_replaced cs _, each_map fun a _ => lookup_replaced cs _, ?_⟩
  by_cases h : t.cs = []
  · simp [h, written]
  · rw [if_neg h, extract_written cs _ _ h hne]

/-- The type arguments that are used are not empty. -/
def TypeDecl.Proper (cs : List Constraint) (t : TypeDecl) : Prop := ∀ a ∈ t.cs, ∀ y, Replaced cs a.design y → y ≠ ""

/-- **C47**, methods.  In a method of an instantiated class every type parameter is replaced by its argument,
in the return type, in the parameters and in every identifier of the body; all other names and tokens are
untouched. -/
theorem method_instantiated {cs : List Constraint} {m : Method} (hi : m.initialized = false) (hr : m.ret.Proper cs)
    (hp : ∀ p ∈ m.sig, p.type.Proper cs) : MethodInstance cs m (m.initialize cs) := by
  unfold Method.initialize
  rw [hi]
  simp only [Bool.false_eq_true, if_false]
  refine ⟨rfl, ?_, ?_, ?_⟩
  · exact type_replaced cs m.ret fun a ha => hr a ha _ (lookup_replaced cs _)
  · refine each_map fun p hp' => ?_
    have := type_replaced cs p.type fun a ha => hp p hp' a ha _ (lookup_replaced cs _)
    unfold Param.initialize
    dsimp only
    generalize hs : (if p.type.cs = [] then lookupType cs p.type.name else lookupType cs p.type.name ++ extractTypes cs p.type.cs) = s at this ⊢
    by_cases h : p.type.name = s
    · rw [if_neg (by simpa using h)]
      exact ⟨rfl, rfl, by rw [h] at this ⊢; exact this⟩
    · rw [if_pos h]
      exact ⟨rfl, rfl, this⟩
  · refine each_map fun t _ => ?_
    have := lookup_replaced cs t.content
    unfold Tok.initialize
    cases ht : t.identifier with
    | false => simp [ht]
    | true =>
      simp only [if_true]
      by_cases h : lookupType cs t.content = t.content
      · rw [if_neg (by simpa using h), ht]
        exact ⟨rfl, by rw [h] at this; exact this⟩
      · rw [if_pos h]
        exact ⟨rfl, this⟩

/-- The atomic types of the language. -/
def Atomic (name : String) : Prop :=
  name = "bool" ∨ name = "double" ∨ name = "float" ∨ name = "int" ∨ name = "int16" ∨ name = "int32" ∨ name = "int64" ∨
    name = "string" ∨ name = "void"

/-- **C47**, methods.  A parameter whose type has been replaced is passed by value if its new type is atomic, by
reference otherwise; a parameter whose type is left as it was is passed as declared. -/
theorem parameter_passing {cs : List Constraint} {m : Method} (hi : m.initialized = false) :
    Each (fun p p' => if p'.type.name = p.type.name then p'.byRef = p.byRef else (p'.byRef = false ↔ Atomic p'.type.name))
      m.sig (m.initialize cs).sig := by
  unfold Method.initialize
  rw [hi]
  simp only [Bool.false_eq_true, if_false]
  refine each_map fun p _ => ?_
  have key : ∀ s : String, Param.initialize cs p = (if p.type.name ≠ s then { p with type := ⟨s, [], s⟩, byRef := !atomicTypes.contains s } else p) →
      (if (Param.initialize cs p).type.name = p.type.name then (Param.initialize cs p).byRef = p.byRef
        else ((Param.initialize cs p).byRef = false ↔ Atomic (Param.initialize cs p).type.name)) := by
    intro s hs
    by_cases h : p.type.name = s
    · rw [if_neg (fun hn => hn h)] at hs
      rw [hs, if_pos rfl]
    · rw [if_pos h] at hs
      rw [hs]
      dsimp only
      rw [if_neg (Ne.symm h), Bool.not_eq_false']
      simp only [atomicTypes, Atomic, List.contains_eq_mem, decide_eq_true_eq, List.mem_cons, List.not_mem_nil, or_false]
  exact key _ rfl

example : ((⟨"f", ⟨"T", [], "T"⟩, [⟨"x", ⟨"T", [], "T"⟩, false, true⟩, ⟨"y", ⟨"U", [], "U"⟩, false, false⟩], [], false⟩ : Method).initialize
    [⟨0, "T", "int", ""⟩, ⟨1, "U", "List", ""⟩]).sig.map (fun p => (p.type.name, p.byRef)) = [("int", false), ("List", true)] := by decide +kernel

/-- **C47**, methods.  Instantiating a method again changes nothing, whatever the arguments. -/
theorem method_instantiated_once (cs cs' : List Constraint) (m : Method) :
    (m.initialize cs).initialize cs' = m.initialize cs := by
  unfold Method.initialize
  by_cases h : m.initialized = true <;> simp [h]

/-- `m'` is the member `m` with all type parameters replaced. -/
def MemberInstance (cs : List Constraint) (m m' : Member) : Prop :=
  m'.name = m.name ∧ TypeReplaced cs m.type m.cs (runtimeName m'.type m'.cs)

/-- `c'` is the class `c` with all type parameters replaced. -/
structure ClassInstance (cs : List Constraint) (c c' : Class) : Prop where
  name : c'.name = written c.name (cs.map Constraint.run)
  closed : c'.cs = []
  ancestors : Each (fun a a' => TypeReplaced cs a.name a.cs (runtimeName a'.name a'.cs)) c.ancestors c'.ancestors
  members : Each (MemberInstance cs) c.members c'.members
  methods : Each (MethodInstance cs) c.methods c'.methods

/-- The uses of generic types that are replaced correctly: type parameters, types without arguments, and
generic types all of whose arguments are type parameters. -/
def Member.Simple (cs : List Constraint) (m : Member) : Prop :=
  m.cs ≠ [] → (∀ c ∈ cs, c.design ≠ m.type) ∧ ∀ a ∈ m.cs, ∃ c ∈ cs, c.design = a.design

/-- Ancestors are no type parameters and have no type arguments. -/
def TypeDecl.Plain (cs : List Constraint) (t : TypeDecl) : Prop := t.cs = [] ∧ ∀ c ∈ cs, c.design ≠ t.name

theorem arguments_joined : ∀ {cs : List Constraint}, (∀ c ∈ cs, c.run ≠ "") → arguments cs = joined (cs.map Constraint.run)
  | [], _ => rfl
  | [c], h => by
    have := h c (by simp)
    simp [arguments, joined, Constraint.argument, this]
  | c :: d :: cs, h => by
    have := h c (by simp)
    have ih := arguments_joined (cs := d :: cs) fun x hx => h x (by simp [hx])
    rw [arguments_cons, ih]
    simp [joined, Constraint.argument, this]

theorem runtimeName_written {cs : List Constraint} (n : String) (h : ∀ c ∈ cs, c.run ≠ "") :
    runtimeName n cs = written n (cs.map Constraint.run) := by
  unfold runtimeName written
  by_cases hc : cs = []
  · rw [if_pos hc, if_pos (by simp [hc])]
  · rw [if_neg hc, if_neg (by simpa using hc), arguments_joined h]

theorem member_instantiated {cs : List Constraint} (hne : ∀ c ∈ cs, c.run ≠ "") {m : Member} (h : m.Simple cs) :
    MemberInstance cs m (m.fromPrototype cs) := by
  unfold Member.fromPrototype
  by_cases hc : m.cs = []
  · rw [if_neg (by simpa using hc)]
    refine ⟨rfl, _, [], lookup_replaced cs _, ?_, ?_⟩
    · rw [hc]; trivial
    · simp [hc, runtimeName, written]
  · rw [if_pos hc]
    obtain ⟨h1, h2⟩ := h hc
    have h3 : ∀ a ∈ m.cs, ∃ c, lookupConstraint cs a.design = some c ∧ c ∈ cs ∧ c.design = a.design := by
      intro a ha
      obtain ⟨c, hc, hd⟩ := h2 a ha
      unfold lookupConstraint
      cases hf : cs.find? fun c => c.design = a.design with
      | none =>
        have := List.find?_eq_none.1 hf c hc
        exact absurd hd (by simpa using this)
      | some d =>
        have := List.find?_some hf
        exact ⟨d, rfl, List.mem_of_find?_eq_some hf, by simpa using this⟩
    refine ⟨rfl, m.type, (buildRuntimeConstraints m.cs cs).map Constraint.run, .inr ⟨h1, rfl⟩, ?_, ?_⟩
    · unfold buildRuntimeConstraints
      rw [List.map_map]
      refine each_map fun a ha => ?_
      obtain ⟨c, hc, hm, hd⟩ := h3 a ha
      simp only [Function.comp, hc]
      rw [if_pos (hne c hm)]
      exact .inl ⟨c, hm, hd, rfl⟩
    · dsimp only
      refine runtimeName_written _ ?_
      unfold buildRuntimeConstraints
      intro c hc
      obtain ⟨a, ha, rfl⟩ := List.mem_map.1 hc
      obtain ⟨d, hd, hm, -⟩ := h3 a ha
      simp only [hd]
      rw [if_pos (hne d hm)]
      exact hne d hm

/-- **C47** (partial).  In an instantiated class every type parameter is replaced by its argument, and no other
name is touched.
Missing: ancestors with type arguments, and members of a generic type with an argument that is no type
parameter; the property fails for both (`ancestor_argument_refuted`, `member_argument_refuted`). -/
theorem class_instantiated_partial {cs : List Constraint} {c : Class} (hne : ∀ d ∈ cs, d.run ≠ "")
    (ha : ∀ a ∈ c.ancestors, a.Plain cs) (hm : ∀ m ∈ c.members, m.Simple cs)
    (hf : ∀ m ∈ c.methods, m.initialized = false ∧ m.ret.Proper cs ∧ ∀ p ∈ m.sig, p.type.Proper cs) :
    ClassInstance cs c (c.fromPrototype cs) where
  name := runtimeName_written _ hne
  closed := rfl
  ancestors := each_map fun a h => by
    obtain ⟨h1, h2⟩ := ha a h
    refine ⟨a.name, [], .inr ⟨h2, rfl⟩, by rw [h1]; trivial, ?_⟩
    simp [h1, runtimeName, written]
  members := each_map fun m h => member_instantiated hne (hm m h)
  methods := each_map fun m h => method_instantiated (hf m h).1 (hf m h).2.1 (hf m h).2.2

/-- The exact failure: an argument of a member's type that is no type parameter becomes `Object`. -/
theorem member_argument_lost {cs : List Constraint} {m : Member} {i : Nat} {a : Constraint} (hi : m.cs[i]? = some a)
    (h : ∀ c ∈ cs, c.design ≠ a.design) : ((m.fromPrototype cs).cs[i]?).map Constraint.run = some "Object" := by
  have hc : m.cs ≠ [] := by rintro h; rw [h] at hi; simp at hi
  have hn : lookupConstraint cs a.design = none := by
    unfold lookupConstraint
    rw [List.find?_eq_none]
    intro c hc
    simpa using h c hc
  simp [Member.fromPrototype, hc, buildRuntimeConstraints, hi, hn]

/-- `class Foo<T> { List<int> mItems; }`: in `Foo<string>` the member has the type `List<Object>`. -/
theorem member_argument_refuted : ∃ (cs : List Constraint) (m : Member),
    ¬ MemberInstance cs m (m.fromPrototype cs) ∧ (∀ c ∈ cs, c.run ≠ "") ∧
    runtimeName (m.fromPrototype cs).type (m.fromPrototype cs).cs = "List<Object>" := by
  refine ⟨[⟨0, "T", "string", ""⟩], ⟨"mItems", "List", [⟨0, "int", "int", ""⟩]⟩, ?_, by simp, by decide⟩
  rintro ⟨-, n, as, hn, has, h⟩
  have h1 : n = "List" := Replaced.unique (by simp) hn (.inr ⟨by simp, rfl⟩)
  subst h1
  cases as with
  | nil => cases has
  | cons a as =>
    obtain ⟨ha, has⟩ := has
    cases as with
    | cons _ _ => cases has
    | nil =>
      have h2 : a = "int" := Replaced.unique (by simp) ha (.inr ⟨by simp, rfl⟩)
      subst h2
      exact absurd h (by decide)

/-- `class Foo<T> implements Iterable<T>`: `Foo<int>` still inherits from `Iterable<T>`. -/
theorem ancestor_argument_refuted : ∃ (cs : List Constraint) (c : Class),
    ¬ ClassInstance cs c (c.fromPrototype cs) ∧ (∀ c ∈ cs, c.run ≠ "") ∧
    ((c.fromPrototype cs).ancestors.map fun a => runtimeName a.name a.cs) = ["Iterable<T>"] := by
  refine ⟨[⟨0, "T", "int", ""⟩], ⟨"Foo", [⟨0, "T", "T", ""⟩], [⟨"Iterable", [⟨0, "T", "T", ""⟩], "Iterable"⟩], [], []⟩, ?_, by simp, by decide⟩
  intro h
  obtain ⟨⟨n, as, hn, has, h⟩, -⟩ := h.ancestors
  have h1 : n = "Iterable" := Replaced.unique (by simp) hn (.inr ⟨by simp, rfl⟩)
  subst h1
  cases as with
  | nil => cases has
  | cons a as =>
    obtain ⟨ha, has⟩ := has
    cases as with
    | cons _ _ => cases has
    | nil =>
      have h2 : a = "int" := Replaced.unique (by simp) ha (.inl ⟨⟨0, "T", "int", ""⟩, by simp, rfl, rfl⟩)
      subst h2
      exact absurd h (by decide)

/-- The classes are stored under their names (`addBluePrint`). -/
def Stored (R : AMap String Class) : Prop := ∀ k c, R.find k = some c → c.name = k

theorem merge_run : ∀ {ds rs cs : List Constraint}, mergeConstraints ds rs = some cs → cs.map Constraint.run = rs.map Constraint.run
  | [], [], cs, h => by simp only [mergeConstraints, Option.some.injEq] at h; subst h; rfl
  | [], _ :: _, cs, h => by simp [mergeConstraints] at h
  | _ :: _, [], cs, h => by simp [mergeConstraints] at h
  | d :: ds, r :: rs, cs, h => by
    rw [mergeConstraints] at h
    cases h1 : mergeConstraints ds rs with
    | none => rw [h1] at h; cases h
    | some cs' =>
      rw [h1, Option.some.injEq] at h
      subst h
      simp [merge_run h1]

theorem arguments_congr : ∀ {cs cs' : List Constraint}, cs.map Constraint.run = cs'.map Constraint.run → arguments cs = arguments cs'
  | [], [], _ => rfl
  | [], _ :: _, h => by simp at h
  | _ :: _, [], h => by simp at h
  | [c], [d], h => by
    simp only [List.map_cons, List.map_nil, List.cons.injEq, and_true] at h
    simp [arguments, Constraint.argument, h]
  | [_], _ :: _ :: _, h => by simp at h
  | _ :: _ :: _, [_], h => by simp at h
  | c :: c' :: cs, d :: d' :: ds, h => by
    have ih := arguments_congr (cs := c' :: cs) (cs' := d' :: ds) (by simpa using (List.cons.inj h).2)
    have h1 : c.run = d.run := (List.cons.inj h).1
    rw [arguments_cons, arguments_cons, ih]
    simp [Constraint.argument, h1]

theorem runtimeName_congr {n : String} {cs cs' : List Constraint} (h : cs.map Constraint.run = cs'.map Constraint.run) :
    runtimeName n cs = runtimeName n cs' := by
  have : cs = [] ↔ cs' = [] := by
    rw [← List.map_eq_nil_iff (f := Constraint.run), h, List.map_eq_nil_iff]
  unfold runtimeName
  by_cases hc : cs = []
  · rw [if_pos hc, if_pos (this.1 hc)]
  · rw [if_neg hc, if_neg (fun h' => hc (this.2 h')), arguments_congr h]

/-- **C47**, repository.  Preparing a type makes a class of its name available, keeps all the classes there
are, and preparing it again changes nothing: an instantiation is created once. -/
theorem instantiated_once {R R' : AMap String Class} {t : TypeDecl} (hs : Stored R) (h : prepareType R t = .ok R') :
    (∃ c, R'.find (runtimeName t.name t.cs) = some c) ∧ (∀ k c, R.find k = some c → R'.find k = some c) ∧
      Stored R' ∧ prepareType R' t = .ok R' := by
  have key : ∀ {R' : AMap String Class} {c : Class}, R'.find (runtimeName t.name t.cs) = some c → prepareType R' t = .ok R' := by
    intro R' c h; simp [prepareType, h]
  unfold prepareType at h
  cases h1 : R.find (runtimeName t.name t.cs) with
  | some c =>
    rw [h1] at h
    simp only [Except.ok.injEq] at h
    subst h
    exact ⟨⟨c, h1⟩, fun _ _ h => h, hs, key h1⟩
  | none =>
    rw [h1] at h
    cases h2 : R.find t.name with
    | none => rw [h2] at h; cases h
    | some c =>
      rw [h2] at h
      dsimp only at h
      unfold createBluePrint at h
      split at h
      · cases h
      · split at h
        · cases h
        · rename_i cs hm
          split at h
          · cases h
          · dsimp only at h
            split at h
            · cases h
            · rename_i hn
              simp only [Except.ok.injEq] at h
              subst h
              have hname : (c.fromPrototype cs).name = runtimeName t.name t.cs := by
                show runtimeName c.name cs = _
                rw [hs _ _ h2, runtimeName_congr (merge_run hm)]
              have hf : AMap.find (runtimeName t.name t.cs) ((((c.fromPrototype cs).name, c.fromPrototype cs) :: R : AMap String Class)) =
                  some (c.fromPrototype cs) := by simp [AMap.find, hname]
              refine ⟨⟨_, hf⟩, ?_, ?_, key hf⟩
              · intro k d hd
                have : (c.fromPrototype cs).name ≠ k := by
                  rintro rfl
                  rw [hd] at hn
                  simp at hn
                simp [AMap.find, this, hd]
              · intro k d hd
                simp only [AMap.find] at hd
                split at hd
                · cases hd; assumption
                · exact hs k d hd

/-- `class Foo<K,V> { List<V> mItems; }`: the type of the member of `Foo<int,string>` is rejected, because the
index of `V` is compared with the index of the parameter of `List`. -/
theorem member_parameter_refuted :
    let foo : Class := ⟨"Foo", [⟨0, "K", "K", ""⟩, ⟨1, "V", "V", ""⟩], [], [⟨"mItems", "List", [⟨0, "V", "V", ""⟩]⟩], []⟩
    let list : Class := ⟨"List", [⟨0, "T", "T", ""⟩], [], [], []⟩
    let cs : List Constraint := [⟨0, "K", "int", ""⟩, ⟨1, "V", "string", ""⟩]
    let R : AMap String Class := [("Foo", foo), ("List", list), ("int", ⟨"int", [], [], [], []⟩), ("string", ⟨"string", [], [], [], []⟩)]
    let member := (foo.fromPrototype cs).members.map fun m => (⟨m.type, buildRawConstraints list.cs m.cs, m.type⟩ : TypeDecl)
    (member.map fun t => runtimeName t.name t.cs) = ["List<string>"] ∧ (∀ t ∈ member, prepareType R t = .error .mismatch) ∧
      (prepareType R ⟨"List", [⟨0, "", "string", ""⟩], "List"⟩).toOption.isSome := by
  refine ⟨by decide, ?_, by decide +kernel⟩
  intro t ht
  obtain ⟨m, hm, rfl⟩ := List.mem_map.1 ht
  obtain ⟨m', hm', rfl⟩ := List.mem_map.1 hm
  cases List.mem_singleton.1 hm'
  rfl

/-- A generic class that meets the hypotheses of `class_instantiated_partial`: a member of the parameter's type,
one of another generic type, one of a plain type, and a method. -/
def sample : Class :=
  { name := "Set", cs := [⟨0, "T", "T", ""⟩], ancestors := [⟨"Object", [], "Object"⟩]
    members := [⟨"mFirst", "T", []⟩, ⟨"mItems", "List", [⟨0, "T", "T", ""⟩]⟩, ⟨"mSize", "int", []⟩]
    methods := [⟨"insert", ⟨"List", [⟨0, "T", "T", ""⟩], "List"⟩, [⟨"value", ⟨"T", [], "T"⟩, false, true⟩],
      [⟨true, "T"⟩, ⟨true, "x"⟩, ⟨false, "T"⟩], false⟩] }

example : (∀ d ∈ [(⟨0, "T", "int", ""⟩ : Constraint)], d.run ≠ "") ∧ (∀ a ∈ sample.ancestors, a.Plain [⟨0, "T", "int", ""⟩]) ∧
    (∀ m ∈ sample.members, m.Simple [⟨0, "T", "int", ""⟩]) ∧
    (∀ m ∈ sample.methods, m.initialized = false ∧ m.ret.Proper [⟨0, "T", "int", ""⟩] ∧ ∀ p ∈ m.sig, p.type.Proper [⟨0, "T", "int", ""⟩]) := by
  refine ⟨by simp, by simp [sample, TypeDecl.Plain], by simp [sample, Member.Simple], ?_⟩
  intro m hm
  simp only [sample, List.mem_cons, List.not_mem_nil, or_false] at hm
  subst hm
  refine ⟨rfl, ?_, ?_⟩
  · intro a ha y hy
    simp only [List.mem_cons, List.not_mem_nil, or_false] at ha
    subst ha
    have : y = "int" := Replaced.unique (by simp) hy (.inl ⟨⟨0, "T", "int", ""⟩, by simp, rfl, rfl⟩)
    subst this
    decide
  · intro p hp a ha
    simp only [List.mem_cons, List.not_mem_nil, or_false] at hp
    subst hp
    simp at ha

example : (sample.fromPrototype [⟨0, "T", "int", ""⟩]).methods.map (fun m => (m.ret.combined, m.sig.map (·.type.name), m.tokens.map (·.content))) =
    [("List<int>", ["int"], ["int", "x", "T"])] := by decide

end Generic
end Verif
