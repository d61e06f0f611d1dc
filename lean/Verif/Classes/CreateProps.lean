import Verif.Classes.Create
import Verif.Classes.Props

/-!
# Which classes can be instantiated
-/

namespace Verif
namespace Classes

/-- `old` is the method that a call with the types of `m` could mean. -/
def Meets (old m : Method) : Prop := old.name = m.name ∧ Scope.Accepts old.sig m.types

/-- The methods declared in the class itself, without static ones. -/
def Blue.own (c : Blue) : List Method := (c.methods.map Prod.fst).filter fun m => m.layout ≠ .static

/-- The methods declared by the class (`0`), the class it extends (`1`), and so on. -/
def Declares : Blue → Nat → Method → Prop
  | c, 0, m => m ∈ c.own
  | .mk _ (some b) _ _ _, n + 1, m => Declares b n m
  | .mk _ none _ _ _, _ + 1, _ => False

/-- No two methods of the same class fit the same call, and a class implements only abstract methods of the class
it extends directly. -/
def Plain : Blue → Prop
  | .mk ms none is a i => (Blue.mk ms none is a i).own.Pairwise fun x y => ¬ Meets x y ∧ ¬ Meets y x
  | .mk ms (some b) is a i => (Blue.mk ms (some b) is a i).own.Pairwise (fun x y => ¬ Meets x y ∧ ¬ Meets y x) ∧ Plain b ∧
    ∀ m ∈ (Blue.mk ms (some b) is a i).own, ∀ n x, Declares b (n + 1) x → x.layout = .abstract → ¬ Meets x m

theorem findOwn_some {l : List Method} {m x : Method} {v : Scope.Vis} (h : findOwn l m.name m.types v = some x) : x ∈ l ∧ Meets x m := by
  have := List.find?_some h
  simp only [Bool.and_eq_true, beq_iff_eq, Scope.isSignatureValid_iff] at this
  exact ⟨List.mem_of_find?_eq_some h, this.2⟩

theorem findOwn_none {l : List Method} {m : Method} : findOwn l m.name m.types .designtime = none ↔ ∀ x ∈ l, ¬ Meets x m := by
  unfold findOwn
  rw [List.find?_eq_none]
  simp [Scope.isSignatureValid_iff, Meets, Scope.Vis.rank]

theorem findMethod_some {m x : Method} : ∀ {o : Levels} {v : Scope.Vis}, findMethod o m.name m.types v = some x → (∃ l ∈ o, x ∈ l) ∧ Meets x m
  | [], _, h => by rw [findMethod] at h; cases h
  | [l], _, h => by
    rw [findMethod] at h
    exact ⟨⟨l, by simp, (findOwn_some h).1⟩, (findOwn_some h).2⟩
  | l :: b :: bs, v, h => by
    have key : ∀ {v}, findMethod (b :: bs) m.name m.types v = some x → (∃ l' ∈ l :: b :: bs, x ∈ l') ∧ Meets x m := by
      intro v h
      obtain ⟨⟨l', h1, h2⟩, h3⟩ := findMethod_some h
      exact ⟨⟨l', List.mem_cons_of_mem _ h1, h2⟩, h3⟩
    rw [findMethod] at h
    split at h
    · exact key h
    · rename_i r hr
      have hr := findOwn_some hr
      split at h
      · cases h; exact ⟨⟨l, by simp, hr.1⟩, hr.2⟩
      · rename_i t ht
        split at h
        · cases h; exact key ht
        · cases h; exact ⟨⟨l, by simp, hr.1⟩, hr.2⟩

/-- A method fits the call and may be called. -/
theorem findOwn_visible {l : List Method} {m x : Method} {v : Scope.Vis} (h : findOwn l m.name m.types v = some x) : v.rank ≤ x.vis.rank := by
  have := List.find?_some h
  simp only [Bool.and_eq_true, decide_eq_true_eq] at this
  exact this.1

/-- Whatever a lookup in an object may see, a method it finds in a base object is public or protected. -/
theorem findMethod_visible {m x : Method} : ∀ {o : Levels} {v : Scope.Vis}, findMethod o m.name m.types v = some x → v.rank ≤ x.vis.rank
  | [], _, h => by rw [findMethod] at h; cases h
  | [l], _, h => by rw [findMethod] at h; exact findOwn_visible h
  | l :: b :: bs, v, h => by
    have key : ∀ {x}, findMethod (b :: bs) m.name m.types (if v.rank < Scope.Vis.prot.rank then .prot else v) = some x → v.rank ≤ x.vis.rank := by
      intro x h
      have := findMethod_visible h
      split at this <;> omega
    rw [findMethod] at h
    split at h
    · exact key h
    · rename_i r hr
      have hr := findOwn_visible hr
      split at h
      · cases h; exact hr
      · rename_i t ht
        split at h
        · cases h; exact key ht
        · cases h; exact hr

/-- **C74** (partial).  A method that a call on an object reaches is declared in its class, or it is not private. -/
theorem object_private_hidden_partial {l : List Method} {bs : Levels} {m x : Method} {v : Scope.Vis}
    (h : findMethod (l :: bs) m.name m.types v = some x) : (x ∈ l ∧ Meets x m) ∨ x.vis = .pub ∨ x.vis = .prot := by
  cases bs with
  | nil => rw [findMethod] at h; exact .inl (findOwn_some h)
  | cons b bs =>
    have key : ∀ {x}, findMethod (b :: bs) m.name m.types (if v.rank < Scope.Vis.prot.rank then .prot else v) = some x → x.vis = .pub ∨ x.vis = .prot := by
      intro x h
      have := findMethod_visible h
      have : Scope.Vis.prot.rank ≤ x.vis.rank := by split at this <;> omega
      revert this
      cases x.vis <;> simp [Scope.Vis.rank]
    rw [findMethod] at h
    split at h
    · exact .inr (key h)
    · rename_i r hr
      have hr := findOwn_some hr
      split at h
      · cases h; exact .inl hr
      · rename_i t ht
        split at h
        · cases h; exact .inr (key ht)
        · cases h; exact .inl hr

/-- A private and a public method of the base: only the public one is found. -/
example : (findMethod [[], [⟨1, "f", [], "void", .virtual, .method, false, true, .priv⟩, ⟨2, "f", [], "void", .virtual, .method, false, true, .pub⟩]]
    "f" [] .designtime).map (·.id) = some 2 := by decide

/-- Every method of the object comes from the class of that level. -/
def Within : Blue → Levels → Prop
  | .mk ms none is a i, o => ∃ l, o = [l] ∧ ∀ x ∈ l, x ∈ (Blue.mk ms none is a i).own
  | .mk ms (some b) is a i, o => ∃ l bs, o = l :: bs ∧ (∀ x ∈ l, x ∈ (Blue.mk ms (some b) is a i).own) ∧ Within b bs

theorem Within.level : ∀ {c : Blue} {o : Levels} {l : List Method} {x : Method}, Within c o → l ∈ o → x ∈ l → ∃ n, Declares c n x
  | .mk ms none is a i, _, l, x, ⟨l', rfl, h⟩, hl, hx => by
    rw [List.mem_singleton] at hl
    subst hl
    exact ⟨0, by rw [Declares]; exact h x hx⟩
  | .mk ms (some b) is a i, _, l, x, ⟨l', bs, rfl, h, hb⟩, hl, hx => by
    rcases List.mem_cons.1 hl with rfl | hl
    · exact ⟨0, by rw [Declares]; exact h x hx⟩
    · obtain ⟨n, hn⟩ := Within.level hb hl hx
      exact ⟨n + 1, by rw [Declares]; exact hn⟩

/-- The direct base object, and what stands above it. -/
theorem Within.base {b : Blue} {bs : Levels} (h : Within b bs) : ∃ l rest, bs = l :: rest ∧
    (∀ l' ∈ rest, ∀ x ∈ l', ∃ n, Declares b (n + 1) x) ∧ ∀ p : Method → Bool, Within b (l.filter p :: rest) := by
  match b, h with
  | .mk ms none is a i, ⟨l, hl, h⟩ =>
    exact ⟨l, [], hl, by simp, fun p => ⟨_, rfl, fun x hx => h x (List.mem_filter.1 hx).1⟩⟩
  | .mk ms (some b') is a i, ⟨l, rest, hl, h, hb⟩ =>
    refine ⟨l, rest, hl, ?_, fun p => ⟨_, rest, rfl, fun x hx => h x (List.mem_filter.1 hx).1, hb⟩⟩
    intro l' hl' x hx
    obtain ⟨n, hn⟩ := hb.level hl' hx
    exact ⟨n, by rw [Declares]; exact hn⟩

/-- The base objects fit the class that is extended. -/
def BaseOf : Option Blue → Levels → Prop
  | none, bs => bs = []
  | some b, bs => Within b bs

/-- No abstract method above the class that is extended fits the method. -/
def NoneAbove : Option Blue → Method → Prop
  | none, _ => True
  | some b, m => ∀ n x, Declares b (n + 1) x → x.layout = .abstract → ¬ Meets x m

theorem dropAbstract_plain {l : List Method} {bs : Levels} {m : Method} (hl : ∀ x ∈ l, ¬ Meets x m) (base : Option Blue)
    (hb : BaseOf base bs) (hn : NoneAbove base m) :
    ∃ bs', dropAbstract (l :: bs) m = (.accepted, l :: bs') ∧ BaseOf base bs' := by
  unfold dropAbstract
  split
  · exact ⟨bs, rfl, hb⟩
  · rename_i old hold
    obtain ⟨⟨l', hl', hx⟩, hm⟩ := findMethod_some hold
    split
    · exact ⟨bs, rfl, hb⟩
    · rename_i hab
      rcases List.mem_cons.1 hl' with rfl | hl'
      · exact absurd hm (hl old hx)
      · cases base with
        | none => rw [BaseOf] at hb; subst hb; cases hl'
        | some b =>
          obtain ⟨l₁, rest, rfl, hrest, hw⟩ := Within.base hb
          rcases List.mem_cons.1 hl' with rfl | hl'
          · dsimp only
            rw [if_pos (List.any_eq_true.2 ⟨old, hx, by simp⟩)]
            exact ⟨_, rfl, hw _⟩
          · obtain ⟨k, hk⟩ := hrest l' hl' old hx
            exact absurd hm (hn k old hk (Decidable.not_not.1 hab))

theorem defineMethods_plain (base : Option Blue) : ∀ (ms : List (Method × Nat)) (l : List Method) (bs : Levels),
    ((ms.map Prod.fst).filter fun m => m.layout ≠ .static).Pairwise (fun x y => ¬ Meets x y ∧ ¬ Meets y x) →
    (∀ x ∈ l, ∀ y ∈ (ms.map Prod.fst).filter (fun m => m.layout ≠ .static), ¬ Meets x y) →
    BaseOf base bs → (∀ m ∈ (ms.map Prod.fst).filter (fun m => m.layout ≠ .static), NoneAbove base m) →
    ∃ l' bs', defineMethods (l :: bs) ms = (.accepted, l' :: bs') ∧
      (∀ x, x ∈ l' ↔ x ∈ l ∨ x ∈ (ms.map Prod.fst).filter fun m => m.layout ≠ .static) ∧ BaseOf base bs' := by
  intro ms
  induction ms with
  | nil =>
    intro l bs _ _ hb _
    exact ⟨l, bs, rfl, by simp, hb⟩
  | cons mk ms ih =>
    obtain ⟨m, k⟩ := mk
    intro l bs hp hl hb hn
    rw [defineMethods]
    by_cases hs : m.layout = .static
    · rw [if_pos hs]
      rw [List.map_cons, List.filter_cons_of_neg (by simp [hs])] at hp hl hn ⊢
      exact ih l bs hp hl hb hn
    · rw [if_neg hs]
      rw [List.map_cons, List.filter_cons_of_pos (by simp [hs])] at hp hl hn ⊢
      obtain ⟨bs₁, h1, h2⟩ := dropAbstract_plain (l := l) (bs := bs) (m := m) (fun x hx => hl x hx m (by simp)) base hb (hn m (by simp))
      have hadd : addOwn (l :: bs₁) m k = (.accepted, (l.take k ++ m :: l.drop k) :: bs₁) := by
        rw [addOwn]
        rw [findOwn_none.2 fun x hx => hl x hx m (by simp)]
      obtain ⟨hp1, hp2⟩ := List.pairwise_cons.1 hp
      obtain ⟨l', bs', h3, h4, h5⟩ := ih (l.take k ++ m :: l.drop k) bs₁ hp2 (by
          intro x hx y hy
          rcases mem_take_drop.1 hx with rfl | hx
          · exact (hp1 y hy).1
          · exact hl x hx y (List.mem_cons_of_mem _ hy)) h2 fun y hy => hn y (List.mem_cons_of_mem _ hy)
      refine ⟨l', bs', ?_, ?_, h5⟩
      · rw [defineObjectMethod, h1]
        dsimp only
        rw [hadd]
        exact h3
      · intro x
        rw [h4, mem_take_drop, List.mem_cons]
        constructor
        · rintro ((h | h) | h)
          · exact .inr (.inl h)
          · exact .inl h
          · exact .inr (.inr h)
        · rintro (h | h | h)
          · exact .inl (.inr h)
          · exact .inl (.inl h)
          · exact .inr h

theorem createUserType_plain : ∀ {c : Blue}, Plain c → ∃ l bs, createUserType c = (.accepted, l :: bs) ∧ (∀ x, x ∈ l ↔ x ∈ c.own) ∧ Within c (l :: bs)
  | .mk ms none is a i, h => by
    rw [Plain] at h
    obtain ⟨l, bs, h1, h2, h3⟩ := defineMethods_plain none ms [] [] h (by simp) rfl fun _ _ => trivial
    rw [BaseOf] at h3
    subst h3
    refine ⟨l, [], by rw [createUserType]; exact h1, fun x => by rw [h2]; simp [Blue.own, Blue.methods], ⟨l, rfl, fun x hx => ?_⟩⟩
    have := (h2 x).1 hx
    simpa [Blue.own, Blue.methods] using this
  | .mk ms (some b) is a i, h => by
    rw [Plain] at h
    obtain ⟨hp, hb, hab⟩ := h
    obtain ⟨l₀, bs₀, h0, -, hw⟩ := createUserType_plain hb
    obtain ⟨l, bs, h1, h2, h3⟩ := defineMethods_plain (some b) ms [] (l₀ :: bs₀) hp (by simp) hw hab
    refine ⟨l, bs, by rw [createUserType, h0]; exact h1, fun x => by rw [h2]; simp [Blue.own, Blue.methods], ⟨l, bs, rfl, fun x hx => ?_, h3⟩⟩
    have := (h2 x).1 hx
    simpa [Blue.own, Blue.methods] using this

/-- **C88** (partial).  In a hierarchy without methods of the same class that fit the same call, and in which a
class implements abstract methods of the class it extends directly only, an object can be created exactly if
the class itself declares no abstract method.
Missing: abstract methods that are inherited or required by interfaces, and classes that are declared abstract
or are interfaces (`inherited_abstract_refuted`, `interface_refuted`, `abstract_class_refuted`); implementing
methods further up, and overloads with default values (`distant_abstract_refuted`, `overload_order_refuted`). -/
theorem instantiable_partial {c : Blue} (h : Plain c) : (createInstance c).1 = .accepted ↔ ∀ m ∈ c.own, m.layout ≠ .abstract := by
  obtain ⟨l, bs, h1, h2, -⟩ := createUserType_plain h
  rw [createInstance, h1]
  show (if (l.any fun m => decide (m.layout = Layout.abstract)) = true then (Outcome.rejected, l :: bs) else (Outcome.accepted, l :: bs)).1 = _ ↔ _
  by_cases ha : ∃ m ∈ c.own, m.layout = .abstract
  · obtain ⟨m, hm, hl⟩ := ha
    rw [if_pos (List.any_eq_true.2 ⟨m, (h2 m).2 hm, by simp [hl]⟩)]
    exact ⟨nofun, fun h => absurd hl (h m hm)⟩
  · have hno : ∀ m ∈ c.own, m.layout ≠ .abstract := fun m hm hl => ha ⟨m, hm, hl⟩
    rw [if_neg]
    · exact ⟨fun _ => hno, fun _ => rfl⟩
    · rw [List.any_eq_true]
      rintro ⟨m, hm, hl⟩
      exact hno m ((h2 m).1 hm) (by simpa using hl)

/-- `Object { virtual string ToString(); }`. -/
def root : Blue := .mk [(⟨1, "ToString", [], "string", .virtual, .method, false, true, .pub⟩, 0)] none [] false false

/-- `abstract object Shape { abstract float area(); }`. -/
def shapeClass : Blue := .mk [(⟨2, "area", [], "float", .abstract, .method, false, true, .pub⟩, 0)] (some root) [] true false

/-- `object Circle extends Shape { override float area(); string ToString(); }`. -/
def circle : Blue := .mk [(⟨3, "area", [], "float", .override, .method, false, true, .pub⟩, 0),
  (⟨4, "ToString", [], "string", .override, .method, false, true, .pub⟩, 0)] (some shapeClass) [] false false

example : Plain circle ∧ (∀ m ∈ circle.own, m.layout ≠ .abstract) ∧ ∃ m ∈ shapeClass.own, m.layout = .abstract := by
  refine ⟨?_, by decide, by decide⟩
  have hown : circle.own = [⟨3, "area", [], "float", .override, .method, false, true, .pub⟩,
    ⟨4, "ToString", [], "string", .override, .method, false, true, .pub⟩] := rfl
  refine ⟨?_, ⟨List.pairwise_singleton _ _, List.pairwise_singleton _ _, ?_⟩, ?_⟩
  · show circle.own.Pairwise _
    rw [hown]
    simp [Meets]
  · intro m _ n x hx
    exact absurd hx (by intro h; exact h)
  · intro m _ n x hx hab
    cases n with
    | zero =>
      have : x = ⟨1, "ToString", [], "string", .virtual, .method, false, true, .pub⟩ := List.mem_singleton.1 hx
      rw [this] at hab
      cases hab
    | succ n => exact absurd hx (by intro h; exact h)

/-- A class that does not implement an abstract method of its ancestor can be instantiated; calling the method
finds the abstract one. -/
theorem inherited_abstract_refuted : ∃ c : Blue, (createInstance c).1 = .accepted ∧
    (findMethod (createInstance c).2 "area" [] .pub).map Method.layout = some .abstract :=
  ⟨.mk [] (some shapeClass) [] false false, by decide, by decide⟩

/-- A class that does not implement the method of its interface can be instantiated; the object has no such
method. -/
theorem interface_refuted : ∃ c i : Blue, i ∈ c.interfaces ∧ (∃ m ∈ i.own, m.layout = .abstract ∧ m.name = "run") ∧
    (createInstance c).1 = .accepted ∧ findMethod (createInstance c).2 "run" [] .designtime = none :=
  ⟨.mk [] (some root) [.mk [(⟨9, "run", [], "void", .abstract, .method, false, true, .pub⟩, 0)] none [] false true] false false,
    .mk [(⟨9, "run", [], "void", .abstract, .method, false, true, .pub⟩, 0)] none [] false true,
    List.mem_singleton.2 rfl, ⟨_, List.mem_singleton.2 rfl, rfl, rfl⟩, by decide, by decide⟩

/-- A class that is declared abstract, and an interface, can be instantiated if they declare no method. -/
theorem abstract_class_refuted : (createInstance (.mk [] (some root) [] true false)).1 = .accepted ∧
    (createInstance (.mk [] none [] false true)).1 = .accepted := by
  decide

/-- A class that implements an abstract method of the class its ancestor extends leaves a deleted method in use. -/
theorem distant_abstract_refuted : ∃ c b a : Blue, c.base = some b ∧ b.base = some a ∧
    (∃ m ∈ a.own, ∃ m' ∈ c.own, m.layout = .abstract ∧ m'.layout = .override ∧ Meets m m') ∧ (createInstance c).1 = .undefined :=
  ⟨.mk [(⟨5, "area", [], "float", .override, .method, false, true, .pub⟩, 0)] (some (.mk [] (some shapeClass) [] true false)) [] false false,
    .mk [] (some shapeClass) [] true false, shapeClass, rfl, rfl,
    ⟨_, List.mem_singleton.2 rfl, _, List.mem_singleton.2 rfl, rfl, rfl, rfl, (Scope.isSignatureValid_iff _ _).1 (by decide)⟩, by decide⟩

/-- `void f( int )` and then `void f( int, int = 0 )` is accepted by the compiler; whether an object can be created
depends on the addresses of the methods. -/
theorem overload_order_refuted : ∃ f g : Method, (analyse {} [(f, 0), (g, 1)]).isSome = true ∧
    (createInstance (.mk [(f, 0), (g, 1)] none [] false false)).1 = .accepted ∧
    (createInstance (.mk [(g, 0), (f, 1)] none [] false false)).1 = .rejected :=
  ⟨⟨1, "f", [⟨"int", false⟩], "void", .virtual, .method, false, true, .pub⟩,
    ⟨2, "f", [⟨"int", false⟩, ⟨"int", true⟩], "void", .virtual, .method, false, true, .pub⟩, by decide, by decide, by decide⟩

end Classes
end Verif
