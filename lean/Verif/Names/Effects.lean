import Verif.Names.Props

/-!
# C103–C107: null references, const, static, and the objects names stand for at run time
-/

namespace Verif
namespace Names

open Scope (Vis Sym Meth Decl Kind Scope Res Declares enclosing)

/-! ## C104: const variables are not modified -/

/-- The parts of a resolved path carry the constness of the variables they stand for. -/
def Faithful (w : World) (p : Part) : Prop :=
  ∀ s t k m, p.decl = .sym s → w.entity s.id = .object t k m → p.const = k ∧ p.member = m

theorem part_faithful {w : World} {n : String} {d : Decl} {p : Part} {sc : Scope} (h : part w n d = some (p, sc)) :
    Faithful w p := by
  intro s t k m hs he
  have h2 := (part_props h).2.1
  rw [hs] at h2
  subst h2
  simp only [part, he, Option.some.injEq, Prod.mk.injEq] at h
  rw [← h.1]
  exact ⟨rfl, rfl⟩

theorem resolve_faithful {w : World} {own : Option String} :
    ∀ (toks : List Tok) (b : Scope) (only : Bool) (v : Vis) (ps : List Part) (r : List Tok),
      resolve w own toks b only v = .found ps r → ∀ p ∈ ps, Faithful w p := by
  intro toks
  induction hl : toks.length using Nat.strongRecOn generalizing toks with
  | _ len ih =>
    intro b only v ps r h
    cases toks with
    | nil => cases b <;> simp [resolve] at h
    | cons t rest =>
      by_cases hb : b = .null
      · subst hb; simp [resolve] at h
      rw [resolve] at h
      rotate_left
      · exact fun hn => hb hn
      split at h
      · cases h
      · cases h
      · cases h
      · rename_i d hd
        split at h
        · cases h
        · rename_i p sc hp
          split at h
          · cases h
          · rename_i r'
            split at h
            · rename_i ps' r'' hr
              cases h
              intro q hq
              rcases List.mem_cons.mp hq with rfl | hq
              · exact part_faithful hp
              · refine ih r'.length ?_ r' rfl sc true _ ps' r hr q hq
                rw [← hl]
                simp only [List.length_cons]
                omega
            · rename_i hno
              exact absurd h (hno ps r)
          · cases h
            intro q hq
            rcases List.mem_cons.mp hq with rfl | hq
            · exact part_faithful hp
            · cases hq

theorem withThis_faithful {w : World} {own : Option String} {toks r : List Tok} {b : Scope} {p : Path}
    (h : withThis w own toks b = .path p r) : ∀ q ∈ p.parts, Faithful w q := by
  have ex : ∀ {toks}, withExceptions w own toks b = .path p r → ∀ q ∈ p.parts, Faithful w q := by
    intro toks h
    unfold withExceptions at h
    split at h
    · rename_i ps r' hr
      cases h
      exact resolve_faithful _ _ _ _ _ _ hr
    · cases h
    · cases h
  unfold withThis at h
  split at h
  · exact ex h
  · split at h
    · rename_i ps r' hr
      cases h
      exact resolve_faithful _ _ _ _ _ _ hr
    · exact ex h
    · cases h
    · cases h

/-- **C104** (partial: only variables, parameters and static members are considered, not the other members): if a
method assigns to a name, or increments or decrements it, no variable on the way to it is declared const — except in
constructors and destructors, if one of them is a member. -/
theorem const_variable_partial {w : World} {m : Method} {toks : List Tok} {b : Scope} {p : Path}
    (h : assigns w m toks b p ∨ steps w m toks b p) {q : Part} (hq : q ∈ p.parts) (hv : IsVariable w q.decl)
    (hc : DeclaredConst w q.decl) :
    m.special = true ∧ (p.viaThis = true ∨ ∃ x ∈ p.parts, x.member = true) := by
  have hf : ∃ r, withThis w m.owner toks b = .path p r := by
    rcases h with ⟨r, h, _⟩ | ⟨r, h, _⟩ <;> exact ⟨r, h⟩
  obtain ⟨r, hr⟩ := hf
  have hk : q.const = true := by
    have hfq := withThis_faithful hr q hq
    cases hd : q.decl with
    | meth _ => rw [hd] at hv; exact absurd hv (by simp [IsVariable])
    | sym s =>
      rw [hd] at hv hc
      obtain ⟨t, k, mm, he⟩ := hv
      simp only [DeclaredConst, he] at hc
      rw [(hfq s t k mm hd he).1, hc]
  have hpc : p.isConst m = true := by
    unfold Path.isConst
    rw [List.any_eq_true.mpr ⟨q, hq, hk⟩, Bool.or_true]
  have key : m.special = true ∧ p.isMember = true := by
    rcases h with ⟨r', _, h⟩ | ⟨r', _, h⟩
    · unfold mayAssign at h
      rw [hpc] at h
      cases hs : m.special <;> cases hm : p.isMember <;> simp [hs, hm] at h ⊢
    · unfold mayStep at h
      rw [hpc] at h
      cases hs : m.special <;> cases hm : p.isMember <;> simp [hs, hm] at h ⊢
  refine ⟨key.1, ?_⟩
  have := key.2
  unfold Path.isMember at this
  rw [Bool.or_eq_true, List.any_eq_true] at this
  exact this

/-- `k++` with `const int k` is rejected, `y++` is accepted. -/
example : steps prog inC (spell ["y"] [.other "++"]) block ⟨false, [⟨"y", .sym ⟨33, .pub⟩, false, false⟩]⟩ ∧
    withThis prog inC.owner (spell ["k"] [.other "++"]) block = .path ⟨false, [⟨"k", .sym ⟨34, .pub⟩, true, false⟩]⟩ [.other "++"] ∧
    mayStep inC ⟨false, [⟨"k", .sym ⟨34, .pub⟩, true, false⟩]⟩ = false ∧
    IsVariable prog (.sym ⟨34, .pub⟩) ∧ DeclaredConst prog (.sym ⟨34, .pub⟩) :=
  ⟨⟨[.other "++"], by decide, by decide⟩, by decide, by decide, ⟨_, _, _, rfl⟩, rfl⟩

/-- A call of a method that may modify its object is not accepted through a path with a const variable. -/
theorem const_call_partial {w : World} {m : Method} {toks r : List Tok} {b : Scope} {p : Path} {c : Callee}
    (h : withThis w m.owner toks b = .path p r) (ha : mayCall m p c = true) {q : Part} (hq : q ∈ p.parts)
    (hv : IsVariable w q.decl) (hc : DeclaredConst w q.decl) : c.const = true := by
  have hk : q.const = true := by
    have hfq := withThis_faithful h q hq
    cases hd : q.decl with
    | meth _ => rw [hd] at hv; exact absurd hv (by simp [IsVariable])
    | sym s =>
      rw [hd] at hv hc
      obtain ⟨t, k, mm, he⟩ := hv
      simp only [DeclaredConst, he] at hc
      rw [(hfq s t k mm hd he).1, hc]
  have hpc : p.isConst m = true := by
    unfold Path.isConst
    rw [List.any_eq_true.mpr ⟨q, hq, hk⟩, Bool.or_true]
  unfold mayCall at ha
  rw [hpc] at ha
  cases hcc : c.const with
  | true => rfl
  | false => rw [hcc] at ha; simp at ha

example : withThis prog inC.owner (spell ["k"] [.other "("]) block =
      .path ⟨false, [⟨"k", .sym ⟨34, .pub⟩, true, false⟩]⟩ [.other "("] ∧
    mayCall inC ⟨false, [⟨"k", .sym ⟨34, .pub⟩, true, false⟩]⟩ ⟨true, false, true, false⟩ = true ∧
    mayCall inC ⟨false, [⟨"k", .sym ⟨34, .pub⟩, true, false⟩]⟩ ⟨false, false, true, false⟩ = false := by decide

/-- **C104** is false for members: an ordinary method of `C` assigns to the member `limit`, declared const. -/
theorem const_member_refuted : ∃ p q, assigns prog inC (spell ["limit"] [.other "="]) block p ∧ q ∈ p.parts ∧
    DeclaredConst prog q.decl ∧ inC.special = false :=
  ⟨⟨true, [⟨"limit", .sym ⟨23, .priv⟩, false, false⟩]⟩, _, ⟨[.other "="], by decide, by decide⟩, List.mem_cons_self, rfl, rfl⟩

/-! ## C105: const methods do not modify their object -/

/-- **C105** (partial: members named without `this`): a const method neither assigns to a member of its object nor
increments or decrements it, and calls through a member only methods that are const. -/
theorem const_method_partial {w : World} {m : Method} {toks : List Tok} {b : Scope} {p : Path} (hm : m.const = true)
    (hp : p.viaThis = true) :
    ¬ assigns w m toks b p ∧ (m.special = false → ¬ steps w m toks b p) ∧
    ∀ c, mayCall m p c = true → c.const = true := by
  refine ⟨?_, ?_, ?_⟩
  · rintro ⟨r, _, h⟩
    simp [mayAssign, Path.isMember, hm, hp] at h
  · rintro hs ⟨r, _, h⟩
    simp [mayStep, Path.isConst, hm, hp, hs] at h
  · intro c h
    cases hcc : c.const with
    | true => rfl
    | false => rw [mayCall, Path.isConst, hm, hp, hcc] at h; simp at h

/-- The name of a member stands for a path that starts with `this` (`member_hides_local`), so that **C105** covers
every simple name of a member. -/
theorem const_method_simple {w : World} {m : Method} {n : String} {rest : List Tok} {c : Scope} {d : Decl} {q : Part}
    {sc b : Scope} (he : Ends rest) (hm : m.const = true) (hs : m.special = false) (hc : ownScope w m.owner = some c)
    (hn : c ≠ .null) (hd : Scope.resolve c n true .priv = .found d) (hq : part w n d = some (q, sc)) :
    ∀ p, ¬ assigns w m (spell [n] rest) b p ∧ ¬ steps w m (spell [n] rest) b p := by
  intro p
  have hw := (member_hides_local he hc hn hd hq b).1
  constructor
  · rintro ⟨r, h, ha⟩
    rw [hw] at h
    cases h
    exact (const_method_partial hm rfl).1 ⟨_, hw, ha⟩
  · rintro ⟨r, h, ha⟩
    rw [hw] at h
    cases h
    exact (const_method_partial hm rfl).2.1 hs ⟨_, hw, ha⟩

/-- `x = …` in a const method of `C`; the path is the one of the member. -/
example : withThis prog (some "C") (spell ["x"] [.other "="]) block =
      .path ⟨true, [⟨"x", .sym ⟨21, .priv⟩, false, false⟩]⟩ [.other "="] ∧
    mayAssign { inC with const := true } ⟨true, [⟨"x", .sym ⟨21, .priv⟩, false, false⟩]⟩ = false ∧
    mayAssign inC ⟨true, [⟨"x", .sym ⟨21, .priv⟩, false, false⟩]⟩ = true := by decide

/-- **C105** is false for members named with `this`: a const method of `C` assigns to `this.x`, increments it, and
calls a method that may modify the object through `this.other`. -/
theorem const_method_refuted : ∃ p p' : Path,
    assigns prog { inC with const := true } (spell ["this", "x"] [.other "="]) block p ∧
    steps prog { inC with const := true } (spell ["this", "x"] [.other "++"]) block p ∧
    (∃ q ∈ p.parts, q.decl = .sym ⟨21, .priv⟩ ∧ IsInstanceMember prog q.decl ∧ Declares clsC "x" q.decl) ∧
    withThis prog (some "C") (spell ["this", "other"] [.other "("]) block = .path p' [.other "("] ∧
    mayCall { inC with const := true } p' ⟨false, false, true, false⟩ = true :=
  ⟨⟨false, [⟨"this", .sym ⟨30, .pub⟩, false, false⟩, ⟨"x", .sym ⟨21, .priv⟩, false, false⟩]⟩,
    ⟨false, [⟨"this", .sym ⟨30, .pub⟩, false, false⟩, ⟨"other", .sym ⟨20, .priv⟩, false, false⟩]⟩,
    ⟨[.other "="], by decide, by decide⟩, ⟨[.other "++"], by decide, by decide⟩,
    ⟨⟨"x", .sym ⟨21, .priv⟩, false, false⟩, by simp, rfl, ⟨_, _, rfl⟩, .symbol (by decide)⟩, by decide, by decide⟩

/-! ## C106: static methods have no object -/

/-- **C106** (partial: only calls): a static method calls a method of its own class only if that one is static, too
(or a constructor or destructor). -/
theorem static_call_partial {m : Method} {p : Path} {c : Callee} (hm : m.static = true) (hs : c.sameScope = true)
    (hp : c.plain = true) (h : mayCall m p c = true) : c.static = true := by
  cases hc : c.static with
  | true => rfl
  | false => rw [mayCall, hm, hs, hp, hc] at h; simp at h

example : mayCall { owner := some "C", static := true } ⟨true, []⟩ ⟨true, true, true, true⟩ = true ∧
    mayCall { owner := some "C", static := true } ⟨true, []⟩ ⟨true, false, true, true⟩ = false := by decide

/-- **C106** is false for variables: a static method of `C` reads and assigns the non-static member `x`; when it runs,
there is no `this` to find it in. -/
theorem static_member_refuted : ∃ p, assigns prog { owner := some "C", static := true } (spell ["x"] [.other "="]) block p ∧
    (∃ q ∈ p.parts, IsInstanceMember prog q.decl) ∧
    evaluate (fun _ => .scope clsC) ("this" :: p.parts.map Part.name) (.mk .symbol [] [] [] [] .null clsC) = .nullPointer ∧
    target (fun _ => .scope clsC) ("this" :: p.parts.map Part.name) (.mk .symbol [] [] [] [] .null clsC) = .error :=
  ⟨⟨true, [⟨"x", .sym ⟨21, .priv⟩, false, false⟩]⟩, ⟨[.other "="], by decide, by decide⟩, ⟨_, List.mem_cons_self, ⟨_, _, rfl⟩⟩,
    by decide, by decide⟩

/-! ## C103: members of null -/

theorem resolve_nullObject (around : Scope) (n : String) :
    Scope.resolve (nullObject around) n false .designtime = Scope.resolve around n false .designtime := by
  simp only [nullObject, Scope.resolve]
  have h1 : ∀ n v, Scope.ownDecl [] [] [] [] n v = none := by
    intro n v
    simp [Scope.ownDecl, Scope.ownSymbol, Scope.ownSymbol.ext, Scope.firstNamed, AMap.find]
  simp only [h1, Scope.methodResolve_none_own, if_true, Scope.baseResult, Scope.objectResolve]
  rfl

/-- **C103** (partial: reading, and neither the scopes around the class nor the object that holds the reference declare
the name): reading a member of a null reference raises `NullPointerException`. -/
theorem null_member_partial {thing : Nat → Thing} {x n : String} {ns : List String} {s around : Scope} {y : Sym}
    (hx : Scope.resolve s x false .designtime = .found (.sym y)) (hs : s ≠ .null)
    (hy : thing y.id = .object (nullObject around)) (hb : ∀ sc ∈ enclosing around, ∀ d, ¬ Declares sc "base" d)
    (hn : ∀ sc ∈ enclosing around, ∀ d, ¬ Declares sc n d) :
    evaluate thing (x :: n :: ns) s = .nullPointer := by
  have h1 : Scope.resolve around n false .designtime = .none := by
    rcases Scope.lookup_innermost_partial around hb n .designtime with ⟨d, _, pre, sc, post, hl, hd, _⟩ | ⟨h, _⟩
    · exact absurd hd (hn sc (by rw [hl]; simp) d)
    · exact h
  have h2 : evaluate thing (n :: ns) (nullObject around) = .nullPointer := by
    rw [evaluate]
    · rw [resolve_nullObject, h1]
    · intro h; cases h
  rw [evaluate]
  · simp only [hx, hy, h2]
  · exact fun h => hs h

/-- Two linked nodes: the class is `Node { public Node next; public int value; }`, and `n.next` is null. -/
def nodeObj : Scope := .mk .object [("next", ⟨1, .pub⟩), ("value", ⟨2, .pub⟩)] [] [] [] .null (.mk .method [] [] [] [] .null .null)
def nodes : Nat → Thing
  | 0 => .object nodeObj
  | 1 => .object (nullObject nodeObj)
  | 2 => .object (.mk .object [] [] [] [] .null .null)
  | _ => .object (nullObject (.mk .method [] [] [] [] .null .null))
def main : Scope := .mk .symbol [("n", ⟨0, .pub⟩), ("m", ⟨3, .pub⟩)] [] [] [] .null .null

example : evaluate nodes ["m", "value"] main = .nullPointer ∧ evaluate nodes ["n", "value"] main = .symbol 2 ∧
    Scope.resolve main "m" false .designtime = .found (.sym ⟨3, .pub⟩) ∧
    nodes 3 = .object (nullObject (.mk .method [] [] [] [] .null .null)) := by
  refine ⟨by decide, by decide, by decide, rfl⟩

/-- **C103** is false for references that are members: at the end of a linked list, `n.next` being null,
`n.next.value` is the value of `n` itself, for reading and for assigning. -/
theorem null_member_refuted :
    nodes 1 = .object (nullObject nodeObj) ∧ Declares nodeObj "next" (.sym ⟨1, .pub⟩) ∧
    evaluate nodes ["n", "next", "value"] main = .symbol 2 ∧ evaluate nodes ["n", "value"] main = .symbol 2 ∧
    target nodes ["n", "next", "value"] main = .symbol 2 :=
  ⟨rfl, .symbol (by decide), by decide, by decide, by decide⟩

/-- **C103** is false for assignments: assigning to a member of a null reference that is found nowhere ends the
interpreter; a script cannot catch it. -/
theorem null_assign_refuted :
    target nodes ["m", "value"] main = .error ∧ evaluate nodes ["m", "value"] main = .nullPointer := by decide

theorem resolveMethod_nullObject {around : Scope} (ha : Scope.AllMethodScopes around) (n : String) (args : List String) :
    Scope.resolveMethod (nullObject around) n args false .priv = Scope.resolveMethod around n args false .priv := by
  have h1 : ∀ n v, Scope.ownDecl [] [] [] [] n v = none := by
    intro n v
    simp [Scope.ownDecl, Scope.ownSymbol, Scope.ownSymbol.ext, Scope.firstNamed, AMap.find]
  have h2 : ∀ v, Scope.firstApplicable [] n args v = none := fun v => rfl
  cases around with
  | null =>
    simp only [nullObject, Scope.resolveMethod, h1, h2, Scope.baseResult]
    rfl
  | mk k L E M X b p =>
    have hk : k ≠ .symbol := by
      obtain ⟨_, _, _, _, _, _, _, h, hk⟩ := ha (.mk k L E M X b p) (by simp [enclosing])
      cases h
      exact hk
    cases hr : Scope.resolveMethod (.mk k L E M X b p) n args false .priv <;>
      cases k <;> first
        | exact absurd rfl hk
        | (simp only [nullObject, Scope.resolveMethod.eq_4, h1, h2, Scope.baseResult, Scope.methodResolveM,
            Scope.methodResolveM.parent, Option.or_none, reduceCtorEq, if_false, if_true, Bool.false_eq_true, hr,
            Scope.objectResolveM, Scope.objectResolveM.third])

/-- **C103** (partial: calls, and neither the scopes around the class nor the object that holds the reference have a
method for the call): calling a method of a null reference raises `NullPointerException`. -/
theorem null_call_partial {thing : Nat → Thing} {x n : String} {args : List String} {s around enc : Scope} {y : Sym}
    (hx : Scope.resolve s x false .priv = .found (.sym y)) (hs : s ≠ .null)
    (henc : enc ≠ .null) (hx2 : Scope.resolve enc x false .priv = .none)
    (hy : thing y.id = .object (nullObject around)) (hk : Scope.AllMethodScopes around)
    (hb : ∀ sc ∈ enclosing around, ∀ d, ¬ Declares sc "base" d)
    (hn : ∀ sc ∈ enclosing around, ∀ m, ¬ Scope.Offers sc n args .priv m) :
    calls thing args [x, n] s enc = .none := by
  have h1 : Scope.resolveMethod around n args false .priv = .none := by
    rcases Scope.overload_innermost_partial around hk hb n args .priv with ⟨m, _, pre, sc, post, hl, hd, _⟩ | ⟨h, _⟩
    · exact absurd hd (hn sc (by rw [hl]; simp) m)
    · exact h
  have h2 : callee thing args [x, n] s false = .none := by
    rw [callee]
    · rw [hx]
      simp only [hy]
      rw [show nullObject around = .mk .object [] [] [] [] .null around from rfl, callee]
      · rw [← show nullObject around = .mk .object [] [] [] [] .null around from rfl, resolveMethod_nullObject hk, h1]
      · intro h; cases h
      · intro _ _ _ _ _ _ h; cases h
    · simp
    · exact fun h => hs h
  have h3 : callee thing args [x, n] enc false = .none := by
    rw [callee]
    · rw [hx2]
    · simp
    · exact fun h => henc h
  unfold calls
  rw [h2]
  exact h3

example : calls nodes [] ["m", "reset"] main (.mk .method [] [] [] [] .null .null) = .none ∧
    Scope.resolve main "m" false .priv = .found (.sym ⟨3, .pub⟩) := by decide

/-- A function `reset()` beside a class without one. -/
def resetAround : Scope := .mk .method [] [] [⟨7, "reset", .pub, [], false⟩] [] .null .null

/-- **C103** is false for calls: `m.reset()` with `m` null calls the function `reset` of the surroundings. -/
theorem null_call_refuted :
    calls (fun _ => .object (nullObject resetAround)) [] ["m", "reset"] main main = .found ⟨7, "reset", .pub, [], false⟩ ∧
    (∀ d, ¬ Declares (nullObject resetAround) "reset" d) := by
  refine ⟨by decide, ?_⟩
  intro d hd
  simp [nullObject, Scope.declares_iff, AMap.find] at hd

/-! ## C107: a name stands for the same declaration when the method runs -/

theorem find_filter {f : String × Sym → Bool} {n : String} {s : Sym} :
    ∀ {L : AMap String Sym}, L.find n = some s → f (n, s) = true → AMap.find n (L.filter f) = some s
  | [], h, _ => by cases h
  | (k, v) :: L, h, hf => by
    simp only [AMap.find] at h
    by_cases hk : k = n
    · rw [if_pos hk] at h
      cases h
      subst hk
      simp [hf, AMap.find]
    · rw [if_neg hk] at h
      have ih := find_filter h hf
      rw [List.filter_cons]
      split
      · simp only [AMap.find, if_neg hk]; exact ih
      · exact ih

theorem find_filter_none {f : String × Sym → Bool} {n : String} :
    ∀ {L : AMap String Sym}, L.find n = none → AMap.find n (L.filter f) = none
  | [], _ => rfl
  | (k, v) :: L, h => by
    simp only [AMap.find] at h
    by_cases hk : k = n
    · rw [if_pos hk] at h; cases h
    · rw [if_neg hk] at h
      have ih := find_filter_none (f := f) h
      rw [List.filter_cons]
      split
      · simp only [AMap.find, if_neg hk]; exact ih
      · exact ih

/-- The class and its bases have no imported symbols, no methods called like the member or `base`, and every symbol has
one of the three access levels of the language. -/
def Plain (l : List Scope) (n : String) : Prop :=
  ∀ sc ∈ l, ∃ k L M X b p, sc = .mk k L [] M X b p ∧ (∀ m ∈ M, m.name ≠ n ∧ m.name ≠ "base") ∧
    (∀ m ∈ X, m.name ≠ n ∧ m.name ≠ "base") ∧ ∀ n s, L.find n = some s → Vis.priv ≤ s.vis

theorem firstNamed_other {ms : List Meth} {n : String} (h : ∀ m ∈ ms, m.name ≠ n) (v : Vis) : Scope.firstNamed ms n v = none := by
  unfold Scope.firstNamed
  rw [Option.map_eq_none_iff, List.find?_eq_none]
  intro m hm
  simp [h m hm]

theorem ownDecl_plain {L : AMap String Sym} {M X : List Meth} {n : String} (h1 : ∀ m ∈ M, m.name ≠ n)
    (h2 : ∀ m ∈ X, m.name ≠ n) (v : Vis) :
    Scope.ownDecl L [] M X n v = match L.find n with
      | some s => if v ≤ s.vis then some (.sym s) else none
      | none => none := by
  simp only [Scope.ownDecl, firstNamed_other h1, firstNamed_other h2, Option.or_none, Scope.ownSymbol]
  cases L.find n with
  | none => rfl
  | some s => by_cases hv : v ≤ s.vis <;> simp [hv, Scope.ownSymbol.ext, AMap.find]

/-- The member `s` is found in the object at the levels at which it is visible. -/
theorem instance_lookup {w : World} {c : Scope} {l : List Scope} (hl : Scope.Lineage c l) {n : String}
    {s : Sym} (hp : Plain l n) (hi : IsInstanceMember w (.sym s)) {v : Vis} (hv : Vis.priv ≤ v) (hs : v ≤ s.vis)
    (h : Scope.resolve c n true .priv = .found (.sym s)) :
    ∀ around, Scope.resolve (instantiate w c around) n true v = .found (.sym s) := by
  have hvd : v ≠ .designtime := by rintro rfl; exact absurd hv (by decide)
  have hins : instanceSymbol w (n, s) = true := by
    obtain ⟨t, k, he⟩ := hi
    simp [instanceSymbol, he]
  have key : ∀ {k L E M X b p}, (k : Kind) ≠ .symbol → Plain [Scope.mk k L E M X b p] n →
      Scope.resolve (.mk k L E M X b p) n true .priv = .found (.sym s) →
      (L.find n = some s ∧ ∀ around, Scope.resolve (instantiate w (.mk k L E M X b p) around) n true v = .found (.sym s)) ∨
      (L.find n = none ∧ L.find "base" ≠ none ∧ Scope.resolve b n true .priv = .found (.sym s)) := by
    intro k L E M X b p hk hpl h
    obtain ⟨k', L', M', X', b', p', heq, hM, hX, hL⟩ := hpl _ List.mem_cons_self
    cases heq
    have hd := ownDecl_plain (L := L) (fun m hm => (hM m hm).1) (fun m hm => (hX m hm).1)
    have hb := ownDecl_plain (L := L) (fun m hm => (hM m hm).2) (fun m hm => (hX m hm).2)
    have hr : Scope.methodResolve (Scope.ownDecl L [] M X n .priv) (Scope.ownDecl L [] M X "base" .designtime)
        (Scope.resolve b n true .priv) (Scope.resolve p n false .priv) true .priv = .found (.sym s) := by
      cases k with
      | symbol => exact absurd rfl hk
      | method => simpa only [Scope.resolve] using h
      | object =>
        simp only [Scope.resolve] at h
        rcases Scope.objectResolve_found h with h | ⟨h, _⟩ | ⟨h, _⟩
        · exact h
        · cases h
        · cases h
    rw [hd, hb] at hr
    cases hf : L.find n with
    | some s' =>
      left
      rw [hf] at hr
      simp only [if_pos (hL n s' hf)] at hr
      cases hr
      refine ⟨rfl, fun around => ?_⟩
      simp only [instantiate, Scope.resolve]
      have : Scope.ownDecl (L.filter (instanceSymbol w)) [] M [] n v = some (.sym s) := by
        rw [ownDecl_plain (fun m hm => (hM m hm).1) (by simp), find_filter hf hins]
        simp [hs]
      rw [this]
      rfl
    | none =>
      right
      rw [hf] at hr
      simp only [Scope.methodResolve_none_own, reduceCtorEq, if_false, if_true] at hr
      cases hfb : L.find "base" with
      | none => rw [hfb] at hr; simp at hr
      | some y =>
        refine ⟨rfl, by simp, ?_⟩
        rw [hfb] at hr
        simp only [if_pos (Scope.Vis.designtime_le y.vis)] at hr
        split at hr
        · cases hr
        · exact hr
  induction hl with
  | @root k L E M X b p hk hb =>
    intro around
    rcases key hk hp h with ⟨_, h⟩ | ⟨_, h, _⟩
    · exact h around
    · cases hf : L.find "base" with
      | none => exact absurd hf h
      | some y => exact absurd (.symbol hf) (hb (.sym y))
  | @derived k L E M X b p l hk hbase hl ih =>
    intro around
    rcases key hk (fun sc hsc => hp sc (by simp at hsc; simp [hsc])) h with ⟨_, h⟩ | ⟨h1, h2, h3⟩
    · exact h around
    · have ihb := ih (fun sc hsc => hp sc (List.mem_cons_of_mem _ hsc)) h3 p
      obtain ⟨k', L', M', X', b', p', heq, hM, hX, hL⟩ := hp _ List.mem_cons_self
      cases heq
      simp only [instantiate, Scope.resolve]
      have e1 : Scope.ownDecl (L.filter (instanceSymbol w)) [] M [] n v = none := by
        rw [ownDecl_plain (fun m hm => (hM m hm).1) (by simp), find_filter_none h1]
      have e2 : ∃ y, Scope.ownDecl (L.filter (instanceSymbol w)) [] M [] "base" .designtime = some (.sym y) := by
        cases hf : L.find "base" with
        | none => exact absurd hf h2
        | some y =>
          refine ⟨y, ?_⟩
          rw [ownDecl_plain (fun m hm => (hM m hm).2) (by simp), find_filter hf (by simp [instanceSymbol])]
          simp [Scope.Vis.designtime_le y.vis]
      obtain ⟨y, e2⟩ := e2
      rw [e1, e2, ihb]
      simp [Scope.methodResolve, hvd, Scope.objectResolve]

/-- **C107** (partial: non-static members that the class itself declares, or that a base class declares at least
protected): what the compiler finds as a member of the class is what the name stands for in every object of the class. -/
theorem run_time_member_partial {w : World} {c around : Scope} {l : List Scope} (hl : Scope.Lineage c l) {n : String}
    {s : Sym} (hp : Plain l n) (hi : IsInstanceMember w (.sym s))
    (hv : Vis.prot ≤ s.vis ∨ Declares c n (.sym s))
    (h : Scope.resolve c n true .priv = .found (.sym s)) :
    Scope.resolve (instantiate w c around) n false .designtime = .found (.sym s) := by
  have hc : l.head? = some c := by cases hl <;> rfl
  cases c with
  | null => cases hl
  | mk k L E M X b p =>
    have hmem : Scope.mk k L E M X b p ∈ l := List.mem_of_head? hc
    obtain ⟨k', L', M', X', b', p', heq, hM, hX, hL⟩ := hp _ hmem
    cases heq
    have hins : instanceSymbol w (n, s) = true := by
      obtain ⟨t, k, he⟩ := hi
      simp [instanceSymbol, he]
    have hk : k ≠ .symbol := by cases hl <;> assumption
    have hr : Scope.methodResolve (Scope.ownDecl L [] M X n .priv) (Scope.ownDecl L [] M X "base" .designtime)
        (Scope.resolve b n true .priv) (Scope.resolve p n false .priv) true .priv = .found (.sym s) := by
      cases k with
      | symbol => exact absurd rfl hk
      | method => simpa only [Scope.resolve] using h
      | object =>
        simp only [Scope.resolve] at h
        rcases Scope.objectResolve_found h with h | ⟨h, _⟩ | ⟨h, _⟩
        · exact h
        · cases h
        · cases h
    rw [ownDecl_plain (fun m hm => (hM m hm).1) (fun m hm => (hX m hm).1),
      ownDecl_plain (fun m hm => (hM m hm).2) (fun m hm => (hX m hm).2)] at hr
    simp only [instantiate, Scope.resolve]
    rw [ownDecl_plain (fun m hm => (hM m hm).1) (by simp), ownDecl_plain (fun m hm => (hM m hm).2) (by simp)]
    cases hf : L.find n with
    | some s' =>
      rw [hf] at hr
      simp only [if_pos (hL n s' hf)] at hr
      cases hr
      rw [find_filter hf hins]
      simp only [if_pos (Scope.Vis.designtime_le s.vis)]
      rfl
    | none =>
      have hprot : Vis.prot ≤ s.vis := by
        rcases hv with hv | hv
        · exact hv
        · rw [Scope.declares_iff] at hv
          rcases hv with ⟨s', he, hs' | hs'⟩ | ⟨_, m, _, _, he⟩
          · rw [hf] at hs'; cases hs'
          · simp [AMap.find] at hs'
          · cases he
      rw [hf] at hr
      simp only [Scope.methodResolve_none_own, reduceCtorEq, if_false, if_true] at hr
      cases hfb : L.find "base" with
      | none => rw [hfb] at hr; simp at hr
      | some y =>
        rw [hfb] at hr
        simp only [if_pos (Scope.Vis.designtime_le y.vis)] at hr
        have hb : Scope.resolve b n true .priv = .found (.sym s) := by
          split at hr
          · cases hr
          · exact hr
        cases hl with
        | root _ hnb => exact absurd (.symbol hfb) (hnb (.sym y))
        | @derived _ _ _ _ _ _ _ l' _ _ hlb =>
          have hi' := instance_lookup hlb (fun sc hsc => hp sc (List.mem_cons_of_mem _ hsc)) hi (v := .prot) (by decide)
            hprot hb p
          have hobj : (instantiate w b p).isObject = true := by
            cases b with
            | null => cases hb
            | mk => rfl
          have hi2 : Scope.resolve (instantiate w b p) n false Vis.designtime.atLeastProt = .found (.sym s) := by
            cases b with
            | null => cases hb
            | mk k2 L2 E2 M2 X2 b2 p2 =>
              simp only [instantiate, Scope.resolve, Vis.atLeastProt] at hi' ⊢
              rcases Scope.objectResolve_found hi' with h | ⟨h, _⟩ | ⟨h, _⟩
              · simp only [show (Vis.designtime.rank < Vis.prot.rank) from by decide, if_true]
                rw [h]
                rfl
              · cases h
              · cases h
          rw [find_filter_none hf, find_filter hfb (by simp [instanceSymbol])]
          simp only [Scope.methodResolve_none_own, if_true, if_pos (Scope.Vis.designtime_le y.vis), Scope.baseResult,
            hobj, hi2]
          rfl

/-- `D` extends `B`; the program reads `shared`, declared protected in `B`. -/
def clsB : Scope := .mk .method [("shared", ⟨11, .prot⟩), ("hidden", ⟨10, .priv⟩)] [] [] [] .null .null
def clsD : Scope := .mk .method [("base", ⟨40, .pub⟩), ("x", ⟨21, .priv⟩), ("count", ⟨22, .priv⟩)] [] [] [] clsB .null

example : Scope.Lineage clsD [clsD, clsB] ∧ Plain [clsD, clsB] "shared" ∧ IsInstanceMember prog (.sym ⟨11, .prot⟩) ∧
    Scope.resolve clsD "shared" true .priv = .found (.sym ⟨11, .prot⟩) ∧
    Scope.resolve (instantiate prog clsD .null) "shared" false .designtime = .found (.sym ⟨11, .prot⟩) ∧
    Scope.resolve (instantiate prog clsD .null) "x" false .designtime = .found (.sym ⟨21, .priv⟩) := by
  refine ⟨.derived (by decide) (by decide) (.root (by decide) ?_), ?_, ⟨_, _, rfl⟩, by decide, by decide, by decide⟩
  · intro d hd
    simp [Scope.declares_iff, AMap.find] at hd
  · intro sc hsc
    simp only [List.mem_cons, List.not_mem_nil, or_false] at hsc
    have hpl : ∀ (L : AMap String Sym), (∀ e ∈ L, Vis.priv ≤ e.2.vis) → ∀ n s, L.find n = some s → Vis.priv ≤ s.vis := by
      intro L
      induction L with
      | nil => intro _ n s h; cases h
      | cons e L ih =>
        obtain ⟨k, v⟩ := e
        intro he n s h
        simp only [AMap.find] at h
        split at h
        · cases h; exact he _ List.mem_cons_self
        · exact ih (fun e h => he e (List.mem_cons_of_mem _ h)) n s h
    rcases hsc with rfl | rfl
    · exact ⟨_, _, _, _, _, _, rfl, by simp, by simp, hpl _ (by decide)⟩
    · exact ⟨_, _, _, _, _, _, rfl, by simp, by simp, hpl _ (by decide)⟩

/-- **C107** is false for static members: the compiler finds the static member `count` for the name `this.count`, which
is how it compiles the simple name `count` in a method (`member_hides_local`); an object has no such member. -/
theorem run_time_static_refuted :
    Scope.resolve clsC "count" true .priv = .found (.sym ⟨22, .priv⟩) ∧
    Scope.resolve (instantiate prog clsC .null) "count" false .designtime = .none ∧
    withThis prog (some "C") (spell ["count"] [.other ";"]) block =
      .path ⟨true, [⟨"count", .sym ⟨22, .priv⟩, false, true⟩]⟩ [.other ";"] := by decide

/-- **C107** is false for private members of base classes: the compiler accepts the name `hidden` in a method of the
derived class; an object of it does not find it — or finds another variable of that name in the surroundings. -/
theorem run_time_private_refuted :
    Scope.resolve clsD "hidden" true .priv = .found (.sym ⟨10, .priv⟩) ∧
    Scope.resolve (instantiate prog clsD .null) "hidden" false .designtime = .none ∧
    Scope.resolve (instantiate prog clsD (.mk .method [("hidden", ⟨50, .pub⟩)] [] [] [] .null .null)) "hidden" false .designtime =
      .found (.sym ⟨50, .pub⟩) := by decide

end Names
end Verif
