import Verif.Names.Effects

/-!
# C101, C105, C107: `this`, `base`, calls of const methods, the members of objects
-/

namespace Verif
namespace Names

open Scope (Vis Sym Meth Decl Kind Scope Res Declares)

theorem part_exists {w : World} (hy : ∀ t' k' m' s', w.entity s' = .blueprint t' k' m' → w.classes t' ≠ none) (y : String) (d : Decl) :
    ∃ q sc, part w y d = some (q, sc) := by
  unfold part
  split
  · exact ⟨_, _, rfl⟩
  · split
    · rename_i he
      cases hk : w.classes _ with
      | none => exact absurd hk (hy _ _ _ _ he)
      | some c => exact ⟨_, _, rfl⟩
    · exact ⟨_, _, rfl⟩
    · exact ⟨_, _, rfl⟩

/-- A name `x.y` whose first part is found: the second part is the nearest declaration that is visible at the level behind `x`. -/
theorem resolve_second {w : World} {own : Option String} {x y : String} {b sc : Scope} {only : Bool} {v : Vis} {d : Decl} {q : Part}
    {l : List Scope} {rest : List Tok} (he : Ends rest) (hb : b ≠ .null) (hx : Scope.resolve b x only (if only then v else .priv) = .found d)
    (hq : part w x d = some (q, sc)) (hl : Scope.Lineage sc l) (hv : nextVis w own x d v ≠ .designtime)
    (hy : ∀ t' k' m' s', w.entity s' = .blueprint t' k' m' → w.classes t' ≠ none) :
    (∃ d' q', Scope.FirstIn l y (nextVis w own x d v) d' ∧ q'.decl = d' ∧ q'.name = y ∧
      resolve w own (spell [x, y] rest) b only v = .found [q, q'] rest) ∨
    (Scope.NoneIn l y (nextVis w own x d v) ∧ resolve w own (spell [x, y] rest) b only v = .missing (spell [y] rest)) := by
  have hsn : sc ≠ .null := by rintro rfl; cases hl
  have step : resolve w own (spell [x, y] rest) b only v =
      match resolve w own (.word y :: rest) sc true (nextVis w own x d v) with
      | .found ps r' => .found (q :: ps) r'
      | o => o := by
    rw [show spell [x, y] rest = .word x :: .dot :: .word y :: rest from rfl, resolve]
    · simp only [Tok.content, hx, hq]
      rfl
    · exact fun h => hb h
  rw [step]
  rcases Scope.inherited_lookup hl hv y true with ⟨d', h1, h2⟩ | ⟨h1, h2⟩
  · left
    obtain ⟨q', sc', hq'⟩ := part_exists hy y d'
    obtain ⟨q1, q2, _⟩ := part_props hq'
    refine ⟨d', q', h2, q2, q1, ?_⟩
    have : resolve w own (.word y :: rest) sc true (nextVis w own x d v) = .found [q'] rest := by
      obtain ⟨tk, r, rfl, ht⟩ := he
      rw [resolve]
      · simp only [Tok.content, if_true, h1, hq']
        cases tk with
        | dot => exact absurd rfl ht
        | word _ => rfl
        | other _ => rfl
      · exact fun h => hsn h
    rw [this]
  · right
    refine ⟨h1, ?_⟩
    have : resolve w own (.word y :: rest) sc true (nextVis w own x d v) = .missing (.word y :: rest) := by
      rw [resolve]
      · simp only [Tok.content, if_true, h2]
      · exact fun h => hsn h
    rw [this]
    rfl

/-- **C101**, exact for `base.y`: it names the nearest declaration of `y` among the base classes that is at least protected.  If
there is none, only `y` is looked up, as if it stood alone (`qualified_name_refuted`). -/
theorem base_access {w : World} {own : Option String} {y : String} {s : Sym} {b c sc : Scope} {q : Part} {l : List Scope}
    {rest : List Tok} (he : Ends rest) (hc : ownScope w own = some c) (hn : c ≠ .null)
    (hx : Scope.resolve c "base" true .priv = .found (.sym s)) (hq : part w "base" (.sym s) = some (q, sc)) (hl : Scope.Lineage sc l)
    (hy : ∀ t' k' m' s', w.entity s' = .blueprint t' k' m' → w.classes t' ≠ none) :
    (∃ d q', Scope.FirstIn l y .prot d ∧ q'.decl = d ∧ q'.name = y ∧
      withThis w own (spell ["base", y] rest) b = .path ⟨true, [q, q']⟩ rest) ∨
    (Scope.NoneIn l y .prot ∧ withThis w own (spell ["base", y] rest) b = withExceptions w own (spell [y] rest) b) := by
  have hv : nextVis w own "base" (.sym s) .priv = .prot := by simp [nextVis]
  have h := resolve_second (own := own) (y := y) (v := .priv) (only := true) he hn (by simpa using hx) hq hl (by rw [hv]; decide) hy
  rw [hv] at h
  unfold withThis
  rw [hc]
  rcases h with ⟨d, q', h1, h2, h3, h4⟩ | ⟨h1, h2⟩
  · exact Or.inl ⟨d, q', h1, h2, h3, by simp only [h4]⟩
  · exact Or.inr ⟨h1, by simp only [h2]⟩

/-- **C101**, exact for `this.y`: it is accepted exactly if the own class or one of its base classes declares `y` at any level. -/
theorem this_access {w : World} {own : Option String} {y : String} {s : Sym} {b sc : Scope} {q : Part} {l : List Scope}
    {rest : List Tok} (he : Ends rest) (hown : ∀ c', ownScope w own = some c' → Scope.resolve c' "this" true .priv = .none ∧ c' ≠ .null)
    (hb : b ≠ .null) (hx : Scope.resolve b "this" false .priv = .found (.sym s)) (hq : part w "this" (.sym s) = some (q, sc))
    (hl : Scope.Lineage sc l) (hy : ∀ t' k' m' s', w.entity s' = .blueprint t' k' m' → w.classes t' ≠ none) :
    (∃ d q', Scope.FirstIn l y .priv d ∧ q'.decl = d ∧ q'.name = y ∧
      withThis w own (spell ["this", y] rest) b = .path ⟨false, [q, q']⟩ rest) ∨
    (Scope.NoneIn l y .priv ∧ withThis w own (spell ["this", y] rest) b = .rejected) := by
  have hv : nextVis w own "this" (.sym s) .pub = .priv := by simp [nextVis]
  have h := resolve_second (own := own) (y := y) (v := .pub) (only := false) he hb (by simpa using hx) hq hl (by rw [hv]; decide) hy
  rw [hv] at h
  have reduce : withThis w own (spell ["this", y] rest) b = withExceptions w own (spell ["this", y] rest) b := by
    unfold withThis
    split
    · rfl
    · rename_i c' hc'
      obtain ⟨h1, h2⟩ := hown c' hc'
      have : resolve w own (spell ["this", y] rest) c' true .priv = .missing (spell ["this", y] rest) := by
        rw [show spell ["this", y] rest = .word "this" :: .dot :: .word y :: rest from rfl, resolve]
        · simp only [Tok.content, if_true, h1]
        · exact fun h => h2 h
      rw [this]
  rw [reduce]
  unfold withExceptions
  rcases h with ⟨d, q', h1, h2, h3, h4⟩ | ⟨h1, h2⟩
  · exact Or.inl ⟨d, q', h1, h2, h3, by simp only [h4]⟩
  · exact Or.inr ⟨h1, by simp only [h2]⟩

/-! ### An example

```
public object P { private int hidden; protected int kept; }
public object D extends P { }
```
-/

def clsQ : Scope := .mk .method [("hidden", ⟨40, .priv⟩), ("kept", ⟨41, .prot⟩)] [] [] [] .null .null
def clsK : Scope := .mk .method [("base", ⟨42, .prot⟩)] [] [] [] clsQ .null

def family : World where
  entity
    | 42 => .blueprint "P" false true
    | 44 => .blueprint "D" false false
    | _ => .blueprint "int" false true
  classes
    | "P" => some clsQ
    | "D" => some clsK
    | "int" => some (.mk .method [] [] [] [] .null .null)
    | _ => none
  atomic t := t == "int"

/-- The block of a method of `D`. -/
def blockK : Scope := .mk .symbol [("this", ⟨44, .pub⟩)] [] [] [] .null .null

/-- `base.kept` is accepted, `base.hidden` is not, `this.kept` and, as the private members of base classes are found, `this.hidden`
are. -/
example : ownScope family (some "D") = some clsK ∧ Scope.resolve clsK "base" true .priv = .found (.sym ⟨42, .prot⟩) ∧
    Scope.Lineage clsQ [clsQ] ∧
    withThis family (some "D") (spell ["base", "kept"] [.other ";"]) blockK =
      .path ⟨true, [⟨"base", .sym ⟨42, .prot⟩, false, false⟩, ⟨"kept", .sym ⟨41, .prot⟩, false, false⟩]⟩ [.other ";"] ∧
    withThis family (some "D") (spell ["base", "hidden"] [.other ";"]) blockK = .rejected ∧
    withThis family (some "D") (spell ["this", "kept"] [.other ";"]) blockK =
      .path ⟨false, [⟨"this", .sym ⟨44, .pub⟩, false, false⟩, ⟨"kept", .sym ⟨41, .prot⟩, false, false⟩]⟩ [.other ";"] := by
  refine ⟨rfl, by decide, .root (by decide) ?_, by decide, by decide, by decide⟩
  intro d hd
  simp [Scope.declares_iff, AMap.find] at hd

/-! ## C105: calls -/

/-- **C105**, for calls: a const method calls a plain method of its own class only if that one is const, whatever it is called
through. -/
theorem const_method_calls {m : Method} {p : Path} {c : Callee} (hm : m.const = true) (hs : c.sameScope = true) (hp : c.plain = true)
    (h : mayCall m p c = true) : c.const = true := by
  cases hc : c.const with
  | true => rfl
  | false => rw [mayCall, hm, hs, hp, hc] at h; simp at h

/-- Through a local variable that is no constant. -/
example : mayCall { inC with const := true } ⟨false, [⟨"twin", .sym ⟨32, .pub⟩, false, false⟩]⟩ ⟨true, false, true, true⟩ = true ∧
    mayCall { inC with const := true } ⟨false, [⟨"twin", .sym ⟨32, .pub⟩, false, false⟩]⟩ ⟨false, false, true, true⟩ = false := by decide

/-! ## C107: what objects have -/

theorem find_mem {L : AMap String Sym} {n : String} {s : Sym} (h : L.find n = some s) : (n, s) ∈ L := by
  induction L with
  | nil => cases h
  | cons e L ih =>
    obtain ⟨k, x⟩ := e
    simp only [AMap.find] at h
    split at h
    · cases h; rename_i hk; rw [hk]; exact List.mem_cons_self
    · exact List.mem_cons_of_mem _ (ih h)

/-- **C107**: the symbols of an object and its base objects are `base` and the non-static members of its classes, nothing else. -/
theorem object_symbols {w : World} (c : Scope) : ∀ (around : Scope) {sc : Scope} {n : String} {s : Sym},
    sc ∈ bases (instantiate w c around) → Declares sc n (.sym s) →
      n = "base" ∨ IsInstanceMember w (.sym s) := by
  induction c with
  | null => intro around sc n s h _; simp [instantiate, bases] at h
  | mk k L E M X b p ihb _ =>
    intro around sc n s h hd
    simp only [instantiate, bases, List.mem_cons] at h
    rcases h with rfl | h
    · have hf : AMap.find n (L.filter (instanceSymbol w)) = some s := by
        cases hd with
        | symbol h => exact h
        | external h => cases h
      have hm := (List.mem_filter.1 (find_mem hf)).2
      by_cases hn : n = "base"
      · exact Or.inl hn
      · right
        simp only [instanceSymbol, beq_iff_eq, hn, Bool.or_eq_true, false_or] at hm
        split at hm
        · rename_i t k he
          exact ⟨t, k, he⟩
        · cases hm
    · exact ihb p h hd

/-- An object of `D` and its base object, which has the members of `P`; an inner class of `P` would be none of them. -/
example : bases (instantiate family clsK .null) = [instantiate family clsK .null, instantiate family clsQ .null] ∧
    Declares (instantiate family clsQ .null) "kept" (.sym ⟨41, .prot⟩) ∧ IsInstanceMember family (.sym ⟨41, .prot⟩) ∧
    instantiate family (.mk .method [("Inner", ⟨44, .pub⟩)] [] [] [] .null .null) .null = .mk .object [] [] [] [] .null .null :=
  ⟨rfl, .symbol (by decide), ⟨_, _, rfl⟩, rfl⟩

end Names
end Verif
