import Verif.Names.Lemmas

/-!
# C100–C107: the meaning of qualified names, const and null
-/

namespace Verif
namespace Names

open Scope (Vis Sym Meth Decl Kind Scope Res Declares)

/-! ## A program for the examples

```
public object A { private int secret; public int open; }
public object C { private A other; private int x; private static int count; private const int limit; … }
```
-/

def clsA : Scope := .mk .method [("secret", ⟨10, .priv⟩), ("open", ⟨11, .pub⟩)] [] [] [] .null .null
def clsC : Scope := .mk .method
  [("other", ⟨20, .priv⟩), ("x", ⟨21, .priv⟩), ("count", ⟨22, .priv⟩), ("limit", ⟨23, .priv⟩)] [] [] [] .null .null

def prog : World where
  entity
    | 10 => .blueprint "int" false true
    | 11 => .blueprint "int" false true
    | 20 => .blueprint "A" false true
    | 21 => .blueprint "int" false true
    | 22 => .object "int" false true
    | 23 => .blueprint "int" true true
    | 30 => .blueprint "C" false false
    | 31 => .object "A" false false
    | 32 => .object "C" false false
    | 33 => .object "int" false false
    | 34 => .object "int" true false
    | 35 => .object "int" false false
    | _ => .object "void" false false
  classes
    | "A" => some clsA
    | "C" => some clsC
    | "int" => some (.mk .method [] [] [] [] .null .null)
    | _ => none
  atomic t := t == "int"

/-- The block of a method of `C` with locals `A a; C twin; int y; const int k; int x;`. -/
def block : Scope := .mk .symbol
  [("this", ⟨30, .pub⟩), ("a", ⟨31, .pub⟩), ("twin", ⟨32, .pub⟩), ("y", ⟨33, .pub⟩), ("k", ⟨34, .pub⟩),
    ("x", ⟨35, .pub⟩)] [] [] [] .null .null

def inC : Method := { owner := some "C" }

/-! ## C100: a qualified name stands for the member it names -/

/-- **C100**, exactly what is true: an accepted name covers exactly the tokens it is spelled with, every further name
in the path is a member of what the name before it stands for, and the path consists of all the names — or, if the
first name is a member of the own class, possibly only of the last ones. -/
theorem qualified_name_exact {w : World} {own : Option String} {ns : List String} {rest r : List Tok} {b : Scope} {p : Path}
    (hn : ns ≠ []) (he : Ends rest) (h : withThis w own (spell ns rest) b = .path p r) :
    r = rest ∧ Selects w p.parts ∧
    (p.parts.map Part.name = ns ∨
      ∃ k, 0 < k ∧ k < ns.length ∧ p.parts.map Part.name = ns.drop k ∧ p.viaThis = false ∧
        ∃ n d c, ns.head? = some n ∧ ownScope w own = some c ∧ MemberOf c n d) ∧
    ∃ x xs, p.parts = x :: xs ∧
      (p.viaThis = true → ∃ c, ownScope w own = some c ∧ MemberOf c x.name x.decl) ∧
      (p.viaThis = false → Scope.resolve b x.name false .priv = .found x.decl) := by
  have ex : ∀ {ms : List String}, ms ≠ [] → withExceptions w own (spell ms rest) b = .path p r →
      r = rest ∧ Selects w p.parts ∧ p.parts.map Part.name = ms ∧ p.viaThis = false ∧
      ∃ x xs, p.parts = x :: xs ∧ Scope.resolve b x.name false .priv = .found x.decl := by
    intro ms hm h
    unfold withExceptions at h
    split at h
    · rename_i ps r' hr
      cases h
      obtain ⟨h1, h2, h3, _, x, xs, h4, h5⟩ := resolve_found he ms b false .pub ps r hm hr
      exact ⟨h1, h3, h2, rfl, x, xs, h4, h5⟩
    · cases h
    · cases h
  unfold withThis at h
  split at h
  · obtain ⟨h1, h2, h3, h4, x, xs, h5, h6⟩ := ex hn h
    exact ⟨h1, h2, Or.inl h3, x, xs, h5, fun hv => (by rw [h4] at hv; cases hv), fun _ => h6⟩
  · rename_i c hc
    split at h
    · rename_i ps r' hr
      cases h
      obtain ⟨h1, h2, h3, _, x, xs, h4, h5⟩ := resolve_found he ns c true .priv ps r hn hr
      refine ⟨h1, h3, Or.inl h2, x, xs, h4, fun _ => ⟨c, hc, ?_⟩, fun hv => by cases hv⟩
      exact only_declares h5
    · rename_i r' hr
      obtain ⟨k, hk, hr', hd⟩ := resolve_missing he ns c true .priv r' hn hr
      subst hr'
      have hne : ns.drop k ≠ [] := by
        intro hh
        rw [List.drop_eq_nil_iff] at hh
        omega
      obtain ⟨h1, h2, h3, h4, x, xs, h5, h6⟩ := ex hne h
      refine ⟨h1, h2, ?_, x, xs, h5, fun hv => (by rw [h4] at hv; cases hv), fun _ => h6⟩
      by_cases hz : k = 0
      · subst hz
        exact Or.inl (by simpa using h3)
      · obtain ⟨n, d, e1, e2⟩ := hd hz
        exact Or.inr ⟨k, by omega, hk, h3, h4, n, d, c, e1, hc, only_declares e2⟩
    · cases h
    · cases h

/-- **C100** (partial: the first name is no member of the own class, or the name is not qualified): the path consists
of exactly the names that are written, each a member of what the one before it stands for. -/
theorem qualified_name_partial {w : World} {own : Option String} {n : String} {ns : List String} {rest r : List Tok}
    {b : Scope} {p : Path} (he : Ends rest)
    (hm : ns = [] ∨ ∀ c d, ownScope w own = some c → ¬ MemberOf c n d)
    (h : withThis w own (spell (n :: ns) rest) b = .path p r) :
    p.parts.map Part.name = n :: ns ∧ r = rest ∧ Selects w p.parts := by
  obtain ⟨h1, h2, h3, _⟩ := qualified_name_exact (by simp) he h
  refine ⟨?_, h1, h2⟩
  rcases h3 with h3 | ⟨k, hk, hl, _, _, n', d, c, e1, e2, e3⟩
  · exact h3
  · cases e1
    rcases hm with rfl | hm
    · simp at hl; omega
    · exact absurd e3 (hm c d e2)

/-- `a.open` in a method of `C`. -/
example : withThis prog (some "C") (spell ["a", "open"] [.other ";"]) block =
      .path ⟨false, [⟨"a", .sym ⟨31, .pub⟩, false, false⟩, ⟨"open", .sym ⟨11, .pub⟩, false, false⟩]⟩ [.other ";"] ∧
    (∀ c d, ownScope prog (some "C") = some c → ¬ MemberOf c "a" d) := by
  refine ⟨by decide, ?_⟩
  intro c d hc ⟨sc, hsc, hd⟩
  have : c = clsC := by
    have h : ownScope prog (some "C") = some clsC := rfl
    rw [h] at hc; exact (Option.some.inj hc).symm
  subst this
  simp only [clsC, bases, List.mem_cons, List.not_mem_nil, or_false] at hsc
  subst hsc
  simp [Scope.declares_iff, AMap.find] at hd

/-- **C100** is false: in a method of `C`, `other.y` with the member `other` of class `A`, which has no member `y`, is
accepted, and stands for the local variable `y`. -/
theorem qualified_name_refuted :
    withThis prog (some "C") (spell ["other", "y"] [.other ";"]) block =
      .path ⟨false, [⟨"y", .sym ⟨33, .pub⟩, false, false⟩]⟩ [.other ";"] ∧
    (∀ d, ¬ MemberOf clsA "y" d) ∧ Declares clsC "other" (.sym ⟨20, .priv⟩) ∧
    prog.entity 20 = .blueprint "A" false true ∧ Declares block "y" (.sym ⟨33, .pub⟩) := by
  refine ⟨by decide, ?_, .symbol (by decide), rfl, .symbol (by decide)⟩
  intro d ⟨sc, hsc, hd⟩
  simp only [clsA, bases, List.mem_cons, List.not_mem_nil, or_false] at hsc
  subst hsc
  simp [Scope.declares_iff, AMap.find] at hd

/-! ## C101: access levels of members -/

theorem nextVis_closed {w : World} {own : Option String} {n : String} {d : Decl} {p : Part} {sc : Scope} (v : Vis)
    (hp : part w n d = some (p, sc)) (h : ¬ Opens w own p) : nextVis w own n d v = v := by
  obtain ⟨h1, h2, _⟩ := part_props hp
  simp only [Opens, not_or, h1, h2] at h
  unfold nextVis
  rw [if_neg h.2.1, if_neg h.1, if_neg]
  intro ho
  apply h.2.2
  unfold ownObject at ho
  split at ho
  · cases ho
  · split at ho
    · rename_i s _ _ t k m he
      exact ⟨s, t, k, m, rfl, he, by simpa using ho⟩
    · cases ho

theorem resolve_access {w : World} {own : Option String} {rest : List Tok} (he : Ends rest) :
    ∀ (ns : List String) (b : Scope) (only : Bool) (v : Vis) (ps : List Part) (r : List Tok), ns ≠ [] →
      resolve w own (spell ns rest) b only v = .found ps r →
      ∀ pre y post, ps = pre ++ y :: post → (∀ x ∈ pre, ¬ Opens w own x) → (only = true ∨ pre ≠ []) → v ≤ y.decl.vis := by
  intro ns
  induction ns with
  | nil => intro b only v ps r h; exact absurd rfl h
  | cons n ns ih =>
    intro b only v ps r _ h pre y post hps hcl ho
    cases pre with
    | nil =>
      obtain ⟨_, _, _, _, q, qs, hq, hf⟩ := resolve_found he (n :: ns) b only v ps r (by simp) h
      rcases ho with rfl | ho
      · rw [hps] at hq
        cases hq
        exact Scope.access_enforced _ _ _ _ _ hf
      · exact absurd rfl ho
    | cons x pre =>
      rcases spell_ends (ns := ns) (n := n) he with ⟨rfl, hs⟩ | ⟨m, ms, rfl, hs⟩
      · obtain ⟨_, hm, _⟩ := resolve_found he [n] b only v ps r (by simp) h
        rw [hps] at hm
        simp at hm
      · rw [hs] at h
        rcases resolve_word h with ⟨_, h⟩ | ⟨hb, h⟩
        · cases h
        · rcases h with ⟨_, h⟩ | ⟨_, h⟩ | ⟨_, h⟩ | ⟨d, hd, h⟩
          · cases h
          · cases h
          · cases h
          · rcases h with ⟨_, h⟩ | ⟨p, sc, hp, h⟩
            · cases h
            · rcases h with ⟨_, h⟩ | ⟨r', hr', h⟩ | ⟨⟨t, r', hr', ht⟩, _⟩
              · cases h
              · cases hr'
                rcases h with ⟨ps', r', hres, h⟩ | ⟨hno, h⟩
                · cases h
                  simp only [List.cons_append, List.cons.injEq] at hps
                  obtain ⟨rfl, hps⟩ := hps
                  rw [nextVis_closed v hp (hcl p List.mem_cons_self)] at hres
                  exact ih sc true v ps' r (by simp) hres pre y post hps
                    (fun x hx => hcl x (List.mem_cons_of_mem _ hx)) (Or.inl rfl)
                · exact absurd h.symm (hno ps r)
              · cases hr'
                exact absurd rfl ht

/-- **C101** (partial: the path does not start at a member of the own class, and none of the names before is `this`,
`base` or a variable of the own class): the member is public. -/
theorem member_access_partial {w : World} {own : Option String} {ns : List String} {rest r : List Tok} {b : Scope} {p : Path}
    {pre post : List Part} {y : Part} (hn : ns ≠ []) (he : Ends rest)
    (h : withThis w own (spell ns rest) b = .path p r) (hv : p.viaThis = false) (hp : p.parts = pre ++ y :: post)
    (hpre : pre ≠ []) (hcl : ∀ x ∈ pre, ¬ Opens w own x) : y.decl.vis = .pub := by
  have pub : ∀ {v : Vis}, Vis.pub ≤ v → v = .pub := by intro v; cases v <;> decide
  have ex : ∀ {ms : List String}, ms ≠ [] → withExceptions w own (spell ms rest) b = .path p r → y.decl.vis = .pub := by
    intro ms hm h
    unfold withExceptions at h
    split at h
    · rename_i ps r' hr
      cases h
      exact pub (resolve_access he ms b false .pub ps r hm hr pre y post hp hcl (Or.inr hpre))
    · cases h
    · cases h
  unfold withThis at h
  split at h
  · exact ex hn h
  · split at h
    · cases h; cases hv
    · rename_i r' hr
      obtain ⟨k, hk, rfl, _⟩ := resolve_missing he ns _ true .priv r' hn hr
      exact ex (by intro hh; rw [List.drop_eq_nil_iff] at hh; omega) h
    · cases h
    · cases h

/-- `a.open` in a method of `C`, through the local variable `a` of class `A`. -/
example : (let p : Path := ⟨false, [⟨"a", .sym ⟨31, .pub⟩, false, false⟩, ⟨"open", .sym ⟨11, .pub⟩, false, false⟩]⟩
    withThis prog (some "C") (spell ["a", "open"] [.other ";"]) block = .path p [.other ";"] ∧
    ¬ Opens prog (some "C") ⟨"a", .sym ⟨31, .pub⟩, false, false⟩) := by
  refine ⟨by decide, ?_⟩
  rintro (h | h | ⟨s, t, k, m, h1, h2, h3⟩)
  · simp at h
  · simp at h
  · cases h1
    have : prog.entity 31 = .object "A" false false := rfl
    rw [this] at h2
    cases h2
    simp at h3

/-- **C101**, exact for a name `x.y` through a variable `x` that is no member of the own class: it is accepted exactly
if the class of `x` or one of its base classes declares `y` publicly — or at least privately, if it is the own class —
and then it stands for the declaration nearest to the class of `x`. -/
theorem variable_access {w : World} {own : Option String} {x y t : String} {k m : Bool} {s : Sym} {b c : Scope} {l : List Scope}
    {rest : List Tok} (he : Ends rest) (hown : ∀ c', ownScope w own = some c' → Scope.resolve c' x true .priv = .none ∧ c' ≠ .null)
    (hb : b ≠ .null) (hx : Scope.resolve b x false .priv = .found (.sym s)) (hs : w.entity s.id = .object t k m)
    (hx1 : x ≠ "base") (hx2 : x ≠ "this") (ha : w.atomic t = false) (hc : w.classes t = some c) (hl : Scope.Lineage c l)
    (hy : ∀ t' k' m' s', w.entity s' = .blueprint t' k' m' → w.classes t' ≠ none) :
    (∃ d q, Scope.FirstIn l y (if own = some t then .priv else .pub) d ∧ q.decl = d ∧ q.name = y ∧
      withThis w own (spell [x, y] rest) b = .path ⟨false, [⟨x, .sym s, k, m⟩, q]⟩ rest) ∨
    (Scope.NoneIn l y (if own = some t then .priv else .pub) ∧ withThis w own (spell [x, y] rest) b = .rejected) := by
  have hbn : ∀ {c : Scope} {v : Vis} {only : Bool} {n : String} {r : List Tok}, c ≠ .null →
      Scope.resolve c n only (if only then v else .priv) = .none →
      resolve w own (.word n :: r) c only v = .missing (.word n :: r) := by
    intro c v only n r h1 h2
    rw [resolve]
    · simp only [Tok.content, h2]
    · exact fun h => h1 h
  have reduce : withThis w own (spell [x, y] rest) b = withExceptions w own (spell [x, y] rest) b := by
    unfold withThis
    split
    · rfl
    · rename_i c' hc'
      obtain ⟨h1, h2⟩ := hown c' hc'
      simp only [spell]
      rw [hbn h2 (by simpa using h1)]
  rw [reduce]
  have hcn : c ≠ .null := by rintro rfl; cases hl
  have hpx : part w x (.sym s) = some (⟨x, .sym s, k, m⟩, c) := by
    simp only [part, hs, ha, hc]
    simp
  have hnv : nextVis w own x (.sym s) .pub = if own = some t then .priv else .pub := by
    unfold nextVis ownObject
    rw [if_neg hx1, if_neg hx2]
    simp only [hs, beq_iff_eq]
  have hvd : (if own = some t then Vis.priv else Vis.pub) ≠ .designtime := by split <;> decide
  unfold withExceptions
  have step : resolve w own (spell [x, y] rest) b false .pub =
      match resolve w own (.word y :: rest) c true (if own = some t then .priv else .pub) with
      | .found ps r' => .found (⟨x, .sym s, k, m⟩ :: ps) r'
      | o => o := by
    rw [show spell [x, y] rest = .word x :: .dot :: .word y :: rest from rfl]
    rw [resolve]
    · simp only [Tok.content, hx, hpx, hnv]
      simp only [Bool.false_eq_true, if_false, hx, hpx, hnv]
      rfl
    · exact fun h => hb h
  rw [step]
  rcases Scope.inherited_lookup hl hvd y true with ⟨d, h1, h2⟩ | ⟨h1, h2⟩
  · left
    have : ∃ q sc, part w y d = some (q, sc) := by
      unfold part
      split
      · exact ⟨_, _, rfl⟩
      · split
        · rename_i he
          cases hk : w.classes _ with
          | none => exact absurd hk (hy _ _ _ _ he)
          | some c => exact ⟨_, _, rfl⟩
        · exact ⟨_, _, rfl⟩
        · exact ⟨_, _, rfl⟩
    obtain ⟨q, sc, hq⟩ := this
    obtain ⟨q1, q2, _⟩ := part_props hq
    refine ⟨d, q, h2, q2, q1, ?_⟩
    have : resolve w own (.word y :: rest) c true (if own = some t then .priv else .pub) = .found [q] rest := by
      obtain ⟨tk, r, rfl, ht⟩ := he
      rw [resolve]
      · simp only [Tok.content, if_true, h1, hq]
        cases tk with
        | dot => exact absurd rfl ht
        | word _ => rfl
        | other _ => rfl
      · exact fun h => hcn h
    rw [this]
  · right
    refine ⟨h1, ?_⟩
    rw [hbn hcn (by simpa using h2)]

/-- `a.open` and `a.secret` in a method of `C`. -/
example : withThis prog (some "C") (spell ["a", "secret"] [.other ";"]) block = .rejected ∧
    Scope.Lineage clsA [clsA] ∧ Scope.resolve block "a" false .priv = .found (.sym ⟨31, .pub⟩) ∧
    Scope.resolve clsC "a" true .priv = .none := by
  refine ⟨by decide, .root (by decide) ?_, by decide, by decide⟩
  intro d hd
  simp [Scope.declares_iff, AMap.find] at hd

/-- **C101** is false for members: in a method of `C`, `other.secret` with the member `other` of class `A` names a
private member of `A`. -/
theorem member_access_refuted :
    withThis prog (some "C") (spell ["other", "secret"] [.other ";"]) block =
      .path ⟨true, [⟨"other", .sym ⟨20, .priv⟩, false, false⟩, ⟨"secret", .sym ⟨10, .priv⟩, false, false⟩]⟩ [.other ";"] ∧
    Declares clsA "secret" (.sym ⟨10, .priv⟩) ∧ prog.entity 20 = .blueprint "A" false true :=
  ⟨by decide, .symbol (by decide), rfl⟩

/-- **C101** is false behind objects of the own class: in a method of `C`, `twin.other.secret` names a private member
of `A`; the access to the own private members is extended to those of the class of the member. -/
theorem deep_access_refuted :
    withThis prog (some "C") (spell ["twin", "other", "secret"] [.other ";"]) block =
      .path ⟨false, [⟨"twin", .sym ⟨32, .pub⟩, false, false⟩, ⟨"other", .sym ⟨20, .priv⟩, false, false⟩,
        ⟨"secret", .sym ⟨10, .priv⟩, false, false⟩]⟩ [.other ";"] ∧
    Declares clsA "secret" (.sym ⟨10, .priv⟩) ∧ prog.entity 20 = .blueprint "A" false true ∧
    withThis prog (some "C") (spell ["a", "secret"] [.other ";"]) block = .rejected :=
  ⟨by decide, .symbol (by decide), rfl, by decide⟩

/-! ## C102: local names hide members -/

/-- **C102** (partial: the own class and its bases declare no such member): a simple name stands for the declaration
that the lookup from the innermost block finds. -/
theorem local_name_partial {w : World} {own : Option String} {n : String} {rest : List Tok} {b : Scope} {d : Decl}
    {q : Part} {sc : Scope} (he : Ends rest)
    (hown : ∀ c, ownScope w own = some c → c ≠ .null ∧ Scope.resolve c n true .priv = .none)
    (hb : b ≠ .null) (hd : Scope.resolve b n false .priv = .found d) (hq : part w n d = some (q, sc)) :
    withThis w own (spell [n] rest) b = .path ⟨false, [q]⟩ rest ∧ q.decl = d := by
  refine ⟨?_, (part_props hq).2.1⟩
  have h1 : withExceptions w own (spell [n] rest) b = .path ⟨false, [q]⟩ rest := by
    unfold withExceptions
    obtain ⟨tk, r, rfl, ht⟩ := he
    have : resolve w own (spell [n] (tk :: r)) b false .pub = .found [q] (tk :: r) := by
      rw [show spell [n] (tk :: r) = .word n :: tk :: r from rfl, resolve]
      · simp only [Tok.content]
        cases tk with
        | dot => exact absurd rfl ht
        | word _ => simp [hd, hq]
        | other _ => simp [hd, hq]
      · exact fun h => hb h
    rw [this]
  unfold withThis
  split
  · exact h1
  · rename_i c hc
    obtain ⟨h2, h3⟩ := hown c hc
    have : resolve w own (spell [n] rest) c true .priv = .missing (spell [n] rest) := by
      rw [show spell [n] rest = .word n :: rest from rfl, resolve]
      · simp only [Tok.content, if_true, h3]
      · exact fun h => h2 h
    rw [this]
    exact h1

example : withThis prog (some "C") (spell ["y"] [.other ";"]) block =
      .path ⟨false, [⟨"y", .sym ⟨33, .pub⟩, false, false⟩]⟩ [.other ";"] ∧
    Scope.resolve clsC "y" true .priv = .none ∧ part prog "y" (.sym ⟨33, .pub⟩) = some (⟨"y", .sym ⟨33, .pub⟩, false, false⟩, .null) :=
  ⟨by decide, by decide, rfl⟩

/-- What is true instead of **C102**: a simple name that is a member of the own class or of its bases always stands
for that member, whatever the blocks and the parameters of the method declare. -/
theorem member_hides_local {w : World} {own : Option String} {n : String} {rest : List Tok} {c : Scope} {d : Decl}
    {q : Part} {sc : Scope} (he : Ends rest) (hc : ownScope w own = some c) (hn : c ≠ .null)
    (hd : Scope.resolve c n true .priv = .found d) (hq : part w n d = some (q, sc)) :
    ∀ b, withThis w own (spell [n] rest) b = .path ⟨true, [q]⟩ rest ∧ q.decl = d := by
  intro b
  refine ⟨?_, (part_props hq).2.1⟩
  unfold withThis
  rw [hc]
  obtain ⟨tk, r, rfl, ht⟩ := he
  have : resolve w own (spell [n] (tk :: r)) c true .priv = .found [q] (tk :: r) := by
    rw [show spell [n] (tk :: r) = .word n :: tk :: r from rfl, resolve]
    · simp only [Tok.content, if_true, hd, hq]
      cases tk with
      | dot => exact absurd rfl ht
      | word _ => rfl
      | other _ => rfl
    · exact fun h => hn h
  simp only [this]

/-- **C102** is false: in a method of `C` with a local variable `x`, the name `x` stands for the member `x`; so does
the right-hand side of `this.x = x;` for a parameter `x`. -/
theorem local_name_refuted :
    withThis prog (some "C") (spell ["x"] [.other ";"]) block =
      .path ⟨true, [⟨"x", .sym ⟨21, .priv⟩, false, false⟩]⟩ [.other ";"] ∧
    Declares block "x" (.sym ⟨35, .pub⟩) ∧ Declares clsC "x" (.sym ⟨21, .priv⟩) :=
  ⟨by decide, .symbol (by decide), .symbol (by decide)⟩

end Names
end Verif
