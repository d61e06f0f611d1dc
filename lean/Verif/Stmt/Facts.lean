import Verif.Stmt.Props

/-!
# C99: names, flow and exceptions of an accepted method

What the syntax tree of a method (`elabMethod`, to which `method_read_partial` reduces the parser) says about its statements, in
terms of the statements alone.
-/

namespace Verif.Stmt

open Verif.Str (Text)
open Verif.Lex (Tok Ty Cat)
open Verif.Types (TName)
open Verif.Expr (Env Sym Kind Res Expr Syn)

/-! ## Specification -/

/-- The name a simple statement declares. -/
def Simple.declared : Simple → List Text
  | .expr _ => []
  | .decl d _ => [d.name]
  | .infer n _ _ _ => [n]

def optDeclared : Option Simple → List Text
  | none => []
  | some i => i.declared

mutual

/-- The names a statement declares in the block it stands in, the last one first.  The branches of `if` and the body of `while` have
a scope of their own only if they are blocks. -/
def declared : Src → List Text
  | .simple i => i.declared
  | .ifThen _ t => declared t
  | .ifElse _ t e => declared e ++ declared t
  | .while _ b => declared b
  | _ => []

def declaredList : List Src → List Text
  | [] => []
  | a :: b => declaredList b ++ declared a

end

mutual

/-- In no block, loop or handler inside the statement a name is declared twice. -/
def Once : Src → Prop
  | .block b => (declaredList b).Nodup ∧ OnceList b
  | .ifThen _ t => Once t
  | .ifElse _ t e => Once t ∧ Once e
  | .while _ b => Once b
  | .for i _ p b => (declared b ++ optDeclared p ++ optDeclared i).Nodup ∧ Once b
  | .foreach d _ b => (declared b ++ [d.name]).Nodup ∧ Once b
  | .switch _ cs => OnceCases cs
  | .try b hs => (declaredList b).Nodup ∧ OnceList b ∧ OnceHandlers hs
  | _ => True

def OnceList : List Src → Prop
  | [] => True
  | a :: b => Once a ∧ OnceList b

def OnceCases : List (Option Syn × List Src) → Prop
  | [] => True
  | (_, b) :: cs => (declaredList b).Nodup ∧ OnceList b ∧ OnceCases cs

def OnceHandlers : List (Handler × List Src) → Prop
  | [] => True
  | (_, b) :: hs => (declaredList b).Nodup ∧ OnceList b ∧ OnceHandlers hs

end

mutual

/-- The last control statement the code has met: `break`, `continue`, `return`, `throw` or `exit`; a block begins without. -/
def flowAfter : Src → Flow → Flow
  | .block b, _ => flowList b .normal
  | .ifThen _ t, f => flowAfter t f
  | .ifElse _ t e, f => flowAfter e (flowAfter t f)
  | .while _ b, f => flowAfter b f
  | .for _ _ _ b, f => flowAfter b f
  | .foreach _ _ b, f => flowAfter b f
  | .switch _ cs, f => flowCases cs f
  | .try b hs, _ => flowHandlers hs (flowList b .normal)
  | .ret _, _ => .ret
  | .throw _, _ => .throw
  | .brk, _ => .brk
  | .cont, _ => .cont
  | .exit _, _ => .exit
  | _, f => f

def flowList : List Src → Flow → Flow
  | [], f => f
  | a :: b, f => flowList b (flowAfter a f)

def flowCases : List (Option Syn × List Src) → Flow → Flow
  | [], f => f
  | (_, b) :: cs, _ => flowCases cs (flowList b .normal)

def flowHandlers : List (Handler × List Src) → Flow → Flow
  | [], f => f
  | (_, b) :: hs, _ => flowHandlers hs (flowList b .normal)

end

mutual

/-- Every block of every `switch` statement has a control statement behind which no block without one follows. -/
def Jumps : Src → Prop
  | .block b => JumpsList b
  | .ifThen _ t => Jumps t
  | .ifElse _ t e => Jumps t ∧ Jumps e
  | .while _ b => Jumps b
  | .for _ _ _ b => Jumps b
  | .foreach _ _ b => Jumps b
  | .switch _ cs => JumpsCases cs
  | .try b hs => JumpsList b ∧ JumpsHandlers hs
  | _ => True

def JumpsList : List Src → Prop
  | [] => True
  | a :: b => Jumps a ∧ JumpsList b

def JumpsCases : List (Option Syn × List Src) → Prop
  | [] => True
  | (_, b) :: cs => flowList b .normal ≠ .normal ∧ JumpsList b ∧ JumpsCases cs

def JumpsHandlers : List (Handler × List Src) → Prop
  | [] => True
  | (_, b) :: hs => JumpsList b ∧ JumpsHandlers hs

end

mutual

/-- There is a `throw` statement with a value outside of `try` statements. -/
def throwsOut : Src → Bool
  | .throw (some _) => true
  | .block b => throwsList b
  | .ifThen _ t => throwsOut t
  | .ifElse _ t e => throwsOut t || throwsOut e
  | .while _ b => throwsOut b
  | .for _ _ _ b => throwsOut b
  | .foreach _ _ b => throwsOut b
  | .switch _ cs => throwsCases cs
  | _ => false

def throwsList : List Src → Bool
  | [] => false
  | a :: b => throwsOut a || throwsList b

def throwsCases : List (Option Syn × List Src) → Bool
  | [] => false
  | (_, b) :: cs => throwsList b || throwsCases cs

end

/-! ## Proofs -/

/-- The state behind a statement: new names in the innermost scope, the others as before. -/
structure Behind (s s' : St) (names : List Text) (f : Flow) (out : Bool) : Prop where
  scopes : ∀ sc scs, s.scopes = sc :: scs →
    (∃ ds, s'.scopes = (ds ++ sc) :: scs ∧ ds.map Prod.fst = names) ∧
    ((sc.map Prod.fst).Nodup → (names ++ sc.map Prod.fst).Nodup)
  nonempty : s.scopes = [] → s'.scopes = []
  flow : s'.flow = f
  keeps : ∀ t ∈ s.thrown, t ∈ s'.thrown
  adds : out = true → s'.thrown ≠ []

theorem Behind.refl (s : St) : Behind s s [] s.flow false :=
  ⟨fun sc scs h => ⟨⟨[], by simpa using h, rfl⟩, by simp⟩, id, rfl, fun _ h => h, fun h => by cases h⟩

theorem Behind.trans {s s₁ s₂ : St} {n₁ n₂ : List Text} {f₁ f₂ : Flow} {o₁ o₂ : Bool} (h₁ : Behind s s₁ n₁ f₁ o₁)
    (h₂ : Behind s₁ s₂ n₂ f₂ o₂) : Behind s s₂ (n₂ ++ n₁) f₂ (o₁ || o₂) := by
  refine ⟨?_, fun h => h₂.nonempty (h₁.nonempty h), h₂.flow, fun t h => h₂.keeps t (h₁.keeps t h), ?_⟩
  · intro sc scs h
    obtain ⟨⟨d₁, e₁, m₁⟩, u₁⟩ := h₁.scopes sc scs h
    obtain ⟨⟨d₂, e₂, m₂⟩, u₂⟩ := h₂.scopes _ _ e₁
    refine ⟨⟨d₂ ++ d₁, by rw [e₂, List.append_assoc], by rw [List.map_append, m₁, m₂]⟩, fun hn => ?_⟩
    have := u₂ (by rw [List.map_append, m₁]; exact u₁ hn)
    rw [List.map_append, m₁, ← List.append_assoc] at this
    exact this
  · intro h
    rw [Bool.or_eq_true] at h
    rcases h with h | h
    · have := h₁.adds h
      intro h0
      cases ht : s₁.thrown with
      | nil => exact this ht
      | cons t l =>
        have := h₂.keeps t (by rw [ht]; exact List.mem_cons_self)
        rw [h0] at this
        cases this
    · exact h₂.adds h

theorem define_behind {s s' : St} {n : Text} {y : Sym} (h : s.define n y = some s') : Behind s s' [n] s.flow false := by
  unfold St.define at h
  split at h
  · cases h
  · rename_i sc scs hs
    split at h
    · cases h
    · rename_i hl
      cases h
      refine ⟨?_, fun h => (by rw [hs] at h; cases h), rfl, fun _ h => h, fun h => by cases h⟩
      intro sc' scs' he
      rw [hs] at he
      cases he
      refine ⟨⟨[(n, y)], rfl, rfl⟩, fun hn => ?_⟩
      rw [List.singleton_append, List.nodup_cons]
      refine ⟨?_, hn⟩
      intro hm
      obtain ⟨p, hp, he⟩ := List.mem_map.1 hm
      have hl' : sc.lookup n = none := by
        cases e : sc.lookup n with
        | none => rfl
        | some v => rw [e] at hl; exact absurd rfl hl
      rw [List.lookup_eq_none_iff] at hl'
      have := hl' p hp
      rw [he] at this
      simp at this

theorem declare_behind {w : Site} {s s' : St} {d : Decl} {x : DeclNode} (h : declare w s d = some (x, s')) :
    Behind s s' [d.name] s.flow false := by
  unfold declare at h
  obtain ⟨y, _, h⟩ := Option.bind_eq_some_iff.1 h
  split at h
  · obtain ⟨s₁, h₁, h⟩ := Option.map_eq_some_iff.1 h
    cases h
    exact define_behind h₁
  · cases h

theorem simple_behind {w : Site} {s s' : St} {i : Simple} {nd : Node} (h : elabSimple w s i = some (nd, s')) :
    Behind s s' i.declared s.flow false := by
  cases i with
  | expr e =>
    obtain ⟨x, _, h⟩ := Option.map_eq_some_iff.1 h
    cases h
    exact .refl s
  | decl d e =>
    obtain ⟨⟨x, s₁⟩, h₁, h⟩ := Option.bind_eq_some_iff.1 h
    obtain ⟨y, _, h⟩ := Option.map_eq_some_iff.1 h
    cases h
    exact declare_behind h₁
  | infer n m r e =>
    obtain ⟨x, _, h⟩ := Option.bind_eq_some_iff.1 h
    dsimp only at h
    split at h
    · cases h
    · obtain ⟨s₁, h₁, h⟩ := Option.map_eq_some_iff.1 h
      cases h
      exact define_behind h₁

theorem opt_behind {w : Site} {s s' : St} {i : Option Simple} {nd : Node} (h : elabOpt w s i = some (nd, s')) :
    Behind s s' (optDeclared i) s.flow false := by
  cases i with
  | none => cases h; exact .refl s
  | some i => exact simple_behind h

/-- A scope that is pushed and popped again. -/
theorem Behind.popped {s s₀ s' : St} {names : List Text} {f : Flow} {o : Bool} (h : Behind s₀ s' names f o)
    (hs : s₀.scopes = [] :: s.scopes) (ht : ∀ t ∈ s.thrown, t ∈ s₀.thrown) : Behind s s'.pop [] f o ∧ names.Nodup := by
  obtain ⟨⟨ds, e, m⟩, u⟩ := h.scopes [] s.scopes hs
  refine ⟨⟨?_, ?_, h.flow, fun t hm => h.keeps t (ht t hm), h.adds⟩, ?_⟩
  · intro sc scs hsc
    refine ⟨⟨[], ?_, rfl⟩, by simp⟩
    simp only [St.pop, e, List.tail_cons, List.nil_append, hsc]
  · intro hsc
    simp only [St.pop, e, List.tail_cons, hsc]
  · simpa using u (by simp)

theorem leave_eq {needs : Bool} {b r : List Node × St} (h : leave needs b = some r) :
    r = (b.1, b.2.pop) ∧ (needs = true → b.2.flow ≠ .normal) := by
  unfold leave at h
  split at h
  · cases h
  · rename_i hn
    cases h
    exact ⟨rfl, fun h1 h2 => hn ⟨h1, h2⟩⟩

theorem insertType_mem {l : List TName} {t : TName} : (∀ x ∈ l, x ∈ insertType l t) ∧ t ∈ insertType l t := by
  unfold insertType
  split
  · exact ⟨fun _ h => h, by assumption⟩
  · exact ⟨fun _ h => List.mem_cons_of_mem _ h, List.mem_cons_self⟩

theorem mergeTypes_mem (l more : List TName) : (∀ x ∈ l, x ∈ mergeTypes l more) ∧ ∀ x ∈ more, x ∈ mergeTypes l more := by
  induction more generalizing l with
  | nil => exact ⟨fun _ h => h, fun _ h => nomatch h⟩
  | cons t more ih =>
    have := ih (insertType l t)
    refine ⟨fun x hx => this.1 x (insertType_mem.1 x hx), fun x hx => ?_⟩
    rcases List.mem_cons.1 hx with rfl | hx
    · exact this.1 x insertType_mem.2
    · exact this.2 x hx

/-- The scopes behind the blocks of a `try` statement are those before. -/
structure Same (s s' : St) (f : Flow) : Prop where
  scopes : s'.scopes = s.scopes
  flow : s'.flow = f

theorem Behind.same {s s' : St} {f : Flow} {o : Bool} (h : Behind s s' [] f o) : Same s s' f := by
  refine ⟨?_, h.flow⟩
  cases hs : s.scopes with
  | nil => exact h.nonempty hs
  | cons sc scs =>
    obtain ⟨⟨ds, e, m⟩, _⟩ := h.scopes sc scs hs
    cases List.map_eq_nil_iff.1 m
    simpa using e

mutual

theorem stmt_behind {w : Site} : ∀ (src : Src) {allow : Bool} {s s' : St} {nd : Node}, elabStmt w allow s src = some (nd, s') →
    Behind s s' (declared src) (flowAfter src s.flow) (throwsOut src) ∧ Once src ∧ Jumps src
  | .empty, _, s, _, _, h => by
    simp only [elabStmt] at h; cases h
    exact ⟨.refl s, trivial, trivial⟩
  | .simple i, _, s, _, _, h => by
    simp only [elabStmt] at h
    exact ⟨simple_behind h, trivial, trivial⟩
  | .block b, _, s, _, _, h => by
    simp only [elabStmt] at h
    obtain ⟨r, h, he⟩ := Option.map_eq_some_iff.1 h
    obtain ⟨q, hq, hl⟩ := Option.bind_eq_some_iff.1 h
    obtain ⟨rfl, _⟩ := leave_eq hl
    cases he
    obtain ⟨h1, h2, h3⟩ := list_behind b hq
    obtain ⟨h4, h5⟩ := Behind.popped (s := s) h1 rfl (fun _ h => h)
    exact ⟨h4, ⟨h5, h2⟩, h3⟩
  | .ifThen c t, _, s, _, _, h => by
    simp only [elabStmt] at h
    obtain ⟨x, _, h⟩ := Option.bind_eq_some_iff.1 h
    obtain ⟨⟨r, s₁⟩, h₁, h⟩ := Option.map_eq_some_iff.1 h
    cases h
    exact stmt_behind t h₁
  | .ifElse c t e, _, s, _, _, h => by
    simp only [elabStmt] at h
    obtain ⟨x, _, h⟩ := Option.bind_eq_some_iff.1 h
    obtain ⟨⟨r, s₁⟩, h₁, h⟩ := Option.bind_eq_some_iff.1 h
    obtain ⟨⟨q, s₂⟩, h₂, h⟩ := Option.map_eq_some_iff.1 h
    cases h
    obtain ⟨a1, a2, a3⟩ := stmt_behind t h₁
    obtain ⟨b1, b2, b3⟩ := stmt_behind e h₂
    have := a1.trans b1
    rw [a1.flow] at this
    exact ⟨this, ⟨a2, b2⟩, a3, b3⟩
  | .while c b, _, s, _, _, h => by
    simp only [elabStmt] at h
    obtain ⟨x, _, h⟩ := Option.bind_eq_some_iff.1 h
    obtain ⟨⟨r, s₁⟩, h₁, h⟩ := Option.map_eq_some_iff.1 h
    cases h
    exact stmt_behind b h₁
  | .for i c p b, _, s, _, _, h => by
    simp only [elabStmt] at h
    obtain ⟨⟨x, s₁⟩, h₁, h⟩ := Option.bind_eq_some_iff.1 h
    obtain ⟨y, _, h⟩ := Option.bind_eq_some_iff.1 h
    obtain ⟨⟨z, s₂⟩, h₂, h⟩ := Option.bind_eq_some_iff.1 h
    obtain ⟨⟨r, s₃⟩, h₃, h⟩ := Option.map_eq_some_iff.1 h
    cases h
    have a := opt_behind h₁
    have b' := opt_behind h₂
    obtain ⟨c1, c2, c3⟩ := stmt_behind b h₃
    have := (a.trans b').trans c1
    rw [b'.flow, a.flow] at this
    obtain ⟨h4, h5⟩ := Behind.popped (s := s) this rfl (fun _ h => h)
    refine ⟨?_, ⟨by rw [List.append_assoc]; exact h5, c2⟩, c3⟩
    simpa [declared, flowAfter, throwsOut, St.push] using h4
  | .foreach d e b, _, s, _, _, h => by
    simp only [elabStmt] at h
    obtain ⟨⟨x, s₁⟩, h₁, h⟩ := Option.bind_eq_some_iff.1 h
    obtain ⟨y, _, h⟩ := Option.bind_eq_some_iff.1 h
    split at h
    · cases h
    · obtain ⟨⟨r, s₃⟩, h₃, h⟩ := Option.map_eq_some_iff.1 h
      cases h
      have a := declare_behind h₁
      obtain ⟨c1, c2, c3⟩ := stmt_behind b h₃
      have := a.trans c1
      rw [a.flow] at this
      obtain ⟨h4, h5⟩ := Behind.popped (s := s) this rfl (fun _ h => h)
      refine ⟨?_, ⟨h5, c2⟩, c3⟩
      simpa [declared, flowAfter, throwsOut, St.push] using h4
  | .switch e cs, _, s, _, _, h => by
    simp only [elabStmt] at h
    obtain ⟨x, _, h⟩ := Option.bind_eq_some_iff.1 h
    obtain ⟨⟨r, s₁⟩, h₁, h⟩ := Option.bind_eq_some_iff.1 h
    split at h
    · cases h
    · cases h
      exact cases_behind cs h₁
  | .try b hs, _, s, _, _, h => by
    simp only [elabStmt] at h
    obtain ⟨⟨r, s₁⟩, h₁, h⟩ := Option.bind_eq_some_iff.1 h
    obtain ⟨⟨c, s₂⟩, h₂, h⟩ := Option.map_eq_some_iff.1 h
    cases h
    obtain ⟨q, hq, hl⟩ := Option.bind_eq_some_iff.1 h₁
    obtain ⟨he, _⟩ := leave_eq hl
    cases he
    obtain ⟨a1, a2, a3⟩ := list_behind b hq
    obtain ⟨h4, h5⟩ := Behind.popped (s := { s with thrown := [] }) a1 rfl (fun _ h => h)
    obtain ⟨b1, b2, b3⟩ := handlers_behind hs h₂
    have hsame := h4.same
    refine ⟨⟨?_, ?_, ?_, ?_, fun h => by cases h⟩, ⟨h5, a2, b2⟩, a3, b3⟩
    · intro sc scs hsc
      refine ⟨⟨[], ?_, rfl⟩, by simp [declared]⟩
      exact (b1.scopes.trans hsame.scopes).trans hsc
    · intro hsc
      exact (b1.scopes.trans hsame.scopes).trans hsc
    · refine b1.flow.trans ?_
      show flowHandlers hs q.2.pop.flow = _
      rw [hsame.flow]
      rfl
    · intro t ht
      exact (mergeTypes_mem _ _).2 t ht
  | .ret e, _, s, _, _, h => by
    simp only [elabStmt] at h
    obtain ⟨x, _, h⟩ := Option.bind_eq_some_iff.1 h
    split at h
    · cases h
      exact ⟨⟨(Behind.refl s).scopes, id, rfl, fun _ h => h, fun h => by cases h⟩, trivial, trivial⟩
    · cases h
  | .throw e, _, s, _, _, h => by
    simp only [elabStmt] at h
    obtain ⟨x, hx, h⟩ := Option.map_eq_some_iff.1 h
    cases h
    refine ⟨⟨(Behind.refl s).scopes, id, rfl, ?_, ?_⟩, trivial, trivial⟩
    · intro t ht
      cases x with
      | none => exact ht
      | some e => exact insertType_mem.1 t ht
    · intro ho
      cases e with
      | none => cases ho
      | some e =>
        obtain ⟨y, _, hy⟩ := Option.map_eq_some_iff.1 hx
        subst hy
        intro h0
        have := (insertType_mem (l := s.thrown) (t := y.ty)).2
        simp only [afterThrow] at h0
        rw [h0] at this
        cases this
  | .brk, allow, s, _, _, h => by
    simp only [elabStmt] at h
    split at h
    · cases h
      exact ⟨⟨(Behind.refl s).scopes, id, rfl, fun _ h => h, fun h => by cases h⟩, trivial, trivial⟩
    · cases h
  | .cont, allow, s, _, _, h => by
    simp only [elabStmt] at h
    split at h
    · cases h
      exact ⟨⟨(Behind.refl s).scopes, id, rfl, fun _ h => h, fun h => by cases h⟩, trivial, trivial⟩
    · cases h
  | .assert c m, _, s, _, _, h => by
    simp only [elabStmt] at h
    obtain ⟨x, _, h⟩ := Option.bind_eq_some_iff.1 h
    obtain ⟨y, _, h⟩ := Option.map_eq_some_iff.1 h
    cases h
    exact ⟨.refl s, trivial, trivial⟩
  | .print e, _, s, _, _, h => by
    simp only [elabStmt] at h
    obtain ⟨x, _, h⟩ := Option.map_eq_some_iff.1 h
    cases h
    exact ⟨.refl s, trivial, trivial⟩
  | .exit e, _, s, _, _, h => by
    simp only [elabStmt] at h
    obtain ⟨x, _, h⟩ := Option.map_eq_some_iff.1 h
    cases h
    exact ⟨⟨(Behind.refl s).scopes, id, rfl, fun _ h => h, fun h => by cases h⟩, trivial, trivial⟩
  | .delete e, _, s, _, _, h => by
    simp only [elabStmt] at h
    obtain ⟨x, _, h⟩ := Option.map_eq_some_iff.1 h
    cases h
    exact ⟨.refl s, trivial, trivial⟩

theorem list_behind {w : Site} : ∀ (b : List Src) {allow : Bool} {s : St} {r : List Node × St},
    elabList w allow s b = some r → Behind s r.2 (declaredList b) (flowList b s.flow) (throwsList b) ∧ OnceList b ∧ JumpsList b
  | [], _, s, _, h => by
    simp only [elabList] at h; cases h
    exact ⟨.refl s, trivial, trivial⟩
  | a :: b, _, s, _, h => by
    simp only [elabList] at h
    obtain ⟨⟨r, s₁⟩, h₁, h⟩ := Option.bind_eq_some_iff.1 h
    obtain ⟨⟨q, s₂⟩, h₂, h⟩ := Option.map_eq_some_iff.1 h
    cases h
    obtain ⟨a1, a2, a3⟩ := stmt_behind a h₁
    obtain ⟨b1, b2, b3⟩ := list_behind b h₂
    have := a1.trans b1
    rw [a1.flow] at this
    exact ⟨this, ⟨a2, b2⟩, a3, b3⟩

theorem cases_behind {w : Site} : ∀ (cs : List (Option Syn × List Src)) {s : St} {acc : List (Expr × List Node)}
    {d : Option (List Node)} {r : (List (Expr × List Node) × Option (List Node)) × St},
    elabCases w s acc d cs = some r → Behind s r.2 [] (flowCases cs s.flow) (throwsCases cs) ∧ OnceCases cs ∧ JumpsCases cs
  | [], s, _, _, _, h => by
    simp only [elabCases] at h; cases h
    exact ⟨.refl s, trivial, trivial⟩
  | (some e, b) :: cs, s, _, _, _, h => by
    simp only [elabCases] at h
    obtain ⟨x, _, h⟩ := Option.bind_eq_some_iff.1 h
    obtain ⟨r, h₁, h⟩ := Option.bind_eq_some_iff.1 h
    obtain ⟨q, hq, hl⟩ := Option.bind_eq_some_iff.1 h₁
    obtain ⟨rfl, hj⟩ := leave_eq hl
    obtain ⟨a1, a2, a3⟩ := list_behind b hq
    obtain ⟨h4, h5⟩ := Behind.popped (s := s) a1 rfl (fun _ h => h)
    obtain ⟨b1, b2, b3⟩ := cases_behind cs h
    have := h4.trans b1
    rw [h4.flow] at this
    refine ⟨this, ⟨h5, a2, b2⟩, ?_, a3, b3⟩
    have hj := hj rfl
    rw [a1.flow] at hj
    exact hj
  | (none, b) :: cs, s, _, _, _, h => by
    simp only [elabCases] at h
    split at h
    · cases h
    obtain ⟨r, h₁, h⟩ := Option.bind_eq_some_iff.1 h
    obtain ⟨q, hq, hl⟩ := Option.bind_eq_some_iff.1 h₁
    obtain ⟨rfl, hj⟩ := leave_eq hl
    obtain ⟨a1, a2, a3⟩ := list_behind b hq
    obtain ⟨h4, h5⟩ := Behind.popped (s := s) a1 rfl (fun _ h => h)
    obtain ⟨b1, b2, b3⟩ := cases_behind cs h
    have := h4.trans b1
    rw [h4.flow] at this
    refine ⟨this, ⟨h5, a2, b2⟩, ?_, a3, b3⟩
    have hj := hj rfl
    rw [a1.flow] at hj
    exact hj

theorem handlers_behind {w : Site} : ∀ (hs : List (Handler × List Src)) {allow : Bool} {s : St} {c : Clauses}
    {r : Clauses × St}, elabHandlers w allow s c hs = some r →
    Same s r.2 (flowHandlers hs s.flow) ∧ OnceHandlers hs ∧ JumpsHandlers hs
  | [], _, s, _, _, h => by
    simp only [elabHandlers] at h; cases h
    exact ⟨⟨rfl, rfl⟩, trivial, trivial⟩
  | (.catchAll, b) :: hs, _, s, _, _, h => by
    simp only [elabHandlers] at h
    obtain ⟨r, h₁, h⟩ := Option.bind_eq_some_iff.1 h
    obtain ⟨q, hq, hl⟩ := Option.bind_eq_some_iff.1 h₁
    obtain ⟨rfl, _⟩ := leave_eq hl
    obtain ⟨a1, a2, a3⟩ := list_behind b hq
    obtain ⟨h4, h5⟩ := Behind.popped (s := { s.push with thrown := [] }) a1 rfl (fun _ h => h)
    obtain ⟨b1, b2, b3⟩ := handlers_behind hs h
    refine ⟨⟨?_, ?_⟩, ⟨h5, a2, b2⟩, a3, b3⟩
    · rw [b1.scopes]
      show q.2.pop.scopes.tail = s.scopes
      rw [h4.same.scopes]
      rfl
    · rw [b1.flow]
      show flowHandlers hs q.2.pop.flow = flowHandlers hs _
      rw [h4.same.flow]
      rfl
  | (.catch d, b) :: hs, _, s, _, _, h => by
    simp only [elabHandlers] at h
    obtain ⟨⟨x, s₁⟩, hd, h⟩ := Option.bind_eq_some_iff.1 h
    obtain ⟨r, h₁, h⟩ := Option.bind_eq_some_iff.1 h
    obtain ⟨q, hq, hl⟩ := Option.bind_eq_some_iff.1 h₁
    obtain ⟨rfl, _⟩ := leave_eq hl
    obtain ⟨a1, a2, a3⟩ := list_behind b hq
    obtain ⟨h4, h5⟩ := Behind.popped (s := { s₁ with thrown := s₁.thrown.erase x.ty }) a1 rfl (fun _ h => h)
    obtain ⟨b1, b2, b3⟩ := handlers_behind hs h
    have hd' := Behind.popped (s := s) (declare_behind hd) rfl (fun _ h => h)
    refine ⟨⟨?_, ?_⟩, ⟨h5, a2, b2⟩, a3, b3⟩
    · rw [b1.scopes]
      show q.2.pop.scopes.tail = s.scopes
      rw [h4.same.scopes]
      exact hd'.1.same.scopes
    · rw [b1.flow]
      show flowHandlers hs q.2.pop.flow = flowHandlers hs _
      rw [h4.same.flow]
      rfl
  | (.fin, b) :: hs, _, s, _, _, h => by
    simp only [elabHandlers] at h
    split at h
    · cases h
    obtain ⟨r, h₁, h⟩ := Option.bind_eq_some_iff.1 h
    obtain ⟨q, hq, hl⟩ := Option.bind_eq_some_iff.1 h₁
    obtain ⟨rfl, _⟩ := leave_eq hl
    obtain ⟨a1, a2, a3⟩ := list_behind b hq
    obtain ⟨h4, h5⟩ := Behind.popped (s := s) a1 rfl (fun _ h => h)
    obtain ⟨b1, b2, b3⟩ := handlers_behind hs h
    refine ⟨⟨?_, ?_⟩, ⟨h5, a2, b2⟩, a3, b3⟩
    · rw [b1.scopes]
      exact h4.same.scopes
    · rw [b1.flow]
      show flowHandlers hs q.2.pop.flow = flowHandlers hs _
      rw [h4.same.flow]
      rfl

end

/-! ## C99: what an accepted method is like -/

theorem parameters_once {ps : List (Text × Sym)} {s s' : St} (h : parameters ps s = some s') :
    Behind s s' ((ps.map Prod.fst).filter (· ≠ [])).reverse s.flow false := by
  induction ps generalizing s with
  | nil => cases h; exact .refl _
  | cons p ps ih =>
    obtain ⟨n, y⟩ := p
    unfold parameters at h
    split at h
    · rename_i hn
      subst hn
      simpa using ih h
    · rename_i hn
      obtain ⟨s₁, h₁, h⟩ := Option.bind_eq_some_iff.1 h
      have a := define_behind h₁
      have b := a.trans (ih h)
      rw [a.flow] at b
      simpa [hn] using b

theorem method_accepted {w : Site} {throws : Bool} {params : List (Text × Sym)} {b : List Src} {ts rest : List Tok} {ns : List Node}
    (hs : SpellsList w b ts) (hf : FitsList w b) (hp : ∀ p ∈ params, NotType w p.1) (h : method w throws params ts = .ok ns rest) :
    ∃ s r, parameters params ⟨[[]], .normal, []⟩ = some s ∧ elabList w false s.enter b = some r ∧
      complete w throws r.2.pop = true := by
  rw [method_read_partial hs hf hp] at h
  unfold elabMethod at h
  cases hq : parameters params ⟨[[]], .normal, []⟩ with
  | none => rw [hq] at h; cases h
  | some s =>
    rw [hq] at h
    cases hr : elabList w false s.enter b with
    | none => rw [Option.bind_some, hr] at h; cases h
    | some r =>
      rw [Option.bind_some, hr, Option.bind_some] at h
      refine ⟨s, r, rfl, hr, ?_⟩
      by_cases hc : complete w throws r.2.pop = true
      · exact hc
      · rw [if_neg hc] at h; cases h

/-- C99: in an accepted method no two parameters have the same name, and no block declares a name twice. -/
theorem declared_once {w : Site} {throws : Bool} {params : List (Text × Sym)} {b : List Src} {ts rest : List Tok} {ns : List Node}
    (hs : SpellsList w b ts) (hf : FitsList w b) (hp : ∀ p ∈ params, NotType w p.1) (h : method w throws params ts = .ok ns rest) :
    ((params.map Prod.fst).filter (· ≠ [])).Nodup ∧ (declaredList b).Nodup ∧ OnceList b := by
  obtain ⟨s, r, h1, h2, -⟩ := method_accepted hs hf hp h
  obtain ⟨a1, a2, -⟩ := list_behind b h2
  refine ⟨?_, (Behind.popped (s := s) a1 rfl (fun _ h => h)).2, a2⟩
  have := ((parameters_once h1).scopes [] [] rfl).2 (by simp)
  rw [List.map_nil, List.append_nil] at this
  exact (List.pairwise_reverse.1 this).imp Ne.symm

/-- C99, C35, C43: in an accepted method every block of a `switch` statement has a control statement, and the last control statement
of a method with a value is `return` or `throw`. -/
theorem control_statements {w : Site} {throws : Bool} {params : List (Text × Sym)} {b : List Src} {ts rest : List Tok} {ns : List Node}
    (hs : SpellsList w b ts) (hf : FitsList w b) (hp : ∀ p ∈ params, NotType w p.1) (h : method w throws params ts = .ok ns rest) :
    JumpsList b ∧ (w.result ≠ .b .void → flowList b .normal = .ret ∨ flowList b .normal = .throw) := by
  obtain ⟨s, r, h1, h2, h3⟩ := method_accepted hs hf hp h
  obtain ⟨a1, -, a3⟩ := list_behind b h2
  refine ⟨a3, fun hv => ?_⟩
  have hflow : r.2.pop.flow = flowList b .normal := a1.flow
  simp only [complete, hflow, Bool.and_eq_true, Bool.or_eq_true, beq_iff_eq, hv, false_or] at h3
  exact h3.2

/-- C99, C42: an accepted method that throws outside of `try` statements says so. -/
theorem throws_declared {w : Site} {throws : Bool} {params : List (Text × Sym)} {b : List Src} {ts rest : List Tok} {ns : List Node}
    (hs : SpellsList w b ts) (hf : FitsList w b) (hp : ∀ p ∈ params, NotType w p.1) (h : method w throws params ts = .ok ns rest)
    (ht : throwsList b = true) : throws = true := by
  obtain ⟨s, r, h1, h2, h3⟩ := method_accepted hs hf hp h
  obtain ⟨a1, -, -⟩ := list_behind b h2
  have := a1.adds ht
  simp only [complete, Bool.and_eq_true, Bool.or_eq_true, List.isEmpty_iff] at h3
  rcases h3.1 with h | h
  · exact h
  · exact absurd h this

/-- C99, C42: the exceptions that code before a statement can throw are not forgotten, and neither are those that code before a `try`
statement can throw. -/
theorem thrown_kept {w : Site} {allow : Bool} {s s' : St} {src : Src} {nd : Node} (h : elabStmt w allow s src = some (nd, s')) :
    ∀ t ∈ s.thrown, t ∈ s'.thrown :=
  (stmt_behind src h).1.keeps

/-- C99: the names of a block end with it, and behind a statement the block has the names from before and those the statement
declares. -/
theorem names_in_scope {w : Site} {allow : Bool} {s s' : St} {src : Src} {nd : Node} (h : elabStmt w allow s src = some (nd, s'))
    {sc : List (Text × Sym)} {scs : List (List (Text × Sym))} (hs : s.scopes = sc :: scs) :
    ∃ ds, s'.scopes = (ds ++ sc) :: scs ∧ ds.map Prod.fst = declared src :=
  ((stmt_behind src h).1.scopes sc scs hs).1

/-- C99: a name may be declared again in an inner block: where the declaration is accepted, it is accepted again inside of a block
behind it. -/
theorem names_may_hide {w : Site} {throws : Bool} {params : List (Text × Sym)} {d : Decl} {ts ts' rest : List Tok} {ns : List Node}
    (hs : SpellsList w [.simple (.decl d none)] ts)
    (hs' : SpellsList w [.simple (.decl d none), .block [.simple (.decl d none)]] ts') (hn : NotType w d.name)
    (hp : ∀ p ∈ params, NotType w p.1) (hne : d.ty ≠ d.name) (h : method w throws params ts = .ok ns rest) :
    ∃ ns', method w throws params ts' = .ok ns' [] := by
  have hd : ∀ x ∈ (Simple.decl d none).names, NotType w x := by
    intro x hx
    rw [Simple.names, List.mem_singleton] at hx
    exact hx ▸ hn
  obtain ⟨s, r, h1, h2, h3⟩ := method_accepted hs ⟨hd, trivial⟩ hp h
  rw [method_read_partial hs' ⟨hd, ⟨hd, trivial⟩, trivial⟩ hp]
  simp only [elabMethod, h1, Option.bind_some]
  simp only [elabList, elabStmt, elabSimple, Option.map_some, Option.bind_some, Option.map_eq_some_iff,
    Option.bind_eq_some_iff] at h2
  obtain ⟨q, ⟨⟨x, s₁⟩, hx, e, he, rfl⟩, h2⟩ := h2
  cases h2
  have hx0 := hx
  unfold declare at hx
  obtain ⟨y, hy, hx⟩ := Option.bind_eq_some_iff.1 hx
  split at hx
  rotate_left
  · cases hx
  rename_i hc
  obtain ⟨s₂, h₂, hx⟩ := Option.map_eq_some_iff.1 hx
  cases hx
  have hdef : s₁ = { s.enter with scopes := [(d.name, varSym w y.ty (d.const.getD false))] :: s.scopes } := by
    simp only [St.define, St.enter, St.push, List.lookup_nil, Option.isSome_none, Bool.false_eq_true, if_false, Option.some.injEq] at h₂
    exact h₂.symm
  have hy2 : (w.at s₁.enter).lookup d.ty = some y := by
    rw [← hy, hdef]
    have : (d.ty == d.name) = false := by simpa using hne
    simp [Site.at, St.enter, St.push, find, List.findSome?, List.lookup, this]
  have hd2 : declare w s₁.enter d = some (⟨y.ty, d.name, d.const.getD false, d.ref.getD (!w.atomic y.ty)⟩,
      { s₁.enter with scopes := [(d.name, varSym w y.ty (d.const.getD false))] :: s₁.scopes }) := by
    simp only [declare, hy2, Option.bind_some, hc, and_self, if_true]
    rfl
  have he2 : ∀ s s', initial w s ⟨y.ty, d.name, d.const.getD false, d.ref.getD (!w.atomic y.ty)⟩ none =
      initial w s' ⟨y.ty, d.name, d.const.getD false, d.ref.getD (!w.atomic y.ty)⟩ none := fun _ _ => rfl
  simp only [elabList, elabStmt, elabSimple, hx0, Option.bind_some, he, Option.map_some, hd2]
  rw [he2 _ s₁, he]
  simp only [Option.map_some, Option.bind_some, leave, Bool.false_eq_true, false_and, if_false]
  rw [if_pos]
  · exact ⟨_, rfl⟩
  · rw [← h3, hdef]
    rfl

/-! ### Examples -/

/-- `sampleBody` has blocks of a `switch` statement, loops, handlers and declarations. -/
example : ∃ ns, method sampleSite true [("p".toList, Expr.intVar)] (printList sampleBody) = .ok ns [] := by
  obtain ⟨ns, h⟩ : ∃ ns, elabMethod sampleSite true [("p".toList, Expr.intVar)] sampleBody = some ns :=
    Option.isSome_iff_exists.1 (by decide +kernel)
  refine ⟨ns, ?_⟩
  rw [method_print_read_partial sample_fine sample_fits, h]
  · rfl
  · simp only [List.mem_singleton, forall_eq]
    exact notType_sample (by decide)

/-- `throw i;` needs `throws`. -/
example : throwsList [.throw (some (nm "i"))] = true ∧ elabMethod sampleSite false [] [.throw (some (nm "i"))] = none ∧
    (elabMethod sampleSite true [] [.throw (some (nm "i"))]).isSome :=
  ⟨rfl, by decide +kernel, by decide +kernel⟩

/-- `int n; int n;` is rejected, `int n; { int n; }` is not. -/
example : ¬ (declaredList [.simple (.decl (intDecl "n") none), .simple (.decl (intDecl "n") none)]).Nodup ∧
    (elabMethod { sampleSite with result := .b .void } false [] [.simple (.decl (intDecl "n") none)]).isSome ∧
    (intDecl "n").ty ≠ (intDecl "n").name :=
  ⟨by decide, by decide +kernel, by decide⟩

/-- A case without a control statement, and one whose control statement stands before a block without one. -/
example : ¬ JumpsList [.switch (nm "n") [(some (nm "i"), [])]] ∧ ¬ JumpsList [.switch (nm "n") [(some (nm "i"), [.brk, .block []])]] := by
  simp [JumpsList, Jumps, JumpsCases, flowList, flowAfter]

/-- `try` keeps what was thrown before it. -/
example : ∃ nd s', elabStmt sampleSite false ⟨[[]], .normal, [.b .int32]⟩ (.try [] [(.catchAll, [])]) = some (nd, s') ∧
    s'.thrown = [.b .int32] := ⟨_, _, rfl, rfl⟩

end Verif.Stmt
