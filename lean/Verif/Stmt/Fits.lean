import Verif.Stmt.Parts

/-!
# Statements that are read as they are written

`Fits` excludes what the code gets wrong: an `else` behind a branch that ends with a semicolon, `break` and `continue` in a loop whose
body is no block, and variables named like types.
-/

namespace Verif.Stmt

open Verif.Str (Text)
open Verif.Lex (Tok Ty Cat)
open Verif.Types (TName)
open Verif.Expr (Env Sym Kind Res Expr Syn)

/-- The names declared in the head of a `for` statement. -/
def optNames : Option Simple → List Text
  | none => []
  | some i => i.names

def isBlock : Src → Bool
  | .block _ => true
  | _ => false

mutual

/-- There is no `break` or `continue` that belongs to a loop around the statement. -/
def free : Src → Bool
  | .brk => false
  | .cont => false
  | .block b => freeList b
  | .ifThen _ t => free t
  | .ifElse _ t e => free t && free e
  | .try b hs => freeList b && freeHandlers hs
  | _ => true

def freeList : List Src → Bool
  | [] => true
  | s :: b => free s && freeList b

def freeHandlers : List (Handler × List Src) → Bool
  | [] => true
  | (_, b) :: hs => freeList b && freeHandlers hs

end

/-- The body of a loop is a block, or has no jumps. -/
def LoopBody (b : Src) : Prop := isBlock b = true ∨ free b = true

mutual

/-- The branch in front of an `else` is closed, the body of a loop is a block or has no jumps, and declared names are not those of
types. -/
def Fits (w : Site) : Src → Prop
  | .simple i => ∀ x ∈ i.names, NotType w x
  | .block b => FitsList w b
  | .ifThen _ t => Fits w t
  | .ifElse _ t e => closed t = true ∧ Fits w t ∧ Fits w e
  | .while _ b => LoopBody b ∧ Fits w b
  | .for i _ p b => (∀ x ∈ optNames i, NotType w x) ∧ (∀ x ∈ optNames p, NotType w x) ∧ LoopBody b ∧ Fits w b
  | .foreach d _ b => NotType w d.name ∧ LoopBody b ∧ Fits w b
  | .switch _ cs => FitsCases w cs
  | .try b hs => FitsList w b ∧ FitsHandlers w hs
  | _ => True

def FitsList (w : Site) : List Src → Prop
  | [] => True
  | s :: b => Fits w s ∧ FitsList w b

def FitsCases (w : Site) : List (Option Syn × List Src) → Prop
  | [] => True
  | (_, b) :: cs => FitsList w b ∧ FitsCases w cs

def FitsHandlers (w : Site) : List (Handler × List Src) → Prop
  | [] => True
  | (.catch d, b) :: hs => NotType w d.name ∧ FitsList w b ∧ FitsHandlers w hs
  | (_, b) :: hs => FitsList w b ∧ FitsHandlers w hs

end

/-! ## Jumps -/

mutual

theorem free_stmt (w : Site) (a a' : Bool) : ∀ (s : Src) (st : St), free s = true → elabStmt w a st s = elabStmt w a' st s
  | .empty, _, _ => rfl
  | .simple _, _, _ => rfl
  | .block b, st, h => by simp only [free] at h; simp only [elabStmt, free_list w a a' b _ h]
  | .ifThen c t, st, h => by
    simp only [free] at h
    simp only [elabStmt, free_stmt w a a' t _ h]
  | .ifElse c t e, st, h => by
    simp only [free, Bool.and_eq_true] at h
    simp only [elabStmt, free_stmt w a a' t _ h.1, fun st => free_stmt w a a' e st h.2]
  | .while c b, _, _ => rfl
  | .for i c p b, _, _ => rfl
  | .foreach d e b, _, _ => rfl
  | .switch e cs, _, _ => rfl
  | .try b hs, st, h => by
    simp only [free, Bool.and_eq_true] at h
    simp only [elabStmt, free_list w a a' b _ h.1, fun st c => free_handlers w a a' hs st c h.2]
  | .ret _, _, _ => rfl
  | .throw _, _, _ => rfl
  | .brk, _, h => by simp [free] at h
  | .cont, _, h => by simp [free] at h
  | .assert _ _, _, _ => rfl
  | .print _, _, _ => rfl
  | .exit _, _, _ => rfl
  | .delete _, _, _ => rfl

theorem free_list (w : Site) (a a' : Bool) : ∀ (b : List Src) (st : St), freeList b = true → elabList w a st b = elabList w a' st b
  | [], _, _ => rfl
  | s :: b, st, h => by
    simp only [freeList, Bool.and_eq_true] at h
    simp only [elabList, free_stmt w a a' s _ h.1, fun st => free_list w a a' b st h.2]

theorem free_handlers (w : Site) (a a' : Bool) : ∀ (hs : List (Handler × List Src)) (st : St) (c : Clauses), freeHandlers hs = true →
    elabHandlers w a st c hs = elabHandlers w a' st c hs
  | [], _, _, _ => rfl
  | (.catchAll, b) :: hs, st, c, h => by
    simp only [freeHandlers, Bool.and_eq_true] at h
    simp only [elabHandlers, free_list w a a' b _ h.1, fun st c => free_handlers w a a' hs st c h.2]
  | (.catch d, b) :: hs, st, c, h => by
    simp only [freeHandlers, Bool.and_eq_true] at h
    simp only [elabHandlers, fun st => free_list w a a' b st h.1, fun st c => free_handlers w a a' hs st c h.2]
  | (.fin, b) :: hs, st, c, h => by
    simp only [freeHandlers, Bool.and_eq_true] at h
    simp only [elabHandlers, free_list w a a' b _ h.1, fun st c => free_handlers w a a' hs st c h.2]

end

/-! ## Names -/

theorem Names.leave {w : Site} {needs : Bool} {b : List Node × St} {q : List Node × St} (h : Names w b.2) (hl : leave needs b = some q) :
    Names w q.2 := by
  unfold Stmt.leave at hl
  split at hl
  · cases hl
  · cases hl; exact h.pop

theorem Names.opt {w : Site} {s : St} (hn : Names w s) {i : Option Simple} (hx : ∀ x ∈ optNames i, NotType w x) {q : Node × St}
    (h : elabOpt w s i = some q) : Names w q.2 := by
  cases i with
  | none => cases h; exact hn
  | some i => exact hn.simple hx h

mutual

theorem Names.stmt (w : Site) (a : Bool) : ∀ (s : Src) (st : St) (q : Node × St), Fits w s → Names w st →
    elabStmt w a st s = some q → Names w q.2
  | .empty, st, q, _, hn, h => by cases h; exact hn
  | .simple i, st, q, hf, hn, h => hn.simple hf h
  | .block b, st, q, hf, hn, h => by
    simp only [elabStmt, Option.map_eq_some_iff, Option.bind_eq_some_iff] at h
    obtain ⟨r, ⟨p, hp, hl⟩, rfl⟩ := h
    exact (Names.list w a b _ p hf hn.enter hp).leave hl
  | .ifThen c t, st, q, hf, hn, h => by
    simp only [elabStmt, Option.map_eq_some_iff, Option.bind_eq_some_iff] at h
    obtain ⟨x, -, r, hr, rfl⟩ := h
    exact Names.stmt w a t _ r hf hn hr
  | .ifElse c t e, st, q, hf, hn, h => by
    simp only [elabStmt, Option.map_eq_some_iff, Option.bind_eq_some_iff] at h
    obtain ⟨x, -, r, hr, p, hp, rfl⟩ := h
    exact Names.stmt w a e _ p hf.2.2 (Names.stmt w a t _ r hf.2.1 hn hr) hp
  | .while c b, st, q, hf, hn, h => by
    simp only [elabStmt, Option.map_eq_some_iff, Option.bind_eq_some_iff] at h
    obtain ⟨x, -, r, hr, rfl⟩ := h
    exact Names.stmt w true b _ r hf.2 hn hr
  | .for i c p b, st, q, hf, hn, h => by
    simp only [elabStmt, Option.map_eq_some_iff, Option.bind_eq_some_iff] at h
    obtain ⟨x, hx, _, -, y, hy, r, hr, rfl⟩ := h
    exact (Names.stmt w true b _ r hf.2.2.2 ((hn.push.opt hf.1 hx).opt hf.2.1 hy) hr).pop
  | .foreach d e b, st, q, hf, hn, h => by
    simp only [elabStmt, Option.bind_eq_some_iff] at h
    obtain ⟨x, hx, y, -, h⟩ := h
    split at h
    · cases h
    · simp only [Option.map_eq_some_iff] at h
      obtain ⟨r, hr, rfl⟩ := h
      exact (Names.stmt w true b _ r hf.2.2 (hn.push.declare hf.1 hx) hr).pop
  | .switch e cs, st, q, hf, hn, h => by
    simp only [elabStmt, Option.bind_eq_some_iff] at h
    obtain ⟨x, -, r, hr, h⟩ := h
    split at h
    · cases h
    · cases h; exact Names.cases w cs _ _ _ r hf hn hr
  | .try b hs, st, q, hf, hn, h => by
    simp only [elabStmt, Option.bind_eq_some_iff, Option.map_eq_some_iff] at h
    obtain ⟨r, ⟨p, hp, hl⟩, c, hc, rfl⟩ := h
    have h1 : Names w { st with thrown := [] }.enter := (Names.of_scopes hn rfl : Names w { st with thrown := [] }).enter
    exact (Names.handlers w a hs _ _ c hf.2 ((Names.list w a b _ p hf.1 h1 hp).leave hl) hc).of_scopes rfl
  | .ret e, st, q, _, hn, h => by
    simp only [elabStmt, Option.bind_eq_some_iff] at h
    obtain ⟨x, -, h⟩ := h
    split at h
    · cases h; exact hn.of_scopes rfl
    · cases h
  | .throw e, st, q, _, hn, h => by
    simp only [elabStmt, Option.map_eq_some_iff] at h
    obtain ⟨x, -, rfl⟩ := h
    exact hn.of_scopes rfl
  | .brk, st, q, _, hn, h => by
    simp only [elabStmt] at h
    split at h
    · cases h; exact hn.of_scopes rfl
    · cases h
  | .cont, st, q, _, hn, h => by
    simp only [elabStmt] at h
    split at h
    · cases h; exact hn.of_scopes rfl
    · cases h
  | .assert c m, st, q, _, hn, h => by
    simp only [elabStmt, Option.bind_eq_some_iff, Option.map_eq_some_iff] at h
    obtain ⟨x, -, y, -, rfl⟩ := h
    exact hn
  | .print e, st, q, _, hn, h => by
    simp only [elabStmt, Option.map_eq_some_iff] at h
    obtain ⟨x, -, rfl⟩ := h
    exact hn
  | .exit e, st, q, _, hn, h => by
    simp only [elabStmt, Option.map_eq_some_iff] at h
    obtain ⟨x, -, rfl⟩ := h
    exact hn.of_scopes rfl
  | .delete e, st, q, _, hn, h => by
    simp only [elabStmt, Option.map_eq_some_iff] at h
    obtain ⟨x, -, rfl⟩ := h
    exact hn

theorem Names.list (w : Site) (a : Bool) : ∀ (b : List Src) (st : St) (q : List Node × St), FitsList w b → Names w st →
    elabList w a st b = some q → Names w q.2
  | [], st, q, _, hn, h => by cases h; exact hn
  | s :: b, st, q, hf, hn, h => by
    simp only [elabList, Option.bind_eq_some_iff, Option.map_eq_some_iff] at h
    obtain ⟨r, hr, p, hp, rfl⟩ := h
    exact Names.list w a b _ p hf.2 (Names.stmt w a s _ r hf.1 hn hr) hp

theorem Names.cases (w : Site) : ∀ (cs : List (Option Syn × List Src)) (st : St) (acc : List (Expr × List Node)) (d : Option (List Node))
    (q : (List (Expr × List Node) × Option (List Node)) × St), FitsCases w cs → Names w st → elabCases w st acc d cs = some q → Names w q.2
  | [], st, acc, d, q, _, hn, h => by cases h; exact hn
  | (some e, b) :: cs, st, acc, d, q, hf, hn, h => by
    simp only [elabCases, Option.bind_eq_some_iff] at h
    obtain ⟨x, -, r, ⟨p, hp, hl⟩, h⟩ := h
    exact Names.cases w cs _ _ _ q hf.2 ((Names.list w true b _ p hf.1 hn.enter hp).leave hl) h
  | (none, b) :: cs, st, acc, d, q, hf, hn, h => by
    simp only [elabCases] at h
    split at h
    · cases h
    · simp only [Option.bind_eq_some_iff] at h
      obtain ⟨r, ⟨p, hp, hl⟩, h⟩ := h
      exact Names.cases w cs _ _ _ q hf.2 ((Names.list w true b _ p hf.1 hn.enter hp).leave hl) h

theorem Names.handlers (w : Site) (a : Bool) : ∀ (hs : List (Handler × List Src)) (st : St) (c : Clauses) (q : Clauses × St),
    FitsHandlers w hs → Names w st → elabHandlers w a st c hs = some q → Names w q.2
  | [], st, c, q, _, hn, h => by cases h; exact hn
  | (.catchAll, b) :: hs, st, c, q, hf, hn, h => by
    simp only [elabHandlers, Option.bind_eq_some_iff] at h
    obtain ⟨r, ⟨p, hp, hl⟩, h⟩ := h
    have h1 : Names w { st.push with thrown := [] }.enter := (Names.of_scopes hn.push rfl : Names w { st.push with thrown := [] }).enter
    exact Names.handlers w a hs _ _ q hf.2 ((Names.list w a b _ p hf.1 h1 hp).leave hl).pop h
  | (.catch d, b) :: hs, st, c, q, hf, hn, h => by
    simp only [elabHandlers, Option.bind_eq_some_iff] at h
    obtain ⟨x, hx, r, ⟨p, hp, hl⟩, h⟩ := h
    have h1 : Names w { x.2 with thrown := x.2.thrown.erase x.1.ty }.enter :=
      (Names.of_scopes (hn.push.declare hf.1 hx) rfl : Names w { x.2 with thrown := x.2.thrown.erase x.1.ty }).enter
    exact Names.handlers w a hs _ _ q hf.2.2 ((Names.list w a b _ p hf.2.1 h1 hp).leave hl).pop h
  | (.fin, b) :: hs, st, c, q, hf, hn, h => by
    simp only [elabHandlers] at h
    split at h
    · cases h
    · simp only [Option.bind_eq_some_iff] at h
      obtain ⟨r, ⟨p, hp, hl⟩, h⟩ := h
      exact Names.handlers w a hs _ _ q hf.2 ((Names.list w a b _ p hf.1 hn.enter hp).leave hl) h

end

end Verif.Stmt
