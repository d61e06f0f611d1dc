import Verif.Decl.Model
import Verif.Brackets.Props

/-!
# The reading of declarations always ends

The fuel of the model is enough for every list of tokens: `Leaves m r` says that `r` is no lack of fuel and leaves at most `m` tokens.
-/

namespace Verif.Decl

open Verif.Str (Text)
open Verif.Lex (Tok Ty Cat)
open Verif.Expr (Res expect)

/-- No lack of fuel, and at most `m` tokens are left. -/
def Leaves {α : Type} (m : Nat) : Res α → Prop
  | .ok _ r => r.length ≤ m
  | .noFuel => False
  | _ => True

theorem Leaves.bind {α β : Type} {m k : Nat} {r : Res α} {f : α → List Tok → Res β} (h : Leaves m r)
    (hf : ∀ a ts, ts.length ≤ m → Leaves k (f a ts)) : Leaves k (r.bind f) := by
  cases r with
  | ok a ts => exact hf a ts h
  | noFuel => exact h.elim
  | _ => trivial

theorem Leaves.mono {α : Type} {m k : Nat} {r : Res α} (h : Leaves m r) (hk : m ≤ k) : Leaves k r := by
  cases r with
  | ok a ts => exact Nat.le_trans h hk
  | noFuel => exact h.elim
  | _ => trivial

theorem Leaves.ok {α : Type} {m : Nat} {a : α} {ts : List Tok} (h : ts.length ≤ m) : Leaves m (.ok a ts) := h

theorem Leaves.ite {α : Type} {m : Nat} {c : Prop} [Decidable c] {a b : Res α} (ha : Leaves m a) (hb : Leaves m b) :
    Leaves m (if c then a else b) := by
  split <;> assumption

theorem attr_leaves {α : Type} (ty : Ty) (f : Text → α) (d : α) (ts : List Tok) : Leaves ts.length (attr ty f d ts) := by
  cases ts with
  | nil => trivial
  | cons t ts => exact .ite (.ok (by simp)) (.ok (by simp))

theorem visibility_leaves (d : Vis) (ts : List Tok) : Leaves ts.length (visibility d ts) := by
  cases ts with
  | nil => trivial
  | cons t ts =>
    refine .ite ?_ (.ok (by simp))
    split
    · exact .ok (by simp)
    · trivial

theorem accessMode_leaves (d : Access) (ts : List Tok) : Leaves ts.length (accessMode d ts) := by
  cases ts with
  | nil => trivial
  | cons t ts => exact .ite (.ok (by simp)) (.ok (by simp))

theorem exceptions_leaves (d : Bool) (ts : List Tok) : Leaves ts.length (exceptions d ts) := by
  cases ts with
  | nil => trivial
  | cons t ts => exact .ite (.ok (by simp)) (.ite (.ok (by simp)) (.ok (by simp)))

theorem identify_leaves : ∀ (m : Nat) (ts : List Tok), ts.length ≤ m + 1 → Leaves m (identify ts)
  | _, [], _ => trivial
  | m, t :: ts, h => by
    rw [identify.eq_def]
    refine .ite ?_ (.ok (by simpa using h))
    match ts with
    | [] => trivial
    | d :: ts =>
      refine .ite (.ok (by simpa using h)) ?_
      refine .bind (identify_leaves m ts (by simp at h; omega)) fun _ _ h' => .ok h'

theorem constraint_leaves (ts : List Tok) : Leaves ts.length (constraint ts) := by
  cases ts with
  | nil => trivial
  | cons t ts =>
    refine .ite ?_ (.ok (by simp))
    cases ts with
    | nil => trivial
    | cons u ts => exact .ite (.ok (by simp; omega)) trivial

theorem comma_leaves (ts : List Tok) : Leaves ts.length (comma ts) := by
  cases ts with
  | nil => trivial
  | cons t ts => exact .ite (.ok (by simp)) (.ok (by simp))

theorem argList_leaves : ∀ (n : Nat) (ts : List Tok), ts.length < n → Leaves ts.length (argList n ts)
  | 0, _, h => by omega
  | _ + 1, [], _ => trivial
  | n + 1, t :: ts, h => by
    simp only [List.length_cons] at h ⊢
    refine .ite (.ok (by omega)) ?_
    refine (constraint_leaves ts).bind fun _ r h1 => (comma_leaves r).bind fun _ s h2 => ?_
    exact (argList_leaves n s (by omega)).bind fun _ u h3 => .ok (by omega)

theorem typeArgs_leaves (ts : List Tok) : Leaves ts.length (typeArgs ts) := by
  cases ts with
  | nil => trivial
  | cons t ts => exact .ite ((argList_leaves _ _ (by omega)).mono (by simp)) (.ok (by simp))

theorem typeDeclaration_leaves {m : Nat} (ts : List Tok) (h : ts.length ≤ m + 1) : Leaves m (typeDeclaration ts) := by
  refine (identify_leaves m ts h).bind fun _ r h1 => (typeArgs_leaves r).bind fun _ s h2 => (attr_leaves _ _ _ s).bind fun _ u h3 => ?_
  exact .ok (by omega)

theorem ancestor_leaves {n : Nat} {rel : Relation} {k : List Tok → Res (List Ancestor)} {ts : List Tok} (h : ts.length ≤ n + 1)
    (hk : ∀ r, r.length ≤ n → Leaves r.length (k r)) : Leaves ts.length (ancestor rel k ts) := by
  cases ts with
  | nil => trivial
  | cons t ts =>
    simp only [List.length_cons] at h ⊢
    refine .ite (.ok (by simp)) ?_
    refine (identify_leaves ts.length (t :: ts) (by simp)).bind fun _ r h1 => (typeArgs_leaves r).bind fun _ s h2 => ?_
    exact (hk s (by omega)).bind fun _ u h3 => .ok (by omega)

theorem ancestorLoop_leaves : ∀ (n : Nat) (b : Bool) (rel : Relation) (ts : List Tok), ts.length < n →
    Leaves ts.length (ancestorLoop n b rel ts)
  | 0, _, _, _, h => by omega
  | _ + 1, _, _, [], _ => trivial
  | n + 1, b, rel, t :: ts, h => by
    simp only [List.length_cons] at h
    have h1 : ∀ rel' b', Leaves (t :: ts).length (ancestor rel' (ancestorLoop n b' rel') ts) := fun rel' b' =>
      (ancestor_leaves (n := n - 1) (by omega) fun r hr => ancestorLoop_leaves n b' rel' r (by omega)).mono (by simp)
    refine .ite (.ite trivial (h1 _ _)) (.ite (.ite trivial (h1 _ _)) (.ite (.ite trivial (h1 _ _)) (.ite ?_ ?_)))
    · exact (ancestorLoop_leaves n b rel ts (by omega)).mono (by simp)
    · exact ancestor_leaves (n := n - 1) (by simp; omega) fun r hr => ancestorLoop_leaves n b rel r (by omega)

theorem inheritance_leaves (ts : List Tok) : Leaves ts.length (inheritance ts) := by
  cases ts with
  | nil => trivial
  | cons t ts => exact .ite (.ok (by simp)) (ancestorLoop_leaves _ _ _ _ (by simp))

theorem value_leaves (neg : Bool) (type : Text) (ts : List Tok) : Leaves ts.length (value neg type ts) := by
  cases ts with
  | nil => trivial
  | cons t ts => exact .ite (.ok (by simp)) trivial

theorem initialValue_leaves (type : Text) (ts : List Tok) : Leaves ts.length (initialValue type ts) := by
  cases ts with
  | nil => trivial
  | cons t ts => exact .ite ((value_leaves _ _ _).mono (by simp)) (value_leaves _ _ _)

theorem paramName_leaves (ts : List Tok) : Leaves ts.length (paramName ts) := by
  cases ts with
  | nil => trivial
  | cons t ts => exact .ite (.ok (by simp)) (.ok (by simp))

theorem paramDefault_leaves (n t : Text) (a : Access) (ts : List Tok) : Leaves ts.length (paramDefault n t a ts) := by
  cases ts with
  | nil => trivial
  | cons u ts =>
    refine .ite (.ite trivial ((initialValue_leaves _ _).bind fun _ r h => .ite trivial (.ok ?_))) (.ok (by simp))
    simp; omega

theorem parameter_leaves {m : Nat} (ts : List Tok) (h : ts.length ≤ m + 1) : Leaves m (parameter ts) := by
  refine (typeDeclaration_leaves ts h).bind fun _ r h1 => (paramName_leaves r).bind fun _ s h2 => (attr_leaves _ _ _ s).bind fun _ u h3 => ?_
  refine (accessMode_leaves _ u).bind fun _ v h4 => (paramDefault_leaves _ _ _ v).bind fun _ w h5 => .ok (by omega)

theorem paramLoop_leaves : ∀ (n : Nat) (ts : List Tok), ts.length ≤ n → 0 < n → Leaves ts.length (paramLoop n ts)
  | 0, _, _, h => by omega
  | _ + 1, [], _, _ => trivial
  | n + 1, t :: ts, h, _ => by
    rw [paramLoop.eq_def]
    simp only [List.length_cons] at h ⊢
    match ts with
    | [] => trivial
    | u :: ts =>
      simp only [List.length_cons] at h ⊢
      refine .ite (.ok (by simp)) ((parameter_leaves (m := ts.length) (u :: ts) (by simp)).bind fun _ r h1 => ?_)
      cases r with
      | nil => trivial
      | cons c r =>
        refine .ite (.ok (by omega)) ((paramLoop_leaves n (c :: r) (by omega) (by omega)).bind fun _ s h2 => .ok (by omega))

theorem parameters_leaves (ts : List Tok) : Leaves ts.length (parameters ts) := by
  cases ts with
  | nil => trivial
  | cons t ts => exact .ite (paramLoop_leaves _ _ (by simp) (by omega)) trivial

/-- A block is shorter than the text it is taken from. -/
theorem block_leaves {ts : List Tok} : Leaves ts.length (block ts) ∧ ∀ b r, block ts = .ok b r → b.length < ts.length := by
  unfold block
  cases h : Brackets.collectDesigntime ts with
  | ok b r =>
    obtain ⟨o, c, tail, -, -, e1, e2⟩ := Brackets.extracted_block_sound ts b r h
    refine ⟨.ok (by rw [e1, e2]; simp; omega), fun b' r' e => ?_⟩
    cases e
    rw [e2]; simp; omega
  | error => exact ⟨trivial, fun _ _ h => nomatch h⟩
  | undefined => exact ⟨trivial, fun _ _ h => nomatch h⟩

theorem reference_leaves : ∀ (ts : List Tok), Leaves ts.length (reference ts)
  | [] => trivial
  | t :: ts => by
    rw [reference.eq_def]
    refine .ite ?_ (.ok (by simp))
    match ts with
    | [] => trivial
    | d :: ts =>
      refine .ite (.ok (by simp)) ((reference_leaves ts).bind fun _ r h => .ok ?_)
      simp; omega

theorem library_leaves (ts : List Tok) : Leaves ts.length (library ts) := by
  cases ts with
  | nil => trivial
  | cons t ts =>
    unfold library expect
    refine Leaves.bind (m := ts.length) (.ite (.ok (by simp)) trivial) fun _ r h1 => ?_
    cases r with
    | nil => trivial
    | cons u r =>
      refine Leaves.bind (m := ts.length) ((reference_leaves _).mono ?_) fun _ s h2 => ?_
      · simp only [List.length_cons] at h1
        split
        · omega
        · simp only [List.length_cons]; omega
      · cases s with
        | nil => trivial
        | cons v s => exact .ite (.ok (by simp at h2 ⊢; omega)) trivial

theorem spaceNames_leaves : ∀ (ts : List Tok), Leaves ts.length (spaceNames ts)
  | [] => trivial
  | t :: ts => by
    rw [spaceNames.eq_def]
    refine .ite ?_ (.ok (by simp))
    match ts with
    | [] => trivial
    | d :: ts =>
      refine .ite ((spaceNames_leaves ts).bind fun _ r h => .ok ?_) ((spaceNames_leaves (d :: ts)).bind fun _ r h => .ok ?_)
      · simp; omega
      · simp at h ⊢; omega

theorem member_leaves (w : Where) (v : Vis) (l : Layout) (f : Feature) (ty : TypeDecl) (n : Text) (ts : List Tok) :
    Leaves ts.length (member w v l f ty n ts) := by
  refine (attr_leaves _ _ _ ts).bind fun _ r h1 => (accessMode_leaves _ r).bind fun _ s h2 => .ite trivial ?_
  cases s with
  | nil => trivial
  | cons t s =>
    refine Leaves.bind (m := ts.length) (.ite ((initialValue_leaves _ _).bind fun _ u h3 => .ok ?_) (.ok ?_)) fun _ u h4 => ?_
    · simp at h2; omega
    · omega
    · cases u with
      | nil => trivial
      | cons x u => exact .ite (.ok h4) trivial

theorem methodEnd_leaves (w : Where) (v : Vis) (l : Layout) (f : Feature) (ty : TypeDecl) (n : Text) (ps : List Param)
    (k : MethodKind) (ts : List Tok) : Leaves ts.length (methodEnd w v l f ty n ps k ts) := by
  refine (attr_leaves _ _ _ ts).bind fun _ r h1 => (exceptions_leaves _ r).bind fun _ s h2 => .ite trivial ?_
  cases s with
  | nil => trivial
  | cons t s =>
    refine Leaves.bind (m := ts.length) (.ite (.ite trivial (block_leaves.1.bind fun _ u h3 => .ok ?_)) (.ite trivial (.ok ?_))) fun _ u h4 => ?_
    · omega
    · omega
    · exact .ite trivial (.ok h4)

theorem memberOrMethod_leaves (w : Where) (i : Bool) (ts : List Tok) : Leaves ts.length (memberOrMethod w i ts) := by
  refine (visibility_leaves _ ts).bind fun _ r h1 => ?_
  refine Leaves.bind (m := r.length) (.ite (.ok (by simp)) (.ite (.ok (by simp)) (attr_leaves _ _ _ r))) fun _ s h2 => ?_
  refine (attr_leaves _ _ _ s).bind fun _ u h3 => (typeDeclaration_leaves (m := u.length) u (by omega)).bind fun _ x h4 => ?_
  cases x with
  | nil => trivial
  | cons a x =>
    cases x with
    | nil => trivial
    | cons b x =>
      refine .ite ?_ ((member_leaves _ _ _ _ _ _ _).mono ?_)
      · refine .ite trivial ((parameters_leaves _).bind fun _ y h5 => (methodEnd_leaves _ _ _ _ _ _ _ _ _).mono ?_)
        simp at h4 h5 ⊢; omega
      · simp at h4 ⊢; omega

theorem objectHead_leaves (ts : List Tok) : Leaves ts.length (objectHead ts) := by
  refine (visibility_leaves _ ts).bind fun _ r h1 => (attr_leaves _ _ _ r).bind fun _ s h2 => (attr_leaves _ _ _ s).bind fun _ u h3 => ?_
  refine .ite trivial ?_
  cases u with
  | nil => trivial
  | cons t u =>
    simp only [List.length_cons] at h3
    refine .ite trivial ((typeDeclaration_leaves (m := u.length) u (by omega)).bind fun _ x h4 => (inheritance_leaves x).bind fun _ y h5 => .ok ?_)
    omega

theorem enumeration_leaves (ts : List Tok) : Leaves ts.length (enumeration ts) := by
  refine (visibility_leaves _ ts).bind fun _ r h1 => (attr_leaves _ _ _ r).bind fun _ s h2 => ?_
  cases s with
  | nil => trivial
  | cons t s =>
    simp only [List.length_cons] at h2
    refine .ite trivial ((typeDeclaration_leaves (m := s.length) s (by omega)).bind fun _ x h4 => .ite trivial (block_leaves.1.bind fun _ y h5 => .ok ?_))
    omega

theorem interfaceHead_leaves (ts : List Tok) : Leaves ts.length (interfaceHead ts) := by
  refine (visibility_leaves _ ts).bind fun _ r h1 => (attr_leaves _ _ _ r).bind fun _ s h2 => ?_
  cases s with
  | nil => trivial
  | cons t s =>
    simp only [List.length_cons] at h2
    refine .ite trivial ((typeDeclaration_leaves (m := s.length) s (by omega)).bind fun _ x h4 => .ite trivial ((inheritance_leaves x).bind fun _ y h5 => ?_))
    exact .ite (.ok (by omega)) trivial

theorem spaceHead_leaves (ts : List Tok) : Leaves ts.length (spaceHead ts) := by
  refine (visibility_leaves _ ts).bind fun _ r h1 => (attr_leaves _ _ _ r).bind fun _ s h2 => ?_
  cases s with
  | nil => trivial
  | cons t s =>
    simp only [List.length_cons] at h2
    unfold expect
    refine Leaves.bind (m := s.length) (.ite (.ok (by simp)) trivial) fun _ x h3 => (spaceNames_leaves x).bind fun _ y h4 => .ok ?_
    omega

/-- A block and what is behind it. -/
theorem Leaves.bind_block {β : Type} {m : Nat} {ts : List Tok} {f : List Tok → List Tok → Res β}
    (h : ∀ b r, b.length < ts.length → r.length ≤ ts.length → Leaves m (f b r)) : Leaves m ((block ts).bind f) := by
  have := block_leaves (ts := ts)
  cases e : block ts with
  | ok b r => rw [e] at this; exact h b r (this.2 b r rfl) this.1
  | noFuel => rw [e] at this; exact this.1.elim
  | _ => trivial

/-- Each level takes one unit of fuel, and three levels take at least one token. -/
theorem all_leave (n : Nat) : (∀ w i ts, 3 * ts.length + 1 ≤ n → Leaves ts.length (generate n w i ts)) ∧
    (∀ w i ts, ts ≠ [] → 3 * ts.length ≤ n → Leaves ts.length (declaration n w i ts)) ∧
    (∀ i ts, ts ≠ [] → 3 * ts.length - 1 ≤ n → Leaves ts.length (object n i ts)) ∧
    (∀ ts, ts ≠ [] → 3 * ts.length - 1 ≤ n → Leaves ts.length (interface n ts)) ∧
    (∀ i ts, ts ≠ [] → 3 * ts.length - 1 ≤ n → Leaves ts.length (space n i ts)) := by
  have pos : ∀ ts : List Tok, ts ≠ [] → 0 < ts.length := fun ts h => List.length_pos_iff.2 h
  induction n with
  | zero =>
    refine ⟨fun _ _ ts h => by omega, fun _ _ ts h1 h2 => ?_, fun _ ts h1 h2 => ?_, fun ts h1 h2 => ?_, fun _ ts h1 h2 => ?_⟩ <;>
    · have := pos ts h1; omega
  | succ n ih =>
    obtain ⟨ih1, ih2, ih3, ih4, ih5⟩ := ih
    refine ⟨fun w i ts h => ?_, fun w i ts h1 h => ?_, fun i ts h1 h => ?_, fun ts h1 h => ?_, fun i ts h1 h => ?_⟩
    · cases ts with
      | nil => exact .ok (by simp)
      | cons t ts =>
        simp only [List.length_cons] at h
        simp only [generate]
        refine .ite (.ok (by simp)) ((ih2 w i (t :: ts) (by simp) (by simp; omega)).bind fun d r h2 => ?_)
        simp only [List.length_cons] at h2
        refine (ih1 w d.2 (r.drop 1) (by simp; omega)).bind fun _ s h3 => .ok ?_
        simp at h3 ⊢; omega
    · have := pos ts h1
      simp only [declaration]
      split
      · trivial
      · exact ih3 i ts h1 (by omega)
      · split
        · trivial
        · exact (enumeration_leaves ts).bind fun _ _ h => .ok h
        · split
          · trivial
          · exact ih4 ts h1 (by omega)
          · split
            · trivial
            · exact (library_leaves ts).bind fun _ _ h => .ok h
            · split
              · trivial
              · exact .ite (ih5 i ts h1 (by omega)) trivial
              · exact (memberOrMethod_leaves w i ts).bind fun _ _ h => .ok h
    · have := pos ts h1
      simp only [object]
      refine (objectHead_leaves ts).bind fun x r h2 => ?_
      obtain ⟨v, f, l, ty, as⟩ := x
      cases r with
      | nil => trivial
      | cons t r =>
        refine .ite (.ite trivial (.ite trivial (.ok h2))) (.bind_block fun b s h3 h4 => .ite trivial (.ite trivial ?_))
        refine (ih1 _ _ b (by omega)).bind fun _ _ _ => .ok (by omega)
    · have := pos ts h1
      simp only [interface]
      refine (interfaceHead_leaves ts).bind fun x r h2 => ?_
      obtain ⟨v, f, ty, as⟩ := x
      exact .bind_block fun b s h3 h4 => (ih1 _ _ b (by omega)).bind fun _ _ _ => .ok (by omega)
    · have := pos ts h1
      simp only [space]
      refine (spaceHead_leaves ts).bind fun x r h2 => ?_
      obtain ⟨v, f, ns⟩ := x
      exact .bind_block fun b s h3 h4 => (ih1 _ _ b (by omega)).bind fun _ _ _ => .ok (by omega)

end Verif.Decl
