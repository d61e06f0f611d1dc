import Verif.Lex.Lemmas

/-! # Lemmas about the merging passes -/

namespace Verif.Lex

open Verif.Str

/-- No two neighbours match the rule. -/
def NoMerge (rule : Ty → Ty → Option (Cat × Ty × Text)) : List Ty → Prop
  | [] => True
  | [_] => True
  | a :: b :: t => rule a b = none ∧ NoMerge rule (b :: t)

instance (rule) : ∀ ts, Decidable (NoMerge rule ts)
  | [] => isTrue trivial
  | [_] => isTrue trivial
  | a :: b :: t =>
    have := instDecidableNoMerge rule (b :: t)
    inferInstanceAs (Decidable (rule a b = none ∧ NoMerge rule (b :: t)))

theorem mergeLoop_id {rule} (ts : List Tok) : ∀ tmp : List Tok,
    (match tmp with | [] => NoMerge rule (ts.map Tok.ty) | l :: _ => NoMerge rule (l.ty :: ts.map Tok.ty)) →
    mergeLoop rule tmp ts = tmp.reverse ++ ts := by
  induction ts with
  | nil => intro tmp _; simp [mergeLoop]
  | cons t ts ih =>
    intro tmp h
    cases tmp with
    | nil => simp only [mergeLoop]; rw [ih [t] h]; simp
    | cons l tmp =>
      simp only [mergeLoop, h.1]
      rw [ih (t :: l :: tmp) h.2]; simp

/-- The lines after merging are taken from the lines before, in the same order. -/
theorem mergeLoop_lines {rule} (ts : List Tok) : ∀ tmp : List Tok,
    ((mergeLoop rule tmp ts).map Tok.line).Sublist ((tmp.reverse ++ ts).map Tok.line) := by
  induction ts with
  | nil => intro tmp; simp [mergeLoop]
  | cons t ts ih =>
    intro tmp
    cases tmp with
    | nil => simp only [mergeLoop]; simpa using ih [t]
    | cons l tmp =>
      simp only [mergeLoop]
      split
      · rename_i c ty s _
        refine (ih (⟨c, ty, s, t.line, false⟩ :: tmp)).trans ?_
        simp only [List.reverse_cons, List.map_append, List.append_assoc, List.map_cons, List.map_nil]
        apply List.Sublist.append_left
        simp
      · simpa using ih (t :: l :: tmp)

/-- No pattern of number parts occurs. -/
def NoConst (ts : List Tok) : Prop := findPattern constPatterns ts = none

instance (ts) : Decidable (NoConst ts) := inferInstanceAs (Decidable (_ = _))

theorem replaceConsts_id {n} {ts : List Tok} (h : NoConst ts) : replaceConsts n ts = .ok ts := by
  cases n with
  | zero => rfl
  | succ n => simp only [replaceConsts, show findPattern constPatterns ts = none from h]

theorem searchPattern_split {p : List Ty} : ∀ {ts a b}, searchPattern p ts = some (a, b) → ts = a ++ b := by
  intro ts
  induction ts with
  | nil =>
    intro a b h
    simp only [searchPattern] at h
    split at h <;> simp_all
  | cons t ts ih =>
    intro a b h
    simp only [searchPattern] at h
    split at h
    · simp only [Option.some.injEq, Prod.mk.injEq] at h; obtain ⟨rfl, rfl⟩ := h; rfl
    · cases hs : searchPattern p ts with
      | none => rw [hs] at h; simp at h
      | some ab =>
        obtain ⟨a', b'⟩ := ab
        rw [hs] at h
        simp only [Option.map_some, Option.some.injEq, Prod.mk.injEq] at h
        obtain ⟨rfl, rfl⟩ := h
        rw [ih hs]; rfl

theorem findPattern_split : ∀ {ps : List (List Ty)} {ts n a b}, findPattern ps ts = some (n, a, b) → ts = a ++ b := by
  intro ps
  induction ps with
  | nil => intro ts n a b h; simp [findPattern] at h
  | cons p ps ih =>
    intro ts n a b h
    simp only [findPattern] at h
    split at h
    · rename_i a' b' hs
      simp only [Option.some.injEq, Prod.mk.injEq] at h
      obtain ⟨_, rfl, rfl⟩ := h
      exact searchPattern_split hs
    · exact ih h

theorem combine_lines : ∀ {n : Nat} {op : Tok} {ts op' ts'}, combine n op ts = some (op', ts') →
    op'.line = op.line ∧ ts'.Sublist ts := by
  intro n
  induction n with
  | zero =>
    intro op ts op' ts' h
    simp only [combine, Option.some.injEq, Prod.mk.injEq] at h
    obtain ⟨rfl, rfl⟩ := h
    exact ⟨rfl, List.Sublist.refl _⟩
  | succ n ih =>
    intro op ts op' ts' h
    cases ts with
    | nil =>
      simp only [combine, Option.some.injEq, Prod.mk.injEq] at h
      obtain ⟨rfl, rfl⟩ := h
      exact ⟨rfl, List.Sublist.refl _⟩
    | cons t ts =>
      simp only [combine] at h
      split at h
      · split at h
        · have := ih h; exact ⟨this.1, this.2.cons _⟩
        · split at h
          · have := ih h; exact ⟨this.1, this.2.cons _⟩
          · split at h
            · cases h
            · have := ih h; exact ⟨this.1, this.2.cons _⟩
      · split at h
        · have := ih h; exact ⟨this.1, this.2.cons _⟩
        · split at h
          · have := ih h; exact ⟨this.1, this.2.cons _⟩
          · split at h
            · cases h
            · have := ih h; exact ⟨this.1, this.2.cons _⟩

theorem replaceConsts_lines : ∀ {n : Nat} {ts out}, replaceConsts n ts = .ok out →
    (out.map Tok.line).Sublist (ts.map Tok.line) := by
  intro n
  induction n with
  | zero => intro ts out h; simp only [replaceConsts, LexRes.ok.injEq] at h; subst h; exact List.Sublist.refl _
  | succ n ih =>
    intro ts out h
    simp only [replaceConsts] at h
    split at h
    · simp only [LexRes.ok.injEq] at h; subst h; exact List.Sublist.refl _
    · simp only [LexRes.ok.injEq] at h; subst h; exact List.Sublist.refl _
    · rename_i m pre op rest hf
      split at h
      · cases h
      · rename_i op' rest' hcmb
        have h1 := ih h
        have h2 := combine_lines hcmb
        rw [findPattern_split hf]
        refine h1.trans ?_
        simp only [List.map_append, List.map_cons]
        apply List.Sublist.append_left
        rw [h2.1]
        exact (h2.2.map _).cons_cons _

theorem searchPattern_prefix {p : List Ty} (hp : p ≠ []) : ∀ {ts a b}, searchPattern p ts = some (a, b) →
    p.isPrefixOf (b.map Tok.ty) = true := by
  intro ts
  induction ts with
  | nil =>
    intro a b h
    simp only [searchPattern] at h
    rw [if_neg (by simpa using hp)] at h; cases h
  | cons t ts ih =>
    intro a b h
    simp only [searchPattern] at h
    split at h
    · rename_i hpre
      simp only [Option.some.injEq, Prod.mk.injEq] at h; obtain ⟨rfl, rfl⟩ := h; exact hpre
    · cases hs : searchPattern p ts with
      | none => rw [hs] at h; simp at h
      | some ab =>
        obtain ⟨a', b'⟩ := ab
        rw [hs] at h
        simp only [Option.map_some, Option.some.injEq, Prod.mk.injEq] at h
        obtain ⟨rfl, rfl⟩ := h
        exact ih hs

theorem findPattern_length : ∀ {ps : List (List Ty)} (_ : ∀ p ∈ ps, 2 ≤ p.length) {ts n a b},
    findPattern ps ts = some (n, a, b) → 1 ≤ n ∧ 2 ≤ b.length := by
  intro ps
  induction ps with
  | nil => intro _ ts n a b h; simp [findPattern] at h
  | cons p ps ih =>
    intro hps ts n a b h
    simp only [findPattern] at h
    have hp := hps p (by simp)
    split at h
    · rename_i a' b' hs
      simp only [Option.some.injEq, Prod.mk.injEq] at h
      obtain ⟨rfl, rfl, rfl⟩ := h
      have hne : p ≠ [] := by rintro rfl; simp at hp
      have := (List.isPrefixOf_iff_prefix.1 (searchPattern_prefix hne hs)).length_le
      simp only [List.length_map] at this
      omega
    · exact ih (fun q hq => hps q (by simp [hq])) h

theorem combine_shorter {n : Nat} {op t : Tok} {ts op' ts'} (h : combine (n + 1) op (t :: ts) = some (op', ts')) :
    ts'.length < (t :: ts).length := by
  have key : ∀ o : Tok, combine n o ts = some (op', ts') → ts'.length < (t :: ts).length := by
    intro o ho
    have := (combine_lines ho).2.length_le
    simp only [List.length_cons]; omega
  simp only [combine] at h
  split at h
  · split at h
    · exact key _ h
    · split at h
      · exact key _ h
      · split at h
        · cases h
        · exact key _ h
  · split at h
    · exact key _ h
    · split at h
      · exact key _ h
      · split at h
        · cases h
        · exact key _ h

/-- The given number of rounds is enough: afterwards no pattern is left, which is the only way the loop of the code
ends without an exception. -/
theorem replaceConsts_complete : ∀ {n : Nat} {ts out}, ts.length ≤ n → replaceConsts n ts = .ok out → NoConst out := by
  intro n
  induction n with
  | zero =>
    intro ts out hl h
    simp only [replaceConsts, LexRes.ok.injEq] at h
    subst h
    have : ts = [] := List.eq_nil_of_length_eq_zero (by omega)
    subst this
    decide
  | succ n ih =>
    intro ts out hl h
    simp only [replaceConsts] at h
    split at h
    · rename_i hf
      simp only [LexRes.ok.injEq] at h; subst h; exact hf
    · rename_i hf
      have := findPattern_length (by decide) hf
      simp at this
    · rename_i m pre op rest hf
      have hlen := findPattern_length (by decide) hf
      have hsplit := findPattern_split hf
      split at h
      · cases h
      · rename_i op' rest' hcmb
        refine ih ?_ h
        obtain ⟨m, rfl⟩ : ∃ k, m = k + 1 := ⟨m - 1, by omega⟩
        cases rest with
        | nil => simp at hlen
        | cons t rest =>
          have := combine_shorter hcmb
          rw [hsplit] at hl
          simp only [List.length_append, List.length_cons] at *
          omega

/-- No `operator` word occurs. -/
def NoOperatorWord (ts : List Tok) : Prop := ∀ t ∈ ts, ¬ (t.ty = .RESERVED_WORD ∧ t.content = "operator".toList)

theorem replaceOps_id (ts : List Tok) : ∀ done : List Tok, NoOperatorWord done → NoOperatorWord ts →
    replaceOps done ts = done.reverse ++ ts := by
  induction ts with
  | nil => intro done _ _; simp [replaceOps]
  | cons t ts ih =>
    intro done hd ht
    cases done with
    | nil =>
      simp only [replaceOps]
      rw [ih [t] (by intro x hx; simp at hx; subst hx; exact ht _ (by simp)) (fun x hx => ht x (by simp [hx]))]
      simp
    | cons l done =>
      simp only [replaceOps]
      rw [if_neg (fun h => ht t (by simp) h.2), if_neg (hd l (by simp))]
      rw [ih (t :: l :: done) (by
        intro x hx
        rcases List.mem_cons.1 hx with rfl | hx
        · exact ht _ (by simp)
        · exact hd x hx) (fun x hx => ht x (by simp [hx]))]
      simp

theorem replaceOps_lines (ts : List Tok) : ∀ done : List Tok,
    ((replaceOps done ts).map Tok.line).Sublist ((done.reverse ++ ts).map Tok.line) := by
  induction ts with
  | nil => intro done; simp [replaceOps]
  | cons t ts ih =>
    intro done
    cases done with
    | nil => simp only [replaceOps]; simpa using ih [t]
    | cons l done =>
      simp only [replaceOps]
      have key : ∀ t' : Tok, t'.line = t.line →
          ((replaceOps (t' :: done) ts).map Tok.line).Sublist (((l :: done).reverse ++ t :: ts).map Tok.line) := by
        intro t' ht'
        refine (ih (t' :: done)).trans ?_
        simp only [List.reverse_cons, List.map_append, List.append_assoc, List.map_cons, List.map_nil]
        apply List.Sublist.append_left
        simp [ht']
      split
      · exact key _ rfl
      · split
        · exact key _ rfl
        · simpa using ih (t :: l :: done)

theorem passes_lines {ts out} (h : passes ts = .ok out) : (out.map Tok.line).Sublist (ts.map Tok.line) := by
  simp only [passes] at h
  split at h
  · rename_i mid hmid
    simp only [LexRes.ok.injEq] at h
    subst h
    refine (replaceOps_lines mid []).trans ?_
    refine (replaceConsts_lines hmid).trans ?_
    refine (mergeLoop_lines (rule := operatorRule) _ []).trans ?_
    simpa [mergeAssignments] using mergeLoop_lines (rule := assignRule) ts []
  · rename_i hr
    exact absurd h (by intro h'; exact hr _ h')

/-- Nothing for the passes to do. -/
structure Settled (ts : List Tok) : Prop where
  assign : NoMerge assignRule (ts.map Tok.ty)
  operator : NoMerge operatorRule (ts.map Tok.ty)
  const : NoConst ts
  word : NoOperatorWord ts

theorem passes_settled {ts : List Tok} (h : Settled ts) : passes ts = .ok ts := by
  have h1 : mergeAssignments ts = ts := by
    have := mergeLoop_id (rule := assignRule) ts [] h.assign; simpa [mergeAssignments] using this
  have h2 : mergeOperators ts = ts := by
    have := mergeLoop_id (rule := operatorRule) ts [] h.operator; simpa [mergeOperators] using this
  simp only [passes, h1, h2, replaceConsts_id h.const]
  rw [replaceOps_id ts [] (by simp [NoOperatorWord]) h.word]
  rfl

end Verif.Lex
