import Verif.Types.Spec
import Verif.Types.Builtin

/-!
# Properties of the type system (C22-C25, C78)
-/

namespace Verif.Types

open Verif.Str

/-! ## The table as a function of the history -/

/-- The stored result type of `l op r`. -/
private def stored (l : TName) (o : Op) (r : TName) (tab : Table) : Option TName :=
  (tab.find l).bind fun ops => (ops.find o).bind fun rights => rights.find r

private theorem getType_ok_iff (l : TName) (o : Op) (r : TName) (tab : Table) (t : TName) :
    getType l o r tab = .ok t ↔ stored l o r tab = some t := by
  unfold getType stored
  cases h1 : tab.find l with
  | none => simp
  | some ops =>
    cases h2 : ops.find o with
    | none => simp [h2]
    | some rights => cases h3 : rights.find r <;> simp [h2, h3]

private theorem find_addRight (r t r' : TName) (m : AMap TName TName) :
    (addRight r t m).find r' = if r' = r then some ((m.find r).getD t) else m.find r' := by
  unfold addRight
  cases h : m.find r with
  | some v => by_cases e : r' = r <;> simp [e, h]
  | none =>
    by_cases e : r' = r
    · subst e; simp [AMap.find_set_self]
    · simp [e, AMap.find_set_ne (Ne.symm e)]

private theorem find_define_left (l : TName) (o : Op) (r t l' : TName) (tab : Table) :
    ((define l o r t tab).find l').isSome ↔ l' = l ∨ (tab.find l').isSome := by
  by_cases h : l' = l
  · subst h; simp [define, AMap.find_set_self]
  · simp [define, AMap.find_set_ne (Ne.symm h), h]

/-- The operations known for a left type. -/
private def storedOp (l : TName) (o : Op) (tab : Table) : Bool :=
  ((tab.find l).bind fun ops => ops.find o).isSome

private theorem storedOp_define (l : TName) (o : Op) (r t : TName) (l' : TName) (o' : Op) (tab : Table) :
    storedOp l' o' (define l o r t tab) = true ↔ (l' = l ∧ o' = o) ∨ storedOp l' o' tab = true := by
  unfold storedOp
  by_cases h : l' = l
  · subst h
    by_cases ho : o' = o
    · subst ho; simp [define, AMap.find_set_self]
    · simp only [define, AMap.find_set_self, Option.bind_some, AMap.find_set_ne (Ne.symm ho)]
      cases hl : tab.find l' <;> simp [ho, AMap.find]
  · simp [define, AMap.find_set_ne (Ne.symm h), h]

private theorem stored_define (l : TName) (o : Op) (r t : TName) (l' : TName) (o' : Op) (r' : TName) (tab : Table) :
    stored l' o' r' (define l o r t tab) =
      if l' = l ∧ o' = o ∧ r' = r then some ((stored l o r tab).getD t) else stored l' o' r' tab := by
  unfold stored
  by_cases h : l' = l
  · subst h
    by_cases ho : o' = o
    · subst ho
      simp only [define, AMap.find_set_self, Option.bind_some, find_addRight, true_and]
      cases hl : tab.find l' with
      | none => simp [AMap.find]
      | some ops => cases hop : ops.find o' <;> simp [hop, AMap.find]
    · simp only [define, AMap.find_set_self, Option.bind_some, AMap.find_set_ne (Ne.symm ho)]
      cases hl : tab.find l' <;> simp [ho, AMap.find]
  · simp [define, AMap.find_set_ne (Ne.symm h), h]

private theorem stored_registerAll (rs : List Reg) (l : TName) (o : Op) (r : TName) (tab : Table) :
    stored l o r (registerAll rs tab) = (stored l o r tab).or (firstAbout l o r rs) := by
  induction rs generalizing tab with
  | nil => simp [registerAll, firstAbout]
  | cons x rs ih =>
    have := ih (define x.left x.op x.right x.result tab)
    simp only [registerAll, List.foldl_cons] at this ⊢
    rw [this, stored_define]
    by_cases h : x.left = l ∧ x.op = o ∧ x.right = r
    · obtain ⟨rfl, rfl, rfl⟩ := h
      cases hs : stored x.left x.op x.right tab <;> simp [firstAbout]
    · have h' : ¬(l = x.left ∧ o = x.op ∧ r = x.right) := fun e => h ⟨e.1.symm, e.2.1.symm, e.2.2.symm⟩
      simp [firstAbout, h, h']

private theorem exists_cons {α : Type} (p : α → Prop) (x : α) (xs : List α) :
    (∃ y ∈ x :: xs, p y) ↔ p x ∨ ∃ y ∈ xs, p y := by simp

private theorem known_registerAll (rs : List Reg) (l : TName) (tab : Table) :
    ((registerAll rs tab).find l).isSome ↔ (tab.find l).isSome ∨ KnowsType l rs := by
  induction rs generalizing tab with
  | nil => simp [registerAll, KnowsType]
  | cons x rs ih =>
    have := ih (define x.left x.op x.right x.result tab)
    simp only [registerAll, List.foldl_cons] at this ⊢
    rw [this, find_define_left]
    unfold KnowsType; rw [exists_cons]
    constructor
    · rintro ((e | h) | h)
      · exact Or.inr (Or.inl e.symm)
      · exact Or.inl h
      · exact Or.inr (Or.inr h)
    · rintro (h | e | h)
      · exact Or.inl (Or.inr h)
      · exact Or.inl (Or.inl e.symm)
      · exact Or.inr h

private theorem knownOp_registerAll (rs : List Reg) (l : TName) (o : Op) (tab : Table) :
    storedOp l o (registerAll rs tab) = true ↔ storedOp l o tab = true ∨ KnowsOp l o rs := by
  induction rs generalizing tab with
  | nil => simp [registerAll, KnowsOp]
  | cons x rs ih =>
    have := ih (define x.left x.op x.right x.result tab)
    simp only [registerAll, List.foldl_cons] at this ⊢
    rw [this, storedOp_define]
    unfold KnowsOp; rw [exists_cons]
    constructor
    · rintro ((e | h) | h)
      · exact Or.inr (Or.inl ⟨e.1.symm, e.2.symm⟩)
      · exact Or.inl h
      · exact Or.inr (Or.inr h)
    · rintro (h | e | h)
      · exact Or.inl (Or.inr h)
      · exact Or.inl (Or.inl ⟨e.1.symm, e.2.symm⟩)
      · exact Or.inr h

private theorem firstAbout_isSome (l : TName) (o : Op) (r : TName) (rs : List Reg) :
    (firstAbout l o r rs).isSome ↔ KnowsAll l o r rs := by
  simp [firstAbout, KnowsAll, List.find?_isSome]

/-! ## C22 -/

/-- After any history of registrations the type of `l op r` is the result of the first registration about it. -/
theorem typing_is_first_registration (rs : List Reg) (l : TName) (o : Op) (r t : TName) :
    getType l o r (registerAll rs []) = .ok t ↔ firstAbout l o r rs = some t := by
  rw [getType_ok_iff, stored_registerAll]
  simp [stored, AMap.find]

/-- Later registrations never change a typing that is already fixed. -/
theorem typing_never_changes (rs later : List Reg) (l : TName) (o : Op) (r t : TName)
    (h : getType l o r (registerAll rs []) = .ok t) : getType l o r (registerAll (rs ++ later) []) = .ok t := by
  rw [typing_is_first_registration] at h ⊢
  unfold firstAbout at h ⊢
  rw [List.find?_append]
  cases hf : rs.find? (fun x => decide (x.left = l ∧ x.op = o ∧ x.right = r)) with
  | none => rw [hf] at h; cases h
  | some x => rw [hf] at h; rw [Option.some_or]; exact h

/-- A registration about one combination leaves the typing of every other combination alone. -/
theorem registration_is_local (rs : List Reg) (x : Reg) (l : TName) (o : Op) (r t : TName)
    (hne : ¬(x.left = l ∧ x.op = o ∧ x.right = r)) :
    getType l o r (registerAll (rs ++ [x]) []) = .ok t ↔ getType l o r (registerAll rs []) = .ok t := by
  rw [typing_is_first_registration, typing_is_first_registration]
  unfold firstAbout
  rw [List.find?_append]
  simp [hne]

example : getType (.b .int32) .MATH_ADDITION (.b .double) (registerAll
    [⟨.b .int32, .MATH_ADDITION, .b .double, .b .double⟩, ⟨.b .int32, .MATH_ADDITION, .b .double, .b .int32⟩] [])
      = .ok (.b .double) := by decide

example : ¬((⟨.b .int32, .MATH_ADDITION, .b .double, .b .double⟩ : Reg).left = .b .int32 ∧
    (⟨.b .int32, .MATH_ADDITION, .b .double, .b .double⟩ : Reg).op = .MATH_SUBTRACT ∧
    (⟨.b .int32, .MATH_ADDITION, .b .double, .b .double⟩ : Reg).right = .b .double) := by decide

/-! ## C23 -/

/-- The classification of an operation, stated on the history of registrations: exactly one of the four cases applies. -/
theorem type_errors_classified (rs : List Reg) (l : TName) (o : Op) (r : TName) :
    (getType l o r (registerAll rs []) = .unknownIdentifier ↔ ¬KnowsType l rs) ∧
    (getType l o r (registerAll rs []) = .unknownOperation ↔ KnowsType l rs ∧ ¬KnowsOp l o rs) ∧
    (getType l o r (registerAll rs []) = .typeMismatch ↔ KnowsOp l o rs ∧ ¬KnowsAll l o r rs) ∧
    ((∃ t, getType l o r (registerAll rs []) = .ok t) ↔ KnowsAll l o r rs) := by
  have hk := known_registerAll rs l []
  have ho := knownOp_registerAll rs l o []
  have hs := stored_registerAll rs l o r []
  have hf := firstAbout_isSome l o r rs
  simp only [AMap.find, Option.isSome_none, Bool.false_eq_true, false_or] at hk
  simp only [storedOp, AMap.find, Option.bind_none, Option.isSome_none, Bool.false_eq_true, false_or] at ho
  simp only [stored, AMap.find, Option.bind_none, Option.none_or] at hs
  rw [← hs] at hf
  clear hs
  unfold getType
  rw [← hk, ← ho, ← hf]
  cases h1 : (registerAll rs []).find l with
  | none => simp
  | some ops =>
    cases h2 : ops.find o with
    | none => simp [h2]
    | some rights => cases h3 : rights.find r <;> simp [h2, h3]


/-- All four cases occur. -/
example : let tab := registerAll [⟨.b .int32, .MATH_ADDITION, .b .int32, .b .int32⟩] []
    getType (.user "A".toList) .ASSIGN (.b .int32) tab = .unknownIdentifier ∧
    getType (.b .int32) .MATH_DIVIDE (.b .int32) tab = .unknownOperation ∧
    getType (.b .int32) .MATH_ADDITION (.b .string) tab = .typeMismatch ∧
    getType (.b .int32) .MATH_ADDITION (.b .int32) tab = .ok (.b .int32) := by decide

/-! ## The built-in table -/

private theorem registerAll_append (a b : List Reg) (tab : Table) :
    registerAll (a ++ b) tab = registerAll b (registerAll a tab) := by simp [registerAll]

/-- Acceptance in the built-in table means that some row of it says so. -/
private theorem builtin_row {l r t : BT} {o : Op} (h : getType (.b l) o (.b r) builtinTable = .ok (.b t)) :
    (l, o, r, t) ∈ builtinRows := by
  have h' := (typing_is_first_registration _ _ _ _ _).1 h
  unfold firstAbout at h'
  cases hf : builtinRegs.find? (fun x => decide (x.left = .b l ∧ x.op = o ∧ x.right = .b r)) with
  | none => rw [hf] at h'; cases h'
  | some x =>
    rw [hf] at h'
    have hp := List.find?_some hf
    have hm := List.mem_of_find?_eq_some hf
    simp only [decide_eq_true_eq] at hp
    simp only [Option.map_some, Option.some.injEq] at h'
    obtain ⟨⟨l', o', r', t'⟩, hmem, rfl⟩ := List.mem_map.1 hm
    simp only [TName.b.injEq] at hp h'
    obtain ⟨rfl, rfl, rfl⟩ := hp
    subst h'
    exact hmem

/-- Every row of the built-in table has built-in types only, so its results are built-in types. -/
private theorem builtin_result {l r : BT} {o : Op} {t : TName} (h : getType (.b l) o (.b r) builtinTable = .ok t) :
    ∃ t', t = .b t' := by
  have h' := (typing_is_first_registration _ _ _ _ _).1 h
  unfold firstAbout at h'
  cases hf : builtinRegs.find? (fun x => decide (x.left = .b l ∧ x.op = o ∧ x.right = .b r)) with
  | none => rw [hf] at h'; cases h'
  | some x =>
    rw [hf] at h'
    obtain ⟨⟨l', o', r', t'⟩, _, rfl⟩ := List.mem_map.1 (List.mem_of_find?_eq_some hf)
    simp only [Option.map_some, Option.some.injEq] at h'
    exact ⟨t', h'.symm⟩

private theorem all_rows {p : BRow → Prop} (h1 : ∀ x ∈ initBool, p x) (h2 : ∀ x ∈ initDouble, p x)
    (h3 : ∀ x ∈ initEnumeration, p x) (h4 : ∀ x ∈ initFloat, p x) (h5 : ∀ x ∈ initInt16, p x) (h6 : ∀ x ∈ initInt32, p x)
    (h7 : ∀ x ∈ initInt64, p x) (h8 : ∀ x ∈ initObject, p x) (h9 : ∀ x ∈ initString, p x) :
    ∀ x ∈ builtinRows, p x := by
  intro x hx
  simp only [builtinRows, List.mem_append] at hx
  rcases hx with (((((((h | h) | h) | h) | h) | h) | h) | h) | h
  · exact h1 x h
  · exact h2 x h
  · exact h3 x h
  · exact h4 x h
  · exact h5 x h
  · exact h6 x h
  · exact h7 x h
  · exact h8 x h
  · exact h9 x h

/-- The operations the type checker accepts on built-in values but no value can execute. -/
def gap (l : BT) (o : Op) (r : BT) : Bool :=
  o = .BITCOMPLEMENT || (o = .MATH_ADDITION && r = .unary) ||
  ((o = .BITAND || o = .BITOR) && (l = .int16 || l = .int64))

/-- The check of one row for C24. -/
private def rowRuns (x : BRow) : Prop :=
  x.1 = .object ∨ ((gap x.1 x.2.1 x.2.2.1 = true ↔ run x.2.1 x.1 x.2.2.1 = .invalidOperation) ∧
    run x.2.1 x.1 x.2.2.1 ≠ .notSupported)

private instance (x : BRow) : Decidable (rowRuns x) := by unfold rowRuns; infer_instance

set_option maxRecDepth 4000 in
private theorem rows_run : ∀ x ∈ builtinRows, rowRuns x :=
  all_rows (by decide +kernel) (by decide +kernel) (by decide +kernel) (by decide +kernel) (by decide +kernel)
    (by decide +kernel) (by decide +kernel) (by decide +kernel) (by decide +kernel)

/-- A row of the table is found by the lookup. -/
private theorem accepted_of_firstAbout {l r t : BT} {o : Op}
    (h : firstAbout (.b l) o (.b r) builtinRegs = some (.b t)) : getType (.b l) o (.b r) builtinTable = .ok (.b t) :=
  (typing_is_first_registration _ _ _ _ _).2 h

/-! ## C24 -/

/-- Not everything the compiler accepts can be executed: the sum `+x` of an `int`, and `a & b` of two `int16`, pass the type
checker but always fail at run time. -/
theorem accepted_operation_fails_refuted :
    (getType (.b .int32) .MATH_ADDITION (.b .unary) builtinTable = .ok (.b .int32) ∧
      run .MATH_ADDITION .int32 .unary = .invalidOperation) ∧
    (getType (.b .int16) .BITAND (.b .int16) builtinTable = .ok (.b .int16) ∧
      run .BITAND .int16 .int16 = .invalidOperation) := by
  refine ⟨⟨accepted_of_firstAbout (by decide +kernel), by decide⟩, ⟨accepted_of_firstAbout (by decide +kernel), by decide⟩⟩

/-- What the compiler accepts on built-in values can be executed, with exactly these exceptions: unary plus, the binary `~`,
and `&` and `|` with an `int16` or `int64` on the left. -/
theorem accepted_operation_runs_partial (l r : BT) (o : Op) (t : TName) (hl : l ≠ .object)
    (h : getType (.b l) o (.b r) builtinTable = .ok t) :
    ((∃ v, run o l r = .value v) ↔
      ¬(o = .BITCOMPLEMENT ∨ (o = .MATH_ADDITION ∧ r = .unary) ∨ ((o = .BITAND ∨ o = .BITOR) ∧ (l = .int16 ∨ l = .int64)))) := by
  obtain ⟨t', rfl⟩ := builtin_result h
  have hr := rows_run _ (builtin_row h)
  simp only [rowRuns, hl, false_or] at hr
  obtain ⟨h1, h2⟩ := hr
  have hg : gap l o r = true ↔
      (o = .BITCOMPLEMENT ∨ (o = .MATH_ADDITION ∧ r = .unary) ∨ ((o = .BITAND ∨ o = .BITOR) ∧ (l = .int16 ∨ l = .int64))) := by
    simp [gap, or_assoc]
  rw [← hg, h1]
  cases hrun : run o l r with
  | value v => simp
  | invalidOperation => simp
  | notSupported => exact absurd hrun h2

example : getType (.b .string) .MATH_ADDITION (.b .int64) builtinTable = .ok (.b .string) ∧
    run .MATH_ADDITION .string .int64 = .value .string :=
  ⟨accepted_of_firstAbout (by decide +kernel), by decide⟩

/-! ## C25 -/

/-- The static result type is not always the type of the value: `int + double` and `int16 + int` are predicted to be `double`
and `int` but are an `int` and an `int16`. -/
theorem static_type_wrong_refuted :
    (getType (.b .int32) .MATH_ADDITION (.b .double) builtinTable = .ok (.b .double) ∧
      run .MATH_ADDITION .int32 .double = .value .int32) ∧
    (getType (.b .int16) .MATH_ADDITION (.b .int32) builtinTable = .ok (.b .int32) ∧
      run .MATH_ADDITION .int16 .int32 = .value .int16) := by
  refine ⟨⟨accepted_of_firstAbout (by decide +kernel), by decide⟩, ⟨accepted_of_firstAbout (by decide +kernel), by decide⟩⟩

/-- The check of one row for C25. -/
private def rowTyped (x : BRow) : Prop :=
  x.2.1 ∈ arithmetic → x.2.2.1 ≠ .unary → x.1 ≠ .object →
    (run x.2.1 x.1 x.2.2.1 = .value x.2.2.2 ↔
      ¬((x.1 ∈ [BT.int16, .int32, .int64] ∧ x.2.2.1 ∈ [BT.double, .float]) ∨ (x.1 = .int16 ∧ x.2.2.1 ∈ [BT.int32, .int64])))

private instance (x : BRow) : Decidable (rowTyped x) := by unfold rowTyped; infer_instance

set_option maxRecDepth 4000 in
private theorem rows_typed : ∀ x ∈ builtinRows, rowTyped x :=
  all_rows (by decide +kernel) (by decide +kernel) (by decide +kernel) (by decide +kernel) (by decide +kernel)
    (by decide +kernel) (by decide +kernel) (by decide +kernel) (by decide +kernel)

/-- The value of an accepted arithmetic operation has the predicted type, exactly unless an integer is combined with a
`float` or `double` on its right, or an `int16` with a wider integer on its right. -/
theorem static_type_honoured_partial (l r t : BT) (o : Op) (ho : o ∈ arithmetic) (hr : r ≠ .unary) (hl : l ≠ .object)
    (h : getType (.b l) o (.b r) builtinTable = .ok (.b t)) :
    run o l r = .value t ↔
      ¬((l ∈ [BT.int16, .int32, .int64] ∧ r ∈ [BT.double, .float]) ∨ (l = .int16 ∧ r ∈ [BT.int32, .int64])) :=
  rows_typed _ (builtin_row h) ho hr hl

/-- The check of one row for comparisons, assignments and unary minus. -/
private def rowTyped2 (x : BRow) : Prop :=
  x.1 ≠ .object →
  (x.2.1 ∈ [Op.AND, .NAND, .NOR, .OR, .COMPARE_EQUAL, .COMPARE_UNEQUAL, .COMPARE_LESS, .COMPARE_LESS_EQUAL, .COMPARE_GREATER,
    .COMPARE_GREATER_EQUAL, .ASSIGN] ∨ (x.2.1 = .MATH_SUBTRACT ∧ x.2.2.1 = .unary)) →
  run x.2.1 x.1 x.2.2.1 = .value x.2.2.2

private instance (x : BRow) : Decidable (rowTyped2 x) := by unfold rowTyped2; infer_instance

set_option maxRecDepth 4000 in
private theorem rows_typed2 : ∀ x ∈ builtinRows, rowTyped2 x :=
  all_rows (by decide +kernel) (by decide +kernel) (by decide +kernel) (by decide +kernel) (by decide +kernel)
    (by decide +kernel) (by decide +kernel) (by decide +kernel) (by decide +kernel)

/-- Comparisons, boolean operators, assignments and unary minus always have the predicted type. -/
theorem static_type_honoured_others (l r t : BT) (o : Op) (hl : l ≠ .object)
    (ho : o ∈ [Op.AND, .NAND, .NOR, .OR, .COMPARE_EQUAL, .COMPARE_UNEQUAL, .COMPARE_LESS, .COMPARE_LESS_EQUAL,
      .COMPARE_GREATER, .COMPARE_GREATER_EQUAL, .ASSIGN] ∨ (o = .MATH_SUBTRACT ∧ r = .unary))
    (h : getType (.b l) o (.b r) builtinTable = .ok (.b t)) : run o l r = .value t :=
  rows_typed2 _ (builtin_row h) hl ho

/-- The check of one row for casts. -/
private def rowCast (x : BRow) : Prop := x.1 ≠ .object → x.2.1 = .TYPECAST → run .TYPECAST x.1 x.2.2.1 = .value x.1

private instance (x : BRow) : Decidable (rowCast x) := by unfold rowCast; infer_instance

private theorem rows_cast : ∀ x ∈ builtinRows, rowCast x :=
  all_rows (by decide +kernel) (by decide +kernel) (by decide +kernel) (by decide +kernel) (by decide +kernel)
    (by decide +kernel) (by decide +kernel) (by decide +kernel) (by decide +kernel)

/-- A cast accepted by the type checker succeeds and its value has the target type, which is the type the checker gives to the
cast. -/
theorem cast_has_target_type (target src t : BT) (hl : target ≠ .object)
    (h : getType (.b target) .TYPECAST (.b src) builtinTable = .ok (.b t)) : run .TYPECAST target src = .value target :=
  rows_cast _ (builtin_row h) hl rfl

example : getType (.b .string) .TYPECAST (.b .int64) builtinTable = .ok (.b .int64) :=
  accepted_of_firstAbout (by decide +kernel)

example : getType (.b .float) .MATH_MULTIPLY (.b .int64) builtinTable = .ok (.b .float) ∧
    run .MATH_MULTIPLY .float .int64 = .value .float :=
  ⟨accepted_of_firstAbout (by decide +kernel), by decide⟩

/-! ## User types -/

private theorem regs_of_initType (d : TypeDecl) (tab : Table) :
    initType d tab = registerAll (if isDefined d.name .ASSIGN d.name tab then [] else
      if d.isEnum then enumRegs d.name else classRegs d) tab := by
  unfold initType
  by_cases h : isDefined d.name .ASSIGN d.name tab = true
  · simp [h, registerAll]
  · by_cases he : d.isEnum = true <;> simp [h, he]

/-- The registrations made for a program's types, in order. -/
def programRegs : List TypeDecl → Table → List Reg
  | [], _ => []
  | d :: ds, tab =>
    (if isDefined d.name .ASSIGN d.name tab then [] else if d.isEnum then enumRegs d.name else classRegs d) ++
      programRegs ds (initType d tab)

private theorem initTypes_eq (ds : List TypeDecl) (tab : Table) :
    initTypes ds tab = registerAll (programRegs ds tab) tab := by
  induction ds generalizing tab with
  | nil => rfl
  | cons d ds ih =>
    have := ih (initType d tab)
    simp only [initTypes, List.foldl_cons] at this ⊢
    rw [this, programRegs, registerAll_append, ← regs_of_initType]

private theorem unaryMethodRegs_mem {n : TName} {m : OpMethod} {p : TName} {x : Reg} (h : x ∈ unaryMethodRegs n m p) :
    (x.left = n ∨ x.right = n) ∧ (x.op = .ASSIGN → x.result = x.left) := by
  unfold unaryMethodRegs at h
  cases hk : AMap.find m.name opKinds with
  | none => rw [hk] at h; cases h
  | some k =>
    rw [hk] at h
    have hm := AMap.mem_of_find hk
    have hall : ∀ e ∈ opKinds, ∀ os, e.2 = .typed os → Op.ASSIGN ∉ os := by
      have : opKinds.all (fun e => match e.2 with | .typed os => !os.contains .ASSIGN | _ => true) = true := by decide +kernel
      intro e he os hos hin
      have := List.all_eq_true.1 this e he
      simp [hos, hin] at this
    cases k with
    | own o =>
      have h : x = ⟨n, o, p, n⟩ := List.mem_singleton.1 h
      subst h
      exact ⟨Or.inl rfl, fun _ => rfl⟩
    | typed os =>
      obtain ⟨o, ho, rfl⟩ := List.mem_map.1 h
      refine ⟨Or.inl rfl, fun e => ?_⟩
      simp only at e
      subst e
      exact absurd ho (hall _ hm os rfl)
    | conversion =>
      have h : x = ⟨m.result, .ASSIGN, n, m.result⟩ ∨ x = ⟨m.result, .TYPECAST, n, m.result⟩ := by
        rcases List.mem_cons.1 h with h | h
        · exact Or.inl h
        · exact Or.inr (List.mem_singleton.1 h)
      rcases h with rfl | rfl
      · exact ⟨Or.inr rfl, fun _ => rfl⟩
      · exact ⟨Or.inr rfl, fun _ => rfl⟩

private theorem methodRegs_mem {n : TName} {m : OpMethod} {x : Reg} (h : x ∈ methodRegs n m) :
    (x.left = n ∨ x.right = n) ∧ (x.op = .ASSIGN → x.result = x.left) := by
  unfold methodRegs at h
  cases hp : m.params with
  | nil =>
    rw [hp] at h
    by_cases h1 : m.name = "operator--".toList
    · simp only [h1, if_true] at h
      rw [List.mem_singleton.1 h]
      exact ⟨Or.inl rfl, fun _ => rfl⟩
    · by_cases h2 : m.name = "operator++".toList
      · simp only [if_neg h1, if_pos h2] at h
        rw [List.mem_singleton.1 h]
        exact ⟨Or.inl rfl, fun _ => rfl⟩
      · simp only [if_neg h1, if_neg h2] at h
        cases h
  | cons p ps =>
    rw [hp] at h
    cases ps with
    | nil => exact unaryMethodRegs_mem h
    | cons q qs => cases h

private theorem classRegs_mem {d : TypeDecl} {x : Reg} (h : x ∈ classRegs d) : x.left = d.name ∨ x.right = d.name := by
  simp only [classRegs, List.mem_append, List.mem_flatMap] at h
  rcases h with (⟨m, _, h⟩ | h) | ⟨a, _, h⟩
  · exact (methodRegs_mem h).1
  · simp at h
    rcases h with rfl | rfl | rfl | rfl | rfl | rfl <;> simp
  · simp at h
    rcases h with rfl | rfl <;> simp

private theorem enumRegs_mem {n : TName} {x : Reg} (h : x ∈ enumRegs n) : x.left = n ∨ x.right = n := by
  simp [enumRegs] at h
  rcases h with rfl | rfl | rfl | rfl | rfl | rfl | rfl | rfl | rfl | rfl | rfl | rfl | rfl | rfl | rfl | rfl | rfl | rfl |
    rfl | rfl | rfl | rfl | rfl | rfl | rfl | rfl | rfl | rfl <;> simp

private theorem programRegs_mem (ds : List TypeDecl) (tab : Table) {x : Reg} (h : x ∈ programRegs ds tab) :
    ∃ d ∈ ds, x.left = d.name ∨ x.right = d.name := by
  induction ds generalizing tab with
  | nil => simp [programRegs] at h
  | cons d ds ih =>
    simp only [programRegs, List.mem_append] at h
    rcases h with h | h
    · refine ⟨d, List.mem_cons_self, ?_⟩
      by_cases h1 : isDefined d.name .ASSIGN d.name tab = true
      · simp [h1] at h
      · by_cases h2 : d.isEnum = true
        · simp only [h1, h2, if_true] at h; exact enumRegs_mem h
        · simp only [h1, h2] at h; exact classRegs_mem h
    · obtain ⟨d', hd, hx⟩ := ih _ h
      exact ⟨d', List.mem_cons_of_mem _ hd, hx⟩

/-- Whatever classes and enumerations a program declares, the typing of operations between built-in types stays as it is. -/
theorem user_types_keep_builtins (ds : List TypeDecl) (hn : ∀ d ∈ ds, ∃ n, d.name = .user n) (l r : BT) (o : Op) (t : TName) :
    getType (.b l) o (.b r) (initTypes ds builtinTable) = .ok t ↔ getType (.b l) o (.b r) builtinTable = .ok t := by
  rw [initTypes_eq, builtinTable, ← registerAll_append, typing_is_first_registration, typing_is_first_registration]
  unfold firstAbout
  rw [List.find?_append]
  have hnone : (programRegs ds builtinTable).find?
      (fun x => decide (x.left = .b l ∧ x.op = o ∧ x.right = .b r)) = none := by
    rw [List.find?_eq_none]
    intro x hx
    simp only [decide_eq_true_eq, not_and]
    intro hl _ hr
    obtain ⟨d, hd, h⟩ := programRegs_mem _ _ hx
    obtain ⟨n, hn⟩ := hn d hd
    rcases h with h | h
    · rw [h, hn] at hl; cases hl
    · rw [h, hn] at hr; cases hr
  rw [builtinTable] at hnone
  rw [hnone]
  simp

/-! ## C78 -/

/-- Every assignment registered anywhere yields the type of its target. -/
private theorem assign_result_regs (d : TypeDecl) {x : Reg} (h : x ∈ classRegs d ∨ x ∈ enumRegs d.name) (ho : x.op = .ASSIGN) :
    x.result = x.left := by
  rcases h with h | h
  · simp only [classRegs, List.mem_append, List.mem_flatMap] at h
    rcases h with (⟨m, _, h⟩ | h) | ⟨a, _, h⟩
    · exact (methodRegs_mem h).2 ho
    · simp at h
      rcases h with rfl | rfl | rfl | rfl | rfl | rfl <;> first | rfl | simp at ho
    · simp at h
      rcases h with rfl | rfl <;> first | rfl | simp at ho
  · simp [enumRegs] at h
    rcases h with rfl | rfl | rfl | rfl | rfl | rfl | rfl | rfl | rfl | rfl | rfl | rfl | rfl | rfl | rfl | rfl | rfl | rfl |
      rfl | rfl | rfl | rfl | rfl | rfl | rfl | rfl | rfl | rfl <;> first | rfl | simp at ho

private theorem assign_result_rows : ∀ x ∈ builtinRows, x.2.1 = .ASSIGN → x.2.2.2 = x.1 :=
  all_rows (by decide +kernel) (by decide +kernel) (by decide +kernel) (by decide +kernel) (by decide +kernel)
    (by decide +kernel) (by decide +kernel) (by decide +kernel) (by decide +kernel)

private theorem programRegs_assign (ds : List TypeDecl) (tab : Table) {x : Reg} (h : x ∈ programRegs ds tab)
    (ho : x.op = .ASSIGN) : x.result = x.left := by
  induction ds generalizing tab with
  | nil => simp [programRegs] at h
  | cons d ds ih =>
    simp only [programRegs, List.mem_append] at h
    rcases h with h | h
    · by_cases h1 : isDefined d.name .ASSIGN d.name tab = true
      · simp [h1] at h
      · by_cases h2 : d.isEnum = true
        · simp only [h1, h2, if_true] at h; exact assign_result_regs d (Or.inr h) ho
        · simp only [h1, h2] at h; exact assign_result_regs d (Or.inl h) ho
    · exact ih _ h

/-- In every program an accepted assignment has the type of its target. -/
theorem assignment_has_target_type (ds : List TypeDecl) (l r t : TName)
    (h : getType l .ASSIGN r (initTypes ds builtinTable) = .ok t) : t = l := by
  rw [initTypes_eq, builtinTable, ← registerAll_append, typing_is_first_registration] at h
  unfold firstAbout at h
  cases hf : (builtinRegs ++ programRegs ds (registerAll builtinRegs [])).find?
      (fun x => decide (x.left = l ∧ x.op = .ASSIGN ∧ x.right = r)) with
  | none => rw [hf] at h; cases h
  | some x =>
    rw [hf] at h
    have hp := List.find?_some hf
    have hm := List.mem_of_find?_eq_some hf
    simp only [decide_eq_true_eq] at hp
    simp only [Option.map_some, Option.some.injEq] at h
    rw [← h, ← hp.1]
    rcases List.mem_append.1 hm with hm | hm
    · obtain ⟨⟨l', o', r', t'⟩, hmem, rfl⟩ := List.mem_map.1 hm
      have := assign_result_rows _ hmem hp.2.1
      simp only at this ⊢
      rw [this]
    · exact programRegs_assign _ _ hm hp.2.1

private theorem isDefined_iff (l : TName) (o : Op) (r : TName) (tab : Table) :
    isDefined l o r tab = true ↔ ∃ t, getType l o r tab = .ok t ∧ t.isEmpty = false := by
  unfold isDefined getType
  cases h1 : tab.find l with
  | none => simp
  | some ops =>
    cases h2 : ops.find o with
    | none => simp [h2]
    | some rights => cases h3 : rights.find r <;> simp [h2, h3]

private theorem knows_ok (rs : List Reg) (l : TName) (o : Op) (r : TName) (h : KnowsAll l o r rs) :
    ∃ t, getType l o r (registerAll rs []) = .ok t := ((type_errors_classified rs l o r).2.2.2).2 h

private theorem ok_knows (rs : List Reg) (l : TName) (o : Op) (r : TName) (t : TName)
    (h : getType l o r (registerAll rs []) = .ok t) : KnowsAll l o r rs :=
  ((type_errors_classified rs l o r).2.2.2).1 ⟨t, h⟩

/-- An object of a class can be assigned to a variable of the class itself and of each of the ancestors its declaration names,
wherever in the program the class is declared, and the assignment has the ancestor's type.  The class has a name of
its own.  Missing: the ancestors of its ancestors, of which the property is false. -/
theorem assignable_to_ancestors_partial (before after : List TypeDecl) (d : TypeDecl) (n : Text)
    (hn : d.name = .user n) (hfresh : ∀ d' ∈ before, d'.name ≠ d.name) (hc : d.isEnum = false) (a : TName)
    (ha : a = d.name ∨ a ∈ d.ancestors) :
    getType a .ASSIGN d.name (initTypes (before ++ d :: after) builtinTable) = .ok a := by
  have key : ∃ t, getType a .ASSIGN d.name (initTypes (before ++ d :: after) builtinTable) = .ok t := by
    have e1 : initTypes (before ++ d :: after) builtinTable
        = initTypes after (initType d (initTypes before builtinTable)) := by simp [initTypes]
    have hnot : isDefined d.name .ASSIGN d.name (initTypes before builtinTable) = false := by
      rw [← Bool.not_eq_true, isDefined_iff]
      rintro ⟨t, ht, _⟩
      rw [initTypes_eq, builtinTable, ← registerAll_append] at ht
      obtain ⟨x, hx, hl, _, hr⟩ := ok_knows _ _ _ _ _ ht
      rcases List.mem_append.1 hx with hx | hx
      · obtain ⟨y, _, rfl⟩ := List.mem_map.1 hx
        simp only [hn] at hl
        cases hl
      · obtain ⟨d', hd', h⟩ := programRegs_mem _ _ hx
        rcases h with h | h
        · exact hfresh d' hd' (h.symm.trans hl)
        · exact hfresh d' hd' (h.symm.trans hr)
    rw [e1, initTypes_eq after, regs_of_initType, initTypes_eq before, builtinTable]
    rw [initTypes_eq, builtinTable] at hnot
    rw [hnot, hc]
    simp only [Bool.false_eq_true, if_false]
    rw [← registerAll_append, ← registerAll_append, ← registerAll_append]
    refine knows_ok _ _ _ _ ⟨⟨a, .ASSIGN, d.name, a⟩, ?_, rfl, rfl, rfl⟩
    refine List.mem_append.2 (Or.inr (List.mem_append.2 (Or.inr (List.mem_append.2 (Or.inl ?_)))))
    unfold classRegs
    rcases ha with rfl | ha
    · exact List.mem_append.2 (Or.inl (List.mem_append.2 (Or.inr (by simp))))
    · rw [List.mem_append]
      refine Or.inr (List.mem_flatMap.2 ⟨a, ha, ?_⟩)
      simp
  obtain ⟨t, ht⟩ := key
  have := assignment_has_target_type _ _ _ _ ht
  rw [this] at ht
  exact ht

example : let d : TypeDecl := ⟨.user "B".toList, false, [], [.user "A".toList, .b .object]⟩
    (∀ d' ∈ ([⟨.user "A".toList, false, [], [.b .object]⟩] : List TypeDecl), d'.name ≠ d.name) ∧
    TName.user "A".toList ∈ d.ancestors := by decide

private theorem opKinds_assign : ∀ e ∈ opKinds, e.1 ≠ "operator=".toList → e.1 ≠ "=operator".toList →
    e.2 ≠ .own .ASSIGN ∧ e.2 ≠ .conversion ∧ ∀ o, e.2 = .typed o → Op.ASSIGN ∉ o := by
  intro e he
  simp only [opKinds, List.mem_cons, List.not_mem_nil, or_false] at he
  rcases he with rfl | rfl | rfl | rfl | rfl | rfl | rfl | rfl | rfl | rfl | rfl | rfl | rfl | rfl | rfl | rfl | rfl <;>
    first
      | (intro h; exact absurd rfl h)
      | (intro _ h; exact absurd rfl h)
      | (intro _ _; exact ⟨nofun, nofun, by intro o h; cases h; decide⟩)
      | (intro _ _; exact ⟨nofun, nofun, nofun⟩)

private theorem methodRegs_assign {n : TName} {m : OpMethod} {x : Reg} (h : x ∈ methodRegs n m) (ho : x.op = .ASSIGN) :
    m.name = "operator=".toList ∨ m.name = "=operator".toList := by
  rcases Classical.em (m.name = "operator=".toList) with h1 | h1
  · exact Or.inl h1
  rcases Classical.em (m.name = "=operator".toList) with h2 | h2
  · exact Or.inr h2
  exfalso
  unfold methodRegs at h
  split at h
  · split at h
    · rw [List.mem_singleton.1 h] at ho; cases ho
    · split at h
      · rw [List.mem_singleton.1 h] at ho; cases ho
      · cases h
  · unfold unaryMethodRegs at h
    split at h
    · rename_i k hk
      obtain ⟨g1, g2, g3⟩ := opKinds_assign _ (AMap.mem_of_find hk) h1 h2
      cases k with
      | own o =>
        rw [kindRegs, List.mem_singleton] at h
        rw [h] at ho
        exact g1 (by rw [← ho])
      | typed os =>
        rw [kindRegs, List.mem_map] at h
        obtain ⟨o, hm, rfl⟩ := h
        have ho : o = .ASSIGN := ho
        exact g3 os rfl (ho ▸ hm)
      | conversion => exact g2 rfl
    · cases h
  · cases h

private theorem programRegs_from (ds : List TypeDecl) (tab : Table) {x : Reg} (h : x ∈ programRegs ds tab) :
    ∃ d ∈ ds, x ∈ enumRegs d.name ∨ x ∈ classRegs d := by
  induction ds generalizing tab with
  | nil => simp [programRegs] at h
  | cons d ds ih =>
    simp only [programRegs, List.mem_append] at h
    rcases h with h | h
    · split at h
      · cases h
      · split at h
        · exact ⟨d, by simp, Or.inl h⟩
        · exact ⟨d, by simp, Or.inr h⟩
    · obtain ⟨d', hd', h⟩ := ih _ h
      exact ⟨d', by simp [hd'], h⟩

private theorem enumRegs_assign {n l r : TName} {x : Reg} (h : x ∈ enumRegs n) (ho : x.op = .ASSIGN) (hl : x.left = l) (hr : x.right = r)
    (hlr : l ≠ r) : (∃ b, l = .b b) ∨ ∃ b, r = .b b := by
  have h' : x ∈ (enumRegs n).filter fun x => x.op = .ASSIGN := List.mem_filter.2 ⟨h, by simp [ho]⟩
  have e : ((enumRegs n).filter fun x => x.op = .ASSIGN) =
      [⟨n, .ASSIGN, n, n⟩, ⟨.b .int32, .ASSIGN, n, .b .int32⟩, ⟨.b .string, .ASSIGN, n, .b .string⟩] := rfl
  rw [e] at h'
  simp only [List.mem_cons, List.not_mem_nil, or_false] at h'
  subst hl hr
  rcases h' with rfl | rfl | rfl
  · exact absurd rfl hlr
  · exact Or.inl ⟨_, rfl⟩
  · exact Or.inl ⟨_, rfl⟩

/-- Which objects can be assigned to a variable of another class: in a program without assignment and conversion operators, those of classes whose
declaration names this class as an ancestor, and no others. -/
theorem assignable_only_to_named_ancestors (ds : List TypeDecl)
    (hm : ∀ d ∈ ds, ∀ m ∈ d.methods, m.name ≠ "operator=".toList ∧ m.name ≠ "=operator".toList) (a c : Text) (hne : a ≠ c) (t : TName)
    (h : getType (.user a) .ASSIGN (.user c) (initTypes ds builtinTable) = .ok t) :
    ∃ d ∈ ds, d.name = .user c ∧ .user a ∈ d.ancestors := by
  rw [initTypes_eq, builtinTable, ← registerAll_append] at h
  obtain ⟨x, hx, hl, ho, hr⟩ := ok_knows _ _ _ _ _ h
  have hne' : TName.user a ≠ .user c := by intro e; cases e; exact hne rfl
  rcases List.mem_append.1 hx with hx | hx
  · obtain ⟨y, _, rfl⟩ := List.mem_map.1 hx
    cases hl
  · obtain ⟨d, hd, hx | hx⟩ := programRegs_from _ _ hx
    · rcases enumRegs_assign hx ho hl hr hne' with ⟨b, hb⟩ | ⟨b, hb⟩ <;> cases hb
    · unfold classRegs at hx
      rcases List.mem_append.1 hx with hx | hx
      · rcases List.mem_append.1 hx with hx | hx
        · obtain ⟨m, hmm, hx⟩ := List.mem_flatMap.1 hx
          rcases methodRegs_assign hx ho with e | e
          · exact absurd e (hm d hd m hmm).1
          · exact absurd e (hm d hd m hmm).2
        · simp only [List.mem_cons, List.not_mem_nil, or_false] at hx
          rcases hx with rfl | rfl | rfl | rfl | rfl | rfl <;> first | exact absurd (hl.symm.trans hr) hne' | (simp at ho)
      · obtain ⟨a', ha', hx⟩ := List.mem_flatMap.1 hx
        simp only [List.mem_cons, List.not_mem_nil, or_false] at hx
        rcases hx with rfl | rfl
        · exact ⟨d, hd, hr, by have hl : a' = .user a := hl
                               rw [← hl]; exact ha'⟩
        · cases ho

/-- Three classes, each derived from the one before. -/
def threeClasses : List TypeDecl :=
  [⟨.user "A".toList, false, [], [.b .object]⟩, ⟨.user "B".toList, false, [], [.user "A".toList]⟩,
   ⟨.user "C".toList, false, [], [.user "B".toList]⟩]

/-- An object of a class cannot be assigned to a variable of the base class of its base class: `A a = new C();` is refused. -/
theorem assignable_to_distant_ancestors_refuted :
    getType (.user "B".toList) .ASSIGN (.user "C".toList) (initTypes threeClasses builtinTable) = .ok (.user "B".toList) ∧
    getType (.user "A".toList) .ASSIGN (.user "B".toList) (initTypes threeClasses builtinTable) = .ok (.user "A".toList) ∧
    ¬ ∃ t, getType (.user "A".toList) .ASSIGN (.user "C".toList) (initTypes threeClasses builtinTable) = .ok t := by
  refine ⟨?_, ?_, ?_⟩
  · exact assignable_to_ancestors_partial [⟨.user "A".toList, false, [], [.b .object]⟩, ⟨.user "B".toList, false, [], [.user "A".toList]⟩] []
      ⟨.user "C".toList, false, [], [.user "B".toList]⟩ _ rfl (by decide) rfl _ (by decide)
  · exact assignable_to_ancestors_partial [⟨.user "A".toList, false, [], [.b .object]⟩] [⟨.user "C".toList, false, [], [.user "B".toList]⟩]
      ⟨.user "B".toList, false, [], [.user "A".toList]⟩ _ rfl (by decide) rfl _ (by decide)
  · rintro ⟨t, ht⟩
    obtain ⟨d, hd, hn, ha⟩ := assignable_only_to_named_ancestors threeClasses (by decide) _ _ (by decide) t ht
    simp only [threeClasses, List.mem_cons, List.not_mem_nil, or_false] at hd
    rcases hd with rfl | rfl | rfl
    · revert hn; decide
    · revert hn; decide
    · revert ha; decide

/-! ## Operators of classes -/

/-- The comparison operators a class can define, by the name of the method. -/
def userComparisons : List (Text × Op) :=
  [("operator==".toList, .COMPARE_EQUAL), ("operator==".toList, .COMPARE_EQUAL_CONTENT), ("operator<".toList, .COMPARE_LESS),
   ("operator<=".toList, .COMPARE_LESS_EQUAL), ("operator>".toList, .COMPARE_GREATER),
   ("operator>=".toList, .COMPARE_GREATER_EQUAL)]

/-- The arithmetic operators a class can define. -/
def userArithmetic : List (Text × Op) :=
  [("operator&".toList, .BITAND), ("operator|".toList, .BITOR), ("operator~".toList, .BITCOMPLEMENT),
   ("operator+".toList, .MATH_ADDITION), ("operator/".toList, .MATH_DIVIDE), ("operator%".toList, .MATH_MODULO),
   ("operator*".toList, .MATH_MULTIPLY), ("operator-".toList, .MATH_SUBTRACT),
   ("operator<<".toList, .OPERATOR_SHIFT_LEFT), ("operator>>".toList, .OPERATOR_SHIFT_RIGHT)]

/-- Which operators, with which results, a kind of method registers for the class itself. -/
private def kindResult (n result : TName) (o : Op) : OpKind → Option TName
  | .own o' => if o' = o then some n else none
  | .typed os => if o ∈ os then some result else none
  | .conversion => none

private def isStep (o : Op) : Bool := o == .ASSIGN || o == .TYPECAST || o == .OPERATOR_DECREMENT || o == .OPERATOR_INCREMENT

private theorem kindRegs_about {n p result : TName} {k : OpKind} {x : Reg} {o : Op} (hx : x ∈ kindRegs n p result k)
    (ho : x.op = o) (hs : isStep o = false) : x.left = n ∧ x.right = p ∧ kindResult n result o k = some x.result := by
  cases k with
  | own o' =>
    have h : x = ⟨n, o', p, n⟩ := List.mem_singleton.1 hx
    subst h; simp only at ho; subst ho; simp [kindResult]
  | typed os =>
    obtain ⟨o', ho', rfl⟩ := List.mem_map.1 hx
    simp only at ho; subst ho; simp [kindResult, ho']
  | conversion =>
    have h : x = ⟨result, .ASSIGN, n, result⟩ ∨ x = ⟨result, .TYPECAST, n, result⟩ := by
      rcases List.mem_cons.1 hx with h | h
      · exact Or.inl h
      · exact Or.inr (List.mem_singleton.1 h)
    rcases h with rfl | rfl <;> (subst ho; cases hs)

private theorem kindRegs_has {n p result t : TName} {k : OpKind} {o : Op} (h : kindResult n result o k = some t) :
    (⟨n, o, p, t⟩ : Reg) ∈ kindRegs n p result k := by
  cases k with
  | own o' =>
    by_cases e : o' = o
    · simp [kindResult, e] at h; subst h; subst e; simp [kindRegs]
    · simp [kindResult, e] at h
  | typed os =>
    by_cases e : o ∈ os
    · simp [kindResult, e] at h; subst h; simp [kindRegs, e]
    · simp [kindResult, e] at h
  | conversion => cases h

private theorem methodRegs_about {n : TName} {m : OpMethod} {x : Reg} {o : Op} (hx : x ∈ methodRegs n m) (ho : x.op = o)
    (hs : isStep o = false) : ∃ p k, m.params = [p] ∧ AMap.find m.name opKinds = some k ∧ x.left = n ∧ x.right = p ∧
      kindResult n m.result o k = some x.result := by
  unfold methodRegs at hx
  cases hp : m.params with
  | nil =>
    rw [hp] at hx
    by_cases h1 : m.name = "operator--".toList
    · simp only [h1, if_true] at hx
      rw [List.mem_singleton.1 hx] at ho; simp only at ho; subst ho; cases hs
    · by_cases h2 : m.name = "operator++".toList
      · simp only [if_neg h1, if_pos h2] at hx
        rw [List.mem_singleton.1 hx] at ho; simp only at ho; subst ho; cases hs
      · simp only [if_neg h1, if_neg h2] at hx
        cases hx
  | cons p ps =>
    rw [hp] at hx
    cases ps with
    | nil =>
      simp only [unaryMethodRegs] at hx
      cases hk : AMap.find m.name opKinds with
      | none => rw [hk] at hx; cases hx
      | some k =>
        rw [hk] at hx
        obtain ⟨h1, h2, h3⟩ := kindRegs_about hx ho hs
        exact ⟨p, k, rfl, rfl, h1, h2, h3⟩
    | cons q qs => cases hx

/-- Apart from assignments and casts, what is registered for a type has the type or a built-in type on its left. -/
private theorem typeRegs_left {d : TypeDecl} {x : Reg} (h : x ∈ classRegs d ∨ x ∈ enumRegs d.name) (hs : isStep x.op = false) :
    x.left = d.name ∨ ∃ b, x.left = .b b := by
  rcases h with h | h
  · simp only [classRegs, List.mem_append, List.mem_flatMap] at h
    rcases h with (⟨m, _, h⟩ | h) | ⟨a, _, h⟩
    · obtain ⟨_, _, _, _, h, _⟩ := methodRegs_about h rfl hs; exact Or.inl h
    · simp at h
      rcases h with rfl | rfl | rfl | rfl | rfl | rfl <;> simp
    · simp at h
      rcases h with rfl | rfl <;> cases hs
  · simp [enumRegs] at h
    rcases h with rfl | rfl | rfl | rfl | rfl | rfl | rfl | rfl | rfl | rfl | rfl | rfl | rfl | rfl | rfl | rfl | rfl | rfl |
      rfl | rfl | rfl | rfl | rfl | rfl | rfl | rfl | rfl | rfl <;> simp

private theorem programRegs_left (ds : List TypeDecl) (tab : Table) {x : Reg} (h : x ∈ programRegs ds tab)
    (hs : isStep x.op = false) : (∃ d ∈ ds, x.left = d.name) ∨ ∃ b, x.left = .b b := by
  induction ds generalizing tab with
  | nil => simp [programRegs] at h
  | cons d ds ih =>
    simp only [programRegs, List.mem_append] at h
    rcases h with h | h
    · have : x ∈ classRegs d ∨ x ∈ enumRegs d.name := by
        by_cases h1 : isDefined d.name .ASSIGN d.name tab = true
        · simp [h1] at h
        · by_cases h2 : d.isEnum = true
          · simp only [h1, h2, if_true] at h; exact Or.inr h
          · simp only [h1, h2] at h; exact Or.inl h
      rcases typeRegs_left this hs with h | h
      · exact Or.inl ⟨d, by simp, h⟩
      · exact Or.inr h
    · rcases ih _ h with ⟨d', hd, hx⟩ | h
      · exact Or.inl ⟨d', by simp [hd], hx⟩
      · exact Or.inr h

private theorem firstAbout_append_skip {l : TName} {o : Op} {r : TName} {as bs : List Reg}
    (h : ∀ x ∈ as, ¬ (x.left = l ∧ x.op = o ∧ x.right = r)) : firstAbout l o r (as ++ bs) = firstAbout l o r bs := by
  unfold firstAbout
  rw [List.find?_append]
  have : as.find? (fun x => decide (x.left = l ∧ x.op = o ∧ x.right = r)) = none := by
    rw [List.find?_eq_none]
    intro x hx
    simpa using h x hx
  rw [this]; simp

private theorem firstAbout_append_hit {l : TName} {o : Op} {r t : TName} {as bs : List Reg}
    (hm : (⟨l, o, r, t⟩ : Reg) ∈ as) (h : ∀ x ∈ as, x.left = l → x.op = o → x.right = r → x.result = t) :
    firstAbout l o r (as ++ bs) = some t := by
  unfold firstAbout
  rw [List.find?_append]
  cases hf : as.find? (fun x => decide (x.left = l ∧ x.op = o ∧ x.right = r)) with
  | none => rw [List.find?_eq_none] at hf; exact absurd (hf _ hm) (by simp)
  | some x =>
    have hp := List.find?_some hf
    have hx := List.mem_of_find?_eq_some hf
    simp only [decide_eq_true_eq] at hp
    simp [h x hx hp.1 hp.2.1 hp.2.2]

private theorem user_operator (before after : List TypeDecl) (d : TypeDecl) (n : Text)
    (hn : d.name = .user n) (hfresh : ∀ d' ∈ before, d'.name ≠ d.name) (hc : d.isEnum = false)
    (ms ms' : List OpMethod) (m : OpMethod) (p t : TName) (o : Op) (k : OpKind) (hd : d.methods = ms ++ m :: ms')
    (hp : m.params = [p]) (hfirst : ∀ m' ∈ ms, m'.name = m.name → m'.params ≠ [p]) (hs : isStep o = false)
    (hk : AMap.find m.name opKinds = some k) (ht : kindResult d.name m.result o k = some t)
    (huniq : ∀ e ∈ opKinds, ∀ a b, (kindResult a b o e.2).isSome → e.1 = m.name) :
    getType d.name o p (initTypes (before ++ d :: after) builtinTable) = .ok t := by
  have e1 : initTypes (before ++ d :: after) builtinTable
      = initTypes after (initType d (initTypes before builtinTable)) := by simp [initTypes]
  have hnot : isDefined d.name .ASSIGN d.name (initTypes before builtinTable) = false := by
    rw [← Bool.not_eq_true, isDefined_iff]
    rintro ⟨t, ht, _⟩
    rw [initTypes_eq, builtinTable, ← registerAll_append] at ht
    obtain ⟨x, hx, hl, _, hr⟩ := ok_knows _ _ _ _ _ ht
    rcases List.mem_append.1 hx with hx | hx
    · obtain ⟨y, _, rfl⟩ := List.mem_map.1 hx
      simp only [hn] at hl
      cases hl
    · obtain ⟨d', hd', h⟩ := programRegs_mem _ _ hx
      rcases h with h | h
      · exact hfresh d' hd' (h.symm.trans hl)
      · exact hfresh d' hd' (h.symm.trans hr)
  rw [e1, initTypes_eq after, regs_of_initType, initTypes_eq before, builtinTable]
  rw [initTypes_eq, builtinTable] at hnot
  rw [hnot, hc]
  simp only [Bool.false_eq_true, if_false]
  rw [← registerAll_append, ← registerAll_append, ← registerAll_append, typing_is_first_registration]
  rw [firstAbout_append_skip, firstAbout_append_skip]
  · unfold classRegs
    rw [hd, List.flatMap_append, List.append_assoc, List.append_assoc, List.append_assoc, firstAbout_append_skip]
    · rw [List.flatMap_cons, List.append_assoc]
      refine firstAbout_append_hit (t := t) ?_ ?_
      · unfold methodRegs; rw [hp]; simp only [unaryMethodRegs, hk]; exact kindRegs_has ht
      · intro x hx _ ho _
        obtain ⟨p', k', h1, h2, _, _, h5⟩ := methodRegs_about hx ho hs
        rw [hk] at h2; cases h2
        rw [ht] at h5; cases h5; rfl
    · intro x hx ⟨hl, ho, hr⟩
      obtain ⟨m', hm', hx⟩ := List.mem_flatMap.1 hx
      obtain ⟨p', k', h1, h2, _, h4, h5⟩ := methodRegs_about hx ho hs
      have := huniq _ (AMap.mem_of_find h2) d.name m'.result (by rw [h5]; rfl)
      exact hfirst m' hm' this (by rw [h1, ← h4, hr])
  · intro x hx ⟨hl, ho, _⟩
    rcases programRegs_left _ _ hx (by rw [ho]; exact hs) with ⟨d', hd', h⟩ | ⟨b, h⟩
    · exact hfresh d' hd' (h.symm.trans hl)
    · rw [h, hn] at hl; cases hl
  · intro x hx ⟨hl, _, _⟩
    obtain ⟨y, _, rfl⟩ := List.mem_map.1 hx
    simp only [hn] at hl
    cases hl

private theorem kinds_unique (nm : Text) (o : Op) (h : (nm, o) ∈ userComparisons ++ userArithmetic) :
    isStep o = false ∧ ∀ e ∈ opKinds, ∀ a b, (kindResult a b o e.2).isSome → e.1 = nm := by
  have key : ∀ x ∈ userComparisons ++ userArithmetic, isStep x.2 = false ∧
      ∀ e ∈ opKinds, (match e.2 with | .own o' => o' = x.2 | .typed os => x.2 ∈ os | .conversion => False) → e.1 = x.1 := by
    intro x hx
    have h1 : (userComparisons ++ userArithmetic).all (fun x => !isStep x.2 && opKinds.all fun e =>
        !(match e.2 with | .own o' => o' == x.2 | .typed os => os.contains x.2 | .conversion => false) || e.1 == x.1) = true := by
      decide +kernel
    have h2 := List.all_eq_true.1 h1 x hx
    simp only [Bool.and_eq_true, Bool.not_eq_true'] at h2
    refine ⟨h2.1, fun e he hm => ?_⟩
    have h3 := List.all_eq_true.1 h2.2 e he
    cases hk : e.2 <;> simp_all
  obtain ⟨h1, h2⟩ := key _ h
  refine ⟨h1, fun e he a b hs => h2 e he ?_⟩
  cases hk : e.2 with
  | own o' => rw [hk] at hs; by_cases e : o' = o <;> simp_all [kindResult]
  | typed os => rw [hk] at hs; by_cases e : o ∈ os <;> simp_all [kindResult]
  | conversion => rw [hk] at hs; cases hs

/-- A comparison operator defined by a class has the result type of the first method that defines it for this type of operand,
wherever the class is declared; nothing else in the program interferes. -/
theorem user_comparison_typed (before after : List TypeDecl) (d : TypeDecl) (n : Text)
    (hn : d.name = .user n) (hfresh : ∀ d' ∈ before, d'.name ≠ d.name) (hc : d.isEnum = false)
    (ms ms' : List OpMethod) (m : OpMethod) (p : TName) (o : Op) (hd : d.methods = ms ++ m :: ms') (hp : m.params = [p])
    (hfirst : ∀ m' ∈ ms, m'.name = m.name → m'.params ≠ [p]) (ho : (m.name, o) ∈ userComparisons) :
    getType d.name o p (initTypes (before ++ d :: after) builtinTable) = .ok m.result := by
  obtain ⟨h1, h2⟩ := kinds_unique m.name o (List.mem_append.2 (Or.inl ho))
  obtain ⟨os, hk, ho'⟩ : ∃ os, AMap.find m.name opKinds = some (.typed os) ∧ o ∈ os := by
    have : ∀ x ∈ userComparisons, (match AMap.find x.1 opKinds with | some (.typed os) => os.contains x.2 | _ => false) = true := by
      decide +kernel
    have := this _ ho
    simp only at this
    split at this
    · next os hos => exact ⟨os, hos, by simpa using this⟩
    · cases this
  exact user_operator before after d n hn hfresh hc ms ms' m p _ o _ hd hp hfirst h1 hk (by simp [kindResult, ho']) h2

/-- An arithmetic operator defined by a class has the class as its type in the table. -/
theorem user_arithmetic_typed_partial (before after : List TypeDecl) (d : TypeDecl) (n : Text)
    (hn : d.name = .user n) (hfresh : ∀ d' ∈ before, d'.name ≠ d.name) (hc : d.isEnum = false)
    (ms ms' : List OpMethod) (m : OpMethod) (p : TName) (o : Op) (hd : d.methods = ms ++ m :: ms') (hp : m.params = [p])
    (hfirst : ∀ m' ∈ ms, m'.name = m.name → m'.params ≠ [p]) (ho : (m.name, o) ∈ userArithmetic) :
    getType d.name o p (initTypes (before ++ d :: after) builtinTable) = .ok d.name := by
  obtain ⟨h1, h2⟩ := kinds_unique m.name o (List.mem_append.2 (Or.inr ho))
  have hk : AMap.find m.name opKinds = some (.own o) := by
    have : ∀ x ∈ userArithmetic, AMap.find x.1 opKinds = some (.own x.2) := by decide +kernel
    exact this _ ho
  exact user_operator before after d n hn hfresh hc ms ms' m p _ o _ hd hp hfirst h1 hk (by simp [kindResult]) h2

/-- C81 does not hold for arithmetic operators: whatever the method returns, the table has the class as the type of the operation. -/
theorem user_arithmetic_result_refuted :
    ¬ ∀ (d : TypeDecl) (n : Text) (m : OpMethod) (p : TName) (o : Op), d.name = .user n → d.isEnum = false → d.methods = [m] →
      m.params = [p] → (m.name, o) ∈ userArithmetic → getType d.name o p (initTypes [d] builtinTable) = .ok m.result := by
  intro h
  have h1 := h ⟨.user "M".toList, false, [⟨"operator+".toList, [.b .int32], .b .double⟩], []⟩ "M".toList
    ⟨"operator+".toList, [.b .int32], .b .double⟩ (.b .int32) .MATH_ADDITION rfl rfl rfl rfl (by decide)
  have h2 := user_arithmetic_typed_partial [] [] ⟨.user "M".toList, false, [⟨"operator+".toList, [.b .int32], .b .double⟩], []⟩ "M".toList
    rfl (by simp) rfl [] [] ⟨"operator+".toList, [.b .int32], .b .double⟩ (.b .int32) .MATH_ADDITION rfl rfl (by simp) (by decide)
  simp only [List.nil_append] at h2
  rw [h2] at h1
  cases h1

/-- A class whose `operator+` and `operator<` have results of other types: the table has the class for the first and the declared
result for the second. -/
example : let d : TypeDecl := ⟨.user "M".toList, false, [⟨"operator+".toList, [.b .int32], .b .double⟩,
      ⟨"operator<".toList, [.b .int32], .b .int32⟩], []⟩
    d.methods = [] ++ ⟨"operator+".toList, [.b .int32], .b .double⟩ :: [⟨"operator<".toList, [.b .int32], .b .int32⟩] ∧
    ("operator+".toList, Op.MATH_ADDITION) ∈ userArithmetic ∧ ("operator<".toList, Op.COMPARE_LESS) ∈ userComparisons := by
  refine ⟨rfl, by decide, by decide⟩

end Verif.Types
